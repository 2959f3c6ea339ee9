import Verif.Model.Ops
/-! # Sums over all the archives, files and symbols of a map -/
namespace EspSize

/-- Sum over all archives of all sections of all memory types. -/
def sumArchs (m : MemMap) (F : Str → Str → Str × Arch → Int) : Int :=
  sumBy (fun t => sumBy (fun s => sumBy (fun a => F t.1 s.1 a) s.2.kids) t.2.sections) m.memoryTypes

/-- Sum over all object files of all archives of all sections of all memory types. -/
def sumObjs (m : MemMap) (F : Str → Str → Str × Arch → Str × Obj → Int) : Int :=
  sumArchs m fun t s a => sumBy (fun o => F t s a o) a.2.kids

/-- Sum over all symbols of all object files of all archives of all sections of all memory types. -/
def sumSyms (m : MemMap) (F : Str → Str → Str × Arch → Str × Obj → Str × Sym → Int) : Int :=
  sumObjs m fun t s a o => sumBy (fun y => F t s a o y) o.2.kids

/-- Name of a file in the per-file report. -/
def objKey (unify : Bool) (a : Str × Arch) (o : Str × Obj) : Str :=
  if unify then o.2.abb else a.1 ++ str ":" ++ o.1

/-- Name of a symbol in the per-symbol report. -/
def symKey (unify : Bool) (a : Str × Arch) (o : Str × Obj) (y : Str × Sym) : Str :=
  if unify then y.2.abb else a.1 ++ str ":" ++ o.1 ++ str ":" ++ y.1

end EspSize
