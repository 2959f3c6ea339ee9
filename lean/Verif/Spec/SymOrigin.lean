import Verif.Spec.Symbols
import Verif.Spec.Lost
/-! # Where the symbols of a map come from -/
namespace EspSize

/-- Archive, object file and name of all symbols of input sections. -/
def symKeys (is : List ISec) : List (Str × Str × Str) :=
  is.flatMap fun i => i.symbols.map fun y => (i.archive, i.objectFile, y.name)

/-- Size of the symbols of parts, of the archives, object files and names selected by `P`. -/
def partsSyms (P : Str → Str → Str → Bool) (ps : List MSec) : Int :=
  sumBy (fun p : MSec => sumBy (fun a => sumBy (fun o => sumBy (fun y => if P a.1 o.1 y.1 then y.2.size else 0) o.2.kids) a.2.kids)
    p.archives) ps

/-- Size of the ELF functions and objects that start in input sections, of the archives, object files and names selected
by `P`. -/
def elfSyms (P : Str → Str → Str → Bool) (syms : List ElfSym) (is : List ISec) : Int :=
  sumBy (fun i => sumBy (fun z => if StartsIn i z ∧ P i.archive i.objectFile (symEntry z).name = true then z.size else 0)
    (syms.filter fun z => Sized z)) is

/-- Name of a symbol in the reports. -/
def reportedSym (unify : Bool) (a o y : Str) : Str := if unify then y else a ++ str ":" ++ o ++ str ":" ++ y

end EspSize
