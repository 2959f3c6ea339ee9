import Verif.Spec.RunTotals
import Verif.Spec.Lost
import Verif.Py.Path
/-! # What reports of whole runs show, with and without `--diff` and `--unify` -/
namespace EspSize

/-- Name of an archive in the reports. -/
def archKey (unify : Bool) (a : Str) : Str := if unify then basename a else a

/-- Name of a file in the reports. -/
def fileKey (unify : Bool) (a o : Str) : Str := if unify then basename o else a ++ str ":" ++ o

/-- Total size of the input sections of the selected files as they are listed, over the output sections that count. -/
noncomputable def listedBy (elf : Option (List Shdr)) (os : List ListedOut) (P : Str → Str → Bool) : Int :=
  sumBy (fun o => sumBy (fun g => if P g.archive g.object then g.size else 0) o.counted) (listedKept elf os)

/-- The same without the parts that the map does not show. -/
noncomputable def shownBy (elf : Option (List Shdr)) (os : List ListedOut) (goes : MSec → Option (Str × Str)) (parts : List MSec)
    (P : Str → Str → Bool) : Int :=
  listedBy elf os P - partsFiles P (lostParts goes parts)

end EspSize
