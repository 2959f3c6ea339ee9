import Verif.Spec.CsvRun
import Verif.Spec.SummaryCells
/-! # Totals of the files listed in a link map file -/
namespace EspSize

/-- Total size of the input sections of the file named `archive:object` as they are listed. -/
noncomputable def listedFileTotal (elf : Option (List Shdr)) (os : List ListedOut) (k : Str) : Int :=
  sumBy (fun o => sumBy (fun g => if g.archive ++ str ":" ++ g.object = k then g.size else 0) o.counted) (listedKept elf os)

/-- Total size of the output sections that count as they are listed. -/
noncomputable def listedUsed (elf : Option (List Shdr)) (os : List ListedOut) : Int :=
  sumBy (fun o => o.size) (listedKept elf os)

end EspSize
