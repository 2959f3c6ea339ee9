import Verif.Spec.MapText
import Verif.Props.Filter
/-! # Totals of the archives listed in a link map file -/
namespace EspSize

open Classical in
/-- The output sections of the file that count, by the headers of the ELF file if there is one. -/
noncomputable def listedKept (elf : Option (List Shdr)) (os : List ListedOut) : List ListedOut :=
  os.filter fun o => decide (Kept elf { name := o.name, address := o.address, size := o.size, inputs := [] })

/-- Total size of the input sections of archive `a` as they are listed. -/
noncomputable def listedTotal (elf : Option (List Shdr)) (os : List ListedOut) (a : Str) : Int :=
  sumBy (fun o => sumBy (fun g => if g.archive = a then g.size else 0) o.counted) (listedKept elf os)

end EspSize
