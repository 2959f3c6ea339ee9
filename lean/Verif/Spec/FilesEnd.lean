import Verif.Spec.Refused
import Verif.Spec.RunEnds
/-! # Runs over the files that end -/
namespace EspSize

/-- The run over the files prints a report or fails, it does not loop. -/
def FilesRunEnds (zero : Str → Bool) (cwd : Str) (R : RunIn) (json : Str → Option JVal) (files : Str → Option (Except Err ElfFile)) (input : Str) (args : Args) : Prop :=
  ∃ n, (reportOf zero cwd { R with n := n } json files input args).isSome = true

/-- No region is `Stuck`, if the files of the project and the names of the sections of the ELF file can be read. -/
def ProjectEndsOf (zero : Str → Bool) (w : World) (json : Str → Option JVal) (files : Str → Option (Except Err ElfFile)) (fn : Str) (useDwarf : Option Bool)
    (mf : Option MapFile) : Prop :=
  ∀ l, loadOf zero w json files fn useDwarf mf = .ok l → (∃ h, headersOf l.elf = .ok h) →
    NoneStuck l.types (l.regions.filter fun r => decide (r.name ≠ str "*default*"))

end EspSize
