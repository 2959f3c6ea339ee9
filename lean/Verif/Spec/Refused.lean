import Verif.Spec.Influence
import Verif.Spec.Table
import Verif.Spec.SummaryTable
import Verif.Model.RunFiles
/-! # When a run ends with an error message instead of a report -/
namespace EspSize

/-- The symbols of an archive are listed. -/
def AsksSymbols (args : Args) : Prop :=
  args.format ∈ [str "table", str "text", str "csv", str "json2"] ∧ args.archives = false ∧ truthy args.archiveDetails = true

/-- The archive has a symbol: an archive of this short name has an object file with a symbol. -/
def SymbolIn (m : MemMap) (archive : Option Str) : Prop :=
  ∃ t s a o y ax yx, getArch m t s a = some ax ∧ some ax.abb = archive ∧ getSym m t s a o y = some yx

/-- The table printed has rows for the entries of `S`; `title` is the header of its first column. -/
inductive ListsEntries (m : MemMap) (args : Args) : Str → Dict Str Entry → Prop
  | archives {S : Dict Str Entry} : InTable args → args.archives = true → getArchivesSummary m args = .ok S →
      ListsEntries m args (str "Archive File") S
  | symbols {S : Dict Str Entry} : InTable args → args.archives = false → truthy args.archiveDetails = true → getSymbolsSummary m args = .ok S →
      ListsEntries m args (str "Symbol") S
  | files {S : Dict Str Entry} : InTable args → args.archives = false → truthy args.archiveDetails = false → args.archiveDependencies = false → args.files = true →
      getObjectFilesSummary m args = .ok S → ListsEntries m args (str "Object File") S

/-- The option `--sort` names a column of a table with first column `title` and columns `cols`.  A table without rows has the single column `Total Size`, and
any number but 0 will do. -/
def Sortable (title : Str) (cols : List Str) (empty : Bool) (sort : Str) : Prop :=
  if empty then (∃ k, pyInt10 sort = some k ∧ k ≠ 0) ∨ sort = str "Total Size" else ∃ i, Selects title cols sort i

/-- The reasons for which the program prints an error message instead of a report, once everything has been loaded: `crt` is the table of cross references, `elf` the ELF file. -/
inductive Refused (crt : Option Crt) (elf : Option ElfFile) (args : Args) (m : MemMap) : Prop where
  /-- The format `dot` is only for dependencies. -/
  | dot : args.format = str "dot" → args.archiveDependencies = false → Refused crt elf args m
  /-- Dependencies need the table of cross references. -/
  | noCrt : AsksDeps args → crt = none → Refused crt elf args m
  /-- Dependencies need the ELF file. -/
  | noElf : AsksDeps args → elf = none → Refused crt elf args m
  /-- The archive to show has no symbols. -/
  | noSymbol : AsksSymbols args → ¬ SymbolIn m args.archiveDetails → Refused crt elf args m
  /-- The table has no such column. -/
  | column {title : Str} {S : Dict Str Entry} : ListsEntries m args title S →
      ¬ Sortable title ((reportCols m).map (colTitle m args.abbrev_)) (getSummaryFiltered Entry.abb S args).isEmpty args.sort → Refused crt elf args m
  /-- The summary has no such column. -/
  | summary : InTable args → AsksSummary args → (¬ ∃ i, Selects (str "Memory Type/Section") sumColTitles args.sort i) → Refused crt elf args m

/-- The part of a run before printing: the map file `mf` and the ELF file `elf` of the input are read, the projects are loaded and compared to `d`. -/
def RunLoaded (zero : Str → Bool) (cwd : Str) (R : RunIn) (json : Str → Option JVal) (files : Str → Option (Except Err ElfFile)) (input : Str) (args : Args)
    (mf : MapFile) (elf : Option ElfFile) (d : MemMap) : Prop :=
  loadMap R.w input = .ok mf ∧ getElfOf json files input none = .ok elf ∧
  ∃ m ref, getOf zero R.n R.w json files (abspath cwd input) (loadSymbolsOf args) (useDwarfOf args) (some mf) = some (.ok m) ∧
    referenceMap args m (fun fn => getOf zero R.n R.w json files (abspath cwd fn) (loadSymbolsOf args) (useDwarfOf args) none) = some (.ok ref) ∧
    prepare args m ref = .ok d

end EspSize
