import Verif.Spec.Refused
import Verif.Spec.Markup
import Verif.Py.Fmt
/-! # What is said about the reason of an error message -/
namespace EspSize

/-- What is said if `--sort` cannot be used for a table with first column `title` and columns `cols`: no such column, the first column or a
number that is no column.  The numbers that can be used are said to be `1..last` and `-cols.length..-1`. -/
inductive ColumnSays (title : Str) (cols : List Str) (last : Nat) (sort : Str) : List Str → Prop
  | unknown : pyInt10 sort = none → sort ≠ title → sort ∉ cols → ColumnSays title cols last sort [str "Column \"" ++ sort ++ str "\" not found"]
  | first : pyInt10 sort = some 0 ∨ sort = title →
      ColumnSays title cols last sort [str "Sorting based on column 0, which contains row description, is not supported."]
  | range {k : Int} : pyInt10 sort = some k → k < -cols.length ∨ (cols.length : Int) < k →
      ColumnSays title cols last sort [str "Column index " ++ intStr k ++ str " is out of range.",
        str "Please use 1.." ++ intStr last ++ str " or " ++ intStr (-cols.length) ++ str "..-1 range."]

/-- The columns with numbers of a table of entries. -/
def listedCols (m : MemMap) (abbrev_ empty : Bool) : List Str := if empty then [str "Total Size"] else (reportCols m).map (colTitle m abbrev_)

/-- What is shown for the reasons of `Refused`.  The last number said to be usable is `last n` in a table of entries with `n` columns. -/
inductive Says (last : Nat → Nat) (crt : Option Crt) (elf : Option ElfFile) (args : Args) (m : MemMap) : List Str → Prop
  | dot : args.format = str "dot" → args.archiveDependencies = false →
      Says last crt elf args m [str "The DOT output format is available only for the --archive-dependencies option."]
  | noCrt : AsksDeps args → crt = none → Says last crt elf args m [str "The cross-reference table is not available."]
  | noElf : AsksDeps args → crt ≠ none → elf = none →
      Says last crt elf args m [str "Displaying archives dependencies requires an ELF file to work properly."]
  | noSymbol {a : Str} : AsksSymbols args → args.archiveDetails = some a → ¬ SymbolIn m (some a) →
      Says last crt elf args m [str "Archive \"" ++ a ++ str "\" not found."]
  | column {title : Str} {S : Dict Str Entry} {ls : List Str} : ListsEntries m args title S →
      ColumnSays title (listedCols m args.abbrev_ (getSummaryFiltered Entry.abb S args).isEmpty)
        (last (listedCols m args.abbrev_ (getSummaryFiltered Entry.abb S args).isEmpty).length) args.sort ls → Says last crt elf args m ls
  | summary {ls : List Str} : InTable args → AsksSummary args → ColumnSays (str "Memory Type/Section") sumColTitles 4 args.sort ls →
      Says last crt elf args m ls

/-- The names given with options do not look like markup.  In the summary, brackets may occur in the name of the column. -/
structure Quotable (args : Args) : Prop where
  archive : ∀ a, args.archiveDetails = some a → NoMarkup a
  sort : ¬ AsksSummary args → NoMarkup args.sort
  summary : AsksSummary args → ¬ HasEscape args.sort ∧ args.sort.getLast? ≠ some '\\'

end EspSize
