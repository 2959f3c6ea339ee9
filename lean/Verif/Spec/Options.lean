import Verif.Spec.Fnmatch
import Verif.Model.Run
/-! # Options that only change the presentation -/
namespace EspSize

/-- The options ask for a table of archives, files or symbols. -/
def Listing (args : Args) : Prop :=
  args.archives = true ∨ truthy args.archiveDetails = true ∨ (args.archiveDependencies = false ∧ args.files = true)

/-- The format is a table. -/
def TableFormat (args : Args) : Prop := args.format = str "table" ∨ args.format = str "text"

/-- The first cell of a row has a part that is matched by one of the patterns. -/
def RowPasses (pats : List Str) (row : List Str) : Prop := ∃ name cells, row = name :: cells ∧ ∃ p ∈ pats, MatchesPart p name

/-- The second cell of a row, the total, shows a difference. -/
def RowChanged (row : List Str) : Prop := ∃ name z x cells, row = name :: colorDiff z x true :: cells ∧ x ≠ 0

/-- The CSV report with the content of a table. -/
def asCsv : Report → Report
  | .table t => .csv (csvLines t)
  | r => r

end EspSize
