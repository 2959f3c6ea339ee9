import Verif.Spec.Options
/-! # Reports, by the options that ask for them -/
namespace EspSize

/-- A table of the summary, as table, text or CSV. -/
def AsksSummary (args : Args) : Prop :=
  args.archives = false ∧ truthy args.archiveDetails = false ∧ args.archiveDependencies = false ∧ args.files = false

/-- The dependencies are shown: they are asked for and, in the formats with listings, neither archives nor symbols are. -/
def AsksDeps (args : Args) : Prop :=
  args.archiveDependencies = true ∧
  (args.format ∈ [str "table", str "text", str "csv", str "json2"] → args.archives = false ∧ truthy args.archiveDetails = false)

/-- The formats of tables. -/
def InTable (args : Args) : Prop := args.format ∈ [str "table", str "text", str "csv"]

end EspSize
