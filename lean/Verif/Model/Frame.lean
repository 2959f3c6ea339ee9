import Verif.Py.MarkupErr
import Verif.Model.Run
/-!
# What is printed with a report

`/repo/esp_idf_size/format_table.py:15-30,374-410`, `format_csv.py:13-26`: the calls of `log.print` and `log.eprint` of a run that
has computed its table.  A call either prints its text or raises `MarkupError`, which is not caught (`main.py:159-162`).
-/
namespace EspSize

/-- A call of `log.eprint` with a text, of `log.print` with a text, of `log.print` with a table. -/
inductive PrintCall where
  | eprint (s : Str)
  | print (s : Str)
  | table (t : Table)
deriving DecidableEq, Repr

/-- `show_diff_info`, `format_table.py:15-23`. -/
def diffInfo (m : MemMap) (args : Args) : List PrintCall :=
  if truthy args.diff then
    [.eprint (str "[bold]CURRENT[/]   project file: \"" ++ m.projectPath ++ str "\""),
     .eprint (str "[bold]REFERENCE[/] project file: \"" ++ m.projectPathDiff ++ str "\""),
     .eprint (str "Difference is counted as [bold]CURRENT - REFERENCE[/], i.e. a positive number means that [bold]CURRENT[/] is larger.")]
  else []

/-- `show_image_info`, `format_table.py:26-30`. -/
def imageInfo (m : MemMap) (args : Args) : PrintCall :=
  .eprint (str "Total image size: " ++ colorDiff m.imageSize m.imageSizeDiff (truthy args.diff) ++ str " bytes (.bin may be padded larger)")

/-- The note after the summary, `format_table.py:379-385`. -/
def noteText : Str :=
  str "[yellow]" ++ str "Note: The reported total sizes may be smaller than those in the technical reference manual due to reserved memory and application configuration. The total flash size available for the application is not included by default, as it cannot be reliably determined due to the presence of other data like the bootloader, partition table, and application partition size."

/-- `format_table.show`, `format_table.py:374-423`, with the table `t`. -/
def tableCalls (m : MemMap) (args : Args) (t : Table) : List PrintCall :=
  if args.archives then diffInfo m args ++ [.table t]
  else if truthy args.archiveDetails then diffInfo m args ++ [.table t]
  else if args.archiveDependencies then [.table t]
  else if args.files then diffInfo m args ++ [.table t]
  else diffInfo m args ++ [.table t, imageInfo m args, .eprint noteText]

/-- `format_csv.show_table`, `format_csv.py:13-26`: nothing but the lines. -/
def csvCalls (lines : List Str) : List PrintCall := lines.map .print

/-- What a call shows: text on one of the streams, or the cells of a table, headers first. -/
inductive OnScreen where
  | err (s : Str)
  | out (s : Str)
  | cells (rows : List (List Str))
deriving DecidableEq, Repr

/-- One call; `none` if `MarkupError` is raised.  A table is shown when all its cells are rendered. -/
def PrintCall.run (norm : Str → Str) : PrintCall → Option OnScreen
  | .eprint s => (renderE norm s).map .err
  | .print s => (renderE norm s).map .out
  | .table t => ((t.headers :: t.rows).mapM fun (r : List Str) => r.mapM (renderE norm)).map .cells

/-- The calls, one after the other: what is shown, and whether no `MarkupError` was raised. -/
def runCalls (norm : Str → Str) : List PrintCall → List OnScreen × Bool
  | [] => ([], true)
  | c :: t =>
    match c.run norm with
    | none => ([], false)
    | some x => (x :: (runCalls norm t).1, (runCalls norm t).2)

end EspSize
