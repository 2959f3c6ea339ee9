import Verif.Model.SummaryTable
import Verif.Py.Markup
/-! # CSV output and the dependency table

`/repo/esp_idf_size/format_csv.py:11-26`, `/repo/esp_idf_size/format_table.py:333-371`. -/
namespace EspSize

/-- `f'"{cell}"'`. -/
def quoteCell (s : Str) : Str := '"' :: s ++ ['"']

/-- `sep.join(l)`. -/
def joinWith (sep : Str) : List Str → Str
  | [] => []
  | [x] => x
  | x :: t => x ++ sep ++ joinWith sep t

/-- The strings that `show_table` gives to `log.print`, `format_csv.py:11-26`. -/
def csvLines (t : Table) : List Str :=
  joinWith [','] (t.headers.map quoteCell) :: t.rows.map fun r => joinWith [','] (r.map fun c => quoteCell (strip c))

/-- Printed: markup rendered, one string per line.  Wrapping at the width of the console is not modelled. -/
def printed (lines : List Str) : Str := lines.flatMap fun l => render l ++ ['\n']

/-- The rows of one archive, `format_table.py:354-369`; `first` is `cnt == 1`. -/
def depRows (args : Args) (name : Str) (size : Int) : Bool → List (Str × DepInfo) → List (List Str)
  | _, [] => []
  | first, (d, i) :: t =>
    ((if first then [name, intStr size] else [[], []]) ++
      [if args.abbrev_ then i.abb else d, intStr i.size] ++
      (if args.depSymbols then [joinWith ['\n'] i.symbols] else [])) :: depRows args name size false t

/-- `get_archives_dependencies_table`, `format_table.py:333-371`, from the dependencies. -/
def depsTable (args : Args) (deps : Deps) : Table :=
  let col := if args.depReverse then str "Dependents" else str "Dependencies"
  let headers := [str "Archive", str "Archive Size", col, col ++ str " Sizes"] ++
    (if args.depSymbols then [str "Symbols"] else [])
  let rows := (getSummaryFiltered DepArch.abb deps args).flatMap fun a =>
    depRows args (if args.abbrev_ then a.2.abb else a.1) a.2.size true a.2.archives
  rows.foldl Table.addRow { headers := headers, rows := [] }

end EspSize
