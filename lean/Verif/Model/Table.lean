import Verif.Py.Fmt
import Verif.Model.Deps
/-!
# Tables: archives, files, symbols

`/repo/esp_idf_size/format_table.py:33-54,189-331`.  A cell is the markup text given to `rich`.
-/
namespace EspSize

/-- `color_diff`, `format_table.py:33-42`, for integers; `diff` is the truth value of `args['diff']`. -/
def colorDiff (size diff : Int) (d : Bool) : Str :=
  if !d then intStr size
  else if diff < 0 then intStr size ++ str "[green] " ++ plus6 diff ++ str "[/green]"
  else if diff > 0 then intStr size ++ str "[red] " ++ plus6 diff ++ str "[/red]"
  else intStr size ++ str " " ++ int6 diff

/-- `color_size`, `format_table.py:45-54`. -/
def colorSize (size diff : Int) (d : Bool) : Str :=
  if !d then intStr size
  else if diff < 0 then intStr size ++ str "[red] " ++ plus6 diff ++ str "[/red]"
  else if diff > 0 then intStr size ++ str "[green] " ++ plus6 diff ++ str "[green]"
  else intStr size ++ str " " ++ int6 diff

/-- A `rich` table: headers of the columns, and rows of cells. -/
structure Table where
  headers : List Str
  rows : List (List Str)
deriving DecidableEq, Repr

/-- Fill up with empty cells. -/
def padRow (n : Nat) (r : List Str) : List Str := r ++ List.replicate (n - r.length) []

/-- `rich.table.Table.add_row`: missing cells are empty, additional cells make new columns. -/
def Table.addRow (t : Table) (cells : List Str) : Table :=
  let n := max t.headers.length cells.length
  { headers := padRow n t.headers, rows := t.rows.map (padRow n) ++ [padRow n cells] }

/-- `Column`, `format_table.py:197`. -/
structure TCol where
  info : Str
  size : Int
  diff : Int
deriving DecidableEq, Repr

def tcol (args : Args) (size diff : Int) : TCol := ⟨colorDiff size diff (truthy args.diff), size, diff⟩

/-- The columns of one entry, `format_table.py:204-221`. -/
def entryCols (args : Args) (e : Entry) : List TCol :=
  tcol args e.size e.sizeDiff ::
    e.types.flatMap fun t =>
      tcol args t.2.size t.2.sizeDiff :: t.2.sections.map fun s => tcol args s.2.size s.2.sizeDiff

/-- `Row`, `format_table.py:199,223-224`. -/
def entryRow (args : Args) (p : Str × Entry) : Str × List TCol :=
  (if args.abbrev_ then p.2.abb else p.1, entryCols args p.2)

/-- `args['sort']` as a number, `format_table.py:226-237`; `log.die` is `exit`. -/
def sortNumber (headers : List Str) (sort : Str) : Except Err Int :=
  match pyInt10 sort with
  | some n => if n = 0 then .error .exit else .ok n
  | none =>
    match headers.findIdx? (· = sort) with
    | none => .error .exit
    | some 0 => .error .exit
    | some (i + 1) => .ok ((i : Int) + 1)

/-- `sort_key`, `format_table.py:239-245`. -/
def rowKey (args : Args) (n : Int) (r : Str × List TCol) : Except Err Int := do
  let c ← pyIndex r.2 (if n > 0 then n - 1 else n)
  .ok (if args.sortDiff then c.diff else c.size)

/-- `sorted(rows, key=sort_key, reverse=...)` with `except IndexError`, `format_table.py:247-253`.  The keys are
computed first. -/
def sortRows (args : Args) (n : Int) (rows : List (Str × List TCol)) :
    Except Err (List (Str × List TCol)) :=
  match rows.mapM fun r => (rowKey args n r).map fun k => (k, r) with
  | .error .indexError => .error .exit
  | .error x => .error x
  | .ok keyed => .ok ((sortedBy (·.1) args.sortReverse keyed).map (·.2))

/-- `_get_table_sorted`, `format_table.py:189-261`. -/
def getTableSorted (summary : Dict Str Entry) (headers : List Str) (args : Args) : Except Err (List (List Str)) := do
  let n ← sortNumber headers args.sort
  let rows ← sortRows args n (summary.map (entryRow args))
  .ok (rows.map fun r => r.1 :: r.2.map (·.info))

/-- The columns added for the first entry, `format_table.py:272-278`. -/
def entryHeaders (args : Args) (e : Entry) : List Str :=
  e.types.flatMap fun t => t.1 :: t.2.sections.map fun s => if args.abbrev_ then s.2.abb else s.1

/-- The common part of the three tables, `format_table.py:264-284` (also `:287-307`, `:310-330`). -/
def detailTable (title : Str) (summary : Dict Str Entry) (args : Args) : Except Err Table := do
  let headers := [title, str "Total Size"] ++
    (match summary with
     | [] => []
     | p :: _ => entryHeaders args p.2)
  let rows ← getTableSorted summary headers args
  .ok (rows.foldl Table.addRow { headers := headers, rows := [] })

/-- `get_object_files_table`, `format_table.py:264-284`. -/
def getObjectFilesTable (m : MemMap) (args : Args) : Except Err Table := do
  let s ← getObjectFilesSummary m args
  detailTable (str "Object File") (getSummaryFiltered Entry.abb s args) args

/-- `get_archives_table`, `format_table.py:287-307`. -/
def getArchivesTable (m : MemMap) (args : Args) : Except Err Table := do
  let s ← getArchivesSummary m args
  detailTable (str "Archive File") (getSummaryFiltered Entry.abb s args) args

/-- `get_symbols_table`, `format_table.py:310-330`. -/
def getSymbolsTable (m : MemMap) (args : Args) : Except Err Table := do
  let s ← getSymbolsSummary m args
  detailTable (str "Symbol") (getSummaryFiltered Entry.abb s args) args

end EspSize
