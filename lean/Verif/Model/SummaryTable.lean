import Verif.Model.Table
import Verif.Model.Ops
/-!
# The summary table and the JSON summary

`/repo/esp_idf_size/format_table.py:57-186`, `/repo/esp_idf_size/format_json.py:11-38`.
-/
namespace EspSize

/-- Floating point arithmetic and formatting are a parameter: `rnd` rounds the exact result of a division,
product or difference to a float, `round2` is `round(x, 2)`, and the rest formats `round(x, 2)` as `f'{..}'`,
`f'{..:+6}'` and `f'{..:6}'`.  Overflow of the division is not modelled. -/
structure FloatOps where
  rnd : Rat → Rat
  round2 : Rat → Rat
  show2 : Rat → Str
  plus2 : Rat → Str
  pad2 : Rat → Str

/-- `int(x)`: truncation. -/
def truncRat (q : Rat) : Int := if q < 0 then q.ceil else q.floor

/-- `used / size * 100` or `0`, `format_table.py:69-74,90-93`. -/
def pctOf (F : FloatOps) (used size : Int) : Rat :=
  if size ≠ 0 then F.rnd (F.rnd ((used : Rat) / (size : Rat)) * 100) else 0

/-- `pct_diff`, `format_table.py:76-83,95-102`. -/
def pctDiffOf (F : FloatOps) (used usedDiff size sizeDiff : Int) : Rat :=
  if size - sizeDiff ≠ 0 then
    F.rnd (pctOf F used size -
      F.rnd (F.rnd (((used - usedDiff : Int) : Rat) / ((size - sizeDiff : Int) : Rat)) * 100))
  else pctOf F used size

/-- `sort_keys`, `format_table.py:128`. -/
inductive SumKey where
  | used | pct | remain | total
deriving DecidableEq, Repr

def sumKeys : List SumKey := [.used, .pct, .remain, .total]

/-- `int(mem_type_info[sort_key])`, `format_table.py:68-87,136-137` and `memorymap.py:670-671`. -/
def typeSortKey (F : FloatOps) (diff : Bool) (k : SumKey) (t : MType) : Int :=
  match k, diff with
  | .used, false => t.used
  | .used, true => t.usedDiff
  | .pct, false => truncRat (pctOf F t.used t.size)
  | .pct, true => truncRat (pctDiffOf F t.used t.usedDiff t.size t.sizeDiff)
  | .remain, false => if t.size ≠ 0 then t.size - t.used else 0
  | .remain, true => t.sizeDiff - t.usedDiff
  | .total, false => t.size
  | .total, true => t.sizeDiff

/-- `int(section_info[sort_key])`, `format_table.py:89-110`. -/
def secSortKey (F : FloatOps) (diff : Bool) (k : SumKey) (t : MType) (s : Sec) : Int :=
  match k, diff with
  | .used, false => s.size
  | .used, true => s.sizeDiff
  | .pct, false => truncRat (pctOf F s.size t.size)
  | .pct, true => truncRat (pctDiffOf F s.size s.sizeDiff t.size t.sizeDiff)
  | .remain, _ => 0
  | .total, _ => 0

/-- The headers given to `rich`, `format_table.py:58-63`. -/
def summaryHeaders : List Str :=
  [str "Memory Type/Section", str "Used \\[bytes]", str "Used \\[%]", str "Remain \\[bytes]", str "Total \\[bytes]"]

/-- `str(Text.from_markup(column.header))` of these headers, `format_table.py:118`. -/
def summaryTitles : List Str :=
  [str "Memory Type/Section", str "Used [bytes]", str "Used [%]", str "Remain [bytes]", str "Total [bytes]"]

/-- `color_diff(round(pct, 2), round(pct_diff, 2), args['diff'])`, `format_table.py:33-42`. -/
def colorPct (F : FloatOps) (p d : Rat) (diff : Bool) : Str :=
  if !diff then F.show2 p
  else if F.round2 d < 0 then F.show2 p ++ str "[green] " ++ F.plus2 d ++ str "[/green]"
  else if F.round2 d > 0 then F.show2 p ++ str "[red] " ++ F.plus2 d ++ str "[/red]"
  else F.show2 p ++ str " " ++ F.pad2 d

/-- The row of a memory type, `format_table.py:142-160`. -/
def typeRow (F : FloatOps) (args : Args) (t : Str × MType) : List Str :=
  let d := truthy args.diff
  t.1 :: colorDiff t.2.used t.2.usedDiff d ::
    (if t.2.size ≠ 0 then
      [colorPct F (pctOf F t.2.used t.2.size) (pctDiffOf F t.2.used t.2.usedDiff t.2.size t.2.sizeDiff) d,
       colorSize (t.2.size - t.2.used) (t.2.sizeDiff - t.2.usedDiff) d,
       colorSize t.2.size t.2.sizeDiff d]
     else [[], [], []])

/-- The row of a section, `format_table.py:164-184`. -/
def secRow (F : FloatOps) (args : Args) (t : MType) (s : Str × Sec) : List Str :=
  let d := truthy args.diff
  (str "   " ++ if args.abbrev_ then s.2.abb else s.1) :: colorDiff s.2.size s.2.sizeDiff d ::
    [if t.size ≠ 0 then
      colorPct F (pctOf F s.2.size t.size) (pctDiffOf F s.2.size s.2.sizeDiff t.size t.sizeDiff) d
     else [], [], []]

/-- The rows, `format_table.py:139-184`. -/
def summaryRows (F : FloatOps) (args : Args) (k : SumKey) (m : MemMap) : List (List Str) :=
  (sortDict (typeSortKey F args.sortDiff k) args.sortReverse m.memoryTypes).flatMap fun t =>
    typeRow F args t ::
      (sortDict (secSortKey F args.sortDiff k t.2) args.sortReverse t.2.sections).map (secRow F args t.2)

/-- `get_summary_table`, `format_table.py:57-186`. -/
def getSummaryTable (F : FloatOps) (m : MemMap) (args : Args) : Except Err Table := do
  let n ← sortNumber summaryTitles args.sort
  match pyIndex sumKeys (if n > 0 then n - 1 else n) with
  | .error _ => .error .exit
  | .ok k =>
    .ok ((summaryRows F args k (trim m args)).foldl Table.addRow { headers := summaryHeaders, rows := [] })

/-! ## JSON summary -/

/-- One member of `layout`, `format_json.py:21-27`. -/
structure Layout where
  name : Str
  total : Int
  used : Int
  free : Int
  /-- name ↦ size -/
  parts : Dict Str Int
deriving DecidableEq, Repr

/-- The printed dictionary, `format_json.py:12-16`. -/
structure JsonSummary where
  version : Str
  totalSize : Int
  layout : List Layout
deriving DecidableEq, Repr

/-- `format_json.py:20-34`. -/
def layoutOf (args : Args) (t : Str × MType) : Layout :=
  { name := t.1, total := t.2.size, used := t.2.used
    free := if t.2.size ≠ 0 then t.2.size - t.2.used else 0
    parts := t.2.sections.foldl (fun d s => dset d (if args.abbrev_ then s.2.abb else s.1) s.2.size) [] }

/-- `show_summary` up to `json.dumps`, `format_json.py:11-36`. -/
def jsonSummary (m : MemMap) (args : Args) : JsonSummary :=
  { version := str "1.2", totalSize := m.imageSize
    layout := (sort m args).memoryTypes.map (layoutOf args) }

end EspSize
