import Verif.Spec.DiffRun
import Verif.Spec.SymOrigin
import Verif.Spec.Table
import Verif.Spec.Fnmatch
import Verif.Spec.Csv
import Verif.Model.Run
/-! # Tables and JSON reports of whole runs, cell by cell -/
namespace EspSize

/-- Whether a column is about section `s` of memory type `t`. -/
def Col.has : Col → Str → Str → Bool
  | .total, _, _ => true
  | .type t, t', _ => decide (t' = t)
  | .sec t s, t', s' => decide (t' = t) && decide (s' = s)

/-- Name of a section in the reports. -/
def secKey (unify : Bool) (s : Str) : Str := if unify then abbrevSec s else s

/-- The parts that are shown in a column. -/
def partsIn (unify : Bool) (goes : MSec → Option (Str × Str)) (parts : List MSec) (c : Col) : List MSec :=
  (shownParts goes parts).filter fun p => (goes p).any fun x => c.has x.1 (secKey unify x.2)

/-- Size of the files selected by `P` in a column. -/
def filesIn (unify : Bool) (goes : MSec → Option (Str × Str)) (parts : List MSec) (P : Str → Str → Bool) (c : Col) : Int :=
  partsFiles P (partsIn unify goes parts c)

/-- Size of the symbols selected by `P` in a column. -/
def symbolsIn (unify : Bool) (goes : MSec → Option (Str × Str)) (parts : List MSec) (P : Str → Str → Str → Bool) (c : Col) : Int :=
  partsSyms P (partsIn unify goes parts c)

/-- The title of a column. -/
def titleOf (unify abbreviate : Bool) : Col → Str
  | .total => str "Total Size"
  | .type t => t
  | .sec _ s => if unify then s else if abbreviate then abbrevSec s else s

/-- What is displayed for an entry with this name and abbreviated name. -/
def displayed (abbreviate : Bool) (e : Str × Str) : Str := if abbreviate then e.2 else e.1

/-- The `--filter` option lets the name through. -/
def PassesFilter (args : Args) (name : Str) : Prop := ∀ pats, args.filter = some pats → ∃ p ∈ pats, MatchesPart p name

/-- The entry `k` has to be in a report: its size differs from that in the reference, or it has a size and unchanged
entries are shown. -/
def MustShow (args : Args) (cur dif : Str → Col → Int) (k : Str) : Prop :=
  dif k .total ≠ 0 ∨ ((truthy args.diff = true → args.showUnchanged = true) ∧ cur k .total ≠ 0)

/-- `e` has to be left out of a report, being unchanged. -/
def Unwanted (args : Args) (dif : Str → Col → Int) (k : Str) : Prop :=
  truthy args.diff = true ∧ args.showUnchanged = false ∧ dif k .total = 0

/-- The order of two entries by column `c`. -/
def InCellOrder (args : Args) (cur dif : Str → Col → Int) (c : Col) (j k : Str) : Prop :=
  let v := fun k => if args.sortDiff then dif k c else cur k c
  if args.sortReverse then v k ≤ v j else v j ≤ v k

/-- A table with the sizes `cur` and differences `dif`; `named` tells the abbreviated names of entries, `exact` the
columns whose cells are specified, `abbreviate` whether abbreviated names are displayed. -/
structure TableOf (args : Args) (abbreviate : Bool) (title : Str) (named : Str → Str → Prop) (exact : Col → Prop)
    (cur dif : Str → Col → Int) (tab : Table) (cols : List Col) (es : List (Str × Str)) : Prop where
  headers : tab.headers = title :: cols.map (titleOf args.unify abbreviate)
  rows : All2 (fun e row => ∃ cells, row = displayed abbreviate e :: cells ∧
    All2 (fun c cell => ∃ z x, cell = colorDiff z x (truthy args.diff) ∧ (exact c → z = cur e.1 c ∧ x = dif e.1 c)) cols cells) es tab.rows
  distinct : (es.map Prod.fst).Nodup
  columns : cols.Nodup
  entries : ∀ e ∈ es, named e.1 e.2 ∧ PassesFilter args (displayed abbreviate e) ∧ ¬ Unwanted args dif e.1
  all : ∀ k, MustShow args cur dif k → ∃ n, named k n ∧ (PassesFilter args (displayed abbreviate (k, n)) → (k, n) ∈ es)
  allColumns : es ≠ [] → ∀ k c, cur k c ≠ 0 ∨ dif k c ≠ 0 → c ∈ cols
  sorted : es ≠ [] → ∃ i c, Selects title (cols.map (titleOf args.unify abbreviate)) args.sort i ∧ cols[i]? = some c ∧
    (exact c → es.Pairwise fun x y => InCellOrder args cur dif c x.1 y.1)

/-- A JSON report with these sizes and differences. -/
structure EntriesOf (args : Args) (named : Str → Str → Prop) (exact : Col → Prop) (cur dif : Str → Col → Int)
    (E : Dict Str Entry) : Prop where
  distinct : KeysNodup E
  names : ∀ k e, dget E k = some e → named k e.abb
  cells : ∀ k e, dget E k = some e → ∀ c, exact c → (∀ z d, cellOf e c = some (z, d) → z = cur k c ∧ d = dif k c) ∧
    (cellOf e c = none → ∀ k, cur k c = 0 ∧ dif k c = 0)
  wanted : ∀ k e, dget E k = some e → ¬ Unwanted args dif k
  all : ∀ k, MustShow args cur dif k → (dget E k).isSome = true
  sorted : E.Pairwise fun x y => InCellOrder args cur dif .total x.1 y.1

/-- What a standard CSV reader gets from the CSV report of a table. -/
def CsvOf (args : Args) (abbreviate : Bool) (title : Str) (exact : Col → Prop) (cur dif : Str → Col → Int) (tab : Table)
    (cols : List Col) (es : List (Str × Str)) : Prop :=
  ∃ out, csvRead (printed (csvLines tab)) = (title :: cols.map (titleOf args.unify abbreviate)) :: out ∧
    All2 (fun e row => ∃ cells, row = strip (displayed abbreviate e) :: cells ∧
      All2 (fun c cell => ∃ z x, cell = shown z x (truthy args.diff) ∧ (exact c → z = cur e.1 c ∧ x = dif e.1 c)) cols cells) es out

/-- Names are abbreviated. -/
def abbreviates (args : Args) : Bool := args.unify || !args.noAbbrev

/-- The report with these sizes and differences in the formats `table`, `text`, `csv` and `json2`. -/
structure ReportOf (args : Args) (title : Str) (named : Str → Str → Prop) (exact : Col → Prop) (cur dif : Str → Col → Int)
    (rep : Report) : Prop where
  table : args.format = str "table" ∨ args.format = str "text" → ∃ tab cols es, rep = .table tab ∧
    TableOf args (abbreviates args) title named exact cur dif tab cols es
  csv : args.format = str "csv" → ∃ tab cols es, rep = .csv (csvLines tab) ∧
    TableOf args (abbreviates args) title named exact cur dif tab cols es ∧
    ((∀ c ∈ cols, PlainName (titleOf args.unify (abbreviates args) c)) →
      (∀ e ∈ es, PlainName (displayed (abbreviates args) e)) → CsvOf args (abbreviates args) title exact cur dif tab cols es)
  json : args.format = str "json2" → ∃ E, rep = .entries E ∧ EntriesOf args named exact cur dif E

/-- `n` is the abbreviated name of the archive reported as `k`. -/
def archNamed (unify : Bool) (k n : Str) : Prop := n = if unify then k else basename k

/-- `n` is the abbreviated name of the file reported as `k`. -/
def fileNamed (unify : Bool) (k n : Str) : Prop := if unify then n = basename k else ∃ a o, k = fileKey false a o ∧ n = basename o

/-- `n` is the abbreviated name of the symbol reported as `k`. -/
def symNamed (unify : Bool) (k n : Str) : Prop := if unify then n = k else ∃ a o, k = reportedSym false a o n

/-- The parts have object file `o` of archive `a`. -/
def HasFile (parts : List MSec) (a o : Str) : Prop := ∃ p ∈ parts, ∃ ar, dget p.archives a = some ar ∧ (dget ar.kids o).isSome = true

/-- The parts have a symbol `y` in object file `o` of archive `a`. -/
def HasSym (parts : List MSec) (a o y : Str) : Prop :=
  ∃ p ∈ parts, ∃ ar ob, dget p.archives a = some ar ∧ dget ar.kids o = some ob ∧ (dget ob.kids y).isSome = true

/-- No two files of the parts are reported under one name, except files of archives that are reported under one name. -/
def FilesApart (unify : Bool) (parts : List MSec) : Prop :=
  ∀ a o a' o', HasFile parts a o → HasFile parts a' o' → fileKey unify a o = fileKey unify a' o' → archKey unify a = archKey unify a'

/-- No two symbols of the parts that belong to the archive `details` are reported under one name, except, with `--unify`,
symbols of files with one name. -/
def SymsApart (unify : Bool) (details : Option Str) (parts : List MSec) : Prop :=
  ∀ a o y a' o' y', HasSym parts a o y → HasSym parts a' o' y' → some (basename a) = details → some (basename a') = details →
    reportedSym unify a o y = reportedSym unify a' o' y' →
    (unify = true → basename o = basename o') ∧ (unify = false → a = a' ∧ o = o')

/-- The columns whose cells are specified for files and symbols: sections only if no two have one name. -/
def ExactIf (apart : Prop) (c : Col) : Prop := (∃ t s, c = .sec t s) → apart

end EspSize
