import Verif.Spec.TableRun
import Verif.Spec.Deps
import Verif.Spec.Dot
import Verif.Spec.Csv
import Verif.Spec.Get
/-! # The report of dependencies of a whole run -/
namespace EspSize

/-- The archive is shown: a part that goes to a memory type has an archive reported under this name. -/
def ShowsArchive (unify : Bool) (goes : MSec → Option (Str × Str)) (parts : List MSec) (a : Str) : Prop :=
  ∃ p ∈ shownParts goes parts, ∃ x ∈ dkeys p.archives, archKey unify x = a

/-- The row of the cross reference table puts the archive `I` under `O`: `O` refers to a symbol of `I`; with `--dep-reverse`, `I`
refers to a symbol of `O`.  Both archives satisfy `present` and the symbol is one of `syms`. -/
def Puts (reverse : Bool) (present : Str → Prop) (syms : List ElfSym) (O I : Str) (row : Str × List (Str × Str)) : Prop :=
  if reverse then Refers present (LinkedSym syms) I O row else Refers present (LinkedSym syms) O I row

open Classical in
/-- The dependencies according to the cross reference table `crt`, for the archives `present` with these sizes. -/
structure DepsOf (reverse : Bool) (crt : Crt) (syms : List ElfSym) (present : Str → Prop) (size : Str → Int) (D : Deps) : Prop where
  distinct : KeysNodup D
  archives : ∀ O, (dget D O).isSome = true ↔ ∃ I, ∃ row ∈ crt, Puts reverse present syms O I row
  archive : ∀ O a, dget D O = some a → LastPart O a.abb ∧ a.size = size O ∧ KeysNodup a.archives
  others : ∀ O a, dget D O = some a → ∀ I, (dget a.archives I).isSome = true ↔ ∃ row ∈ crt, Puts reverse present syms O I row
  other : ∀ O a, dget D O = some a → ∀ I i, dget a.archives I = some i → LastPart I i.abb ∧ i.size = size I ∧
    i.symbols = (crt.filter fun row => decide (Puts reverse present syms O I row)).map (·.1)

open Classical in
/-- The archives that `--filter` lets through. -/
noncomputable def depsPassing (args : Args) (D : Deps) : Deps :=
  D.filter fun a => decide (PassesFilter args (displayed (abbreviates args) (a.1, a.2.abb)))

/-- The complete row of a dependency. -/
def depCells (args : Args) (a : Str × DepArch) (i : Str × DepInfo) : List Str :=
  [displayed (abbreviates args) (a.1, a.2.abb), intStr a.2.size, displayed (abbreviates args) (i.1, i.2.abb), intStr i.2.size] ++
    if args.depSymbols then [joinWith ['\n'] i.2.symbols] else []

/-- Complete rows, when the archive and its size are only in the first row of each archive. -/
def filledIn : Str × Str → List (List Str) → List (List Str)
  | _, [] => []
  | (n, z), (a :: b :: r) :: t => if b = [] then (n :: z :: r) :: filledIn (n, z) t else (a :: b :: r) :: filledIn (a, b) t
  | p, r :: t => r :: filledIn p t

/-- The titles of the table of dependencies. -/
def depTitles (args : Args) : List Str :=
  (if args.depReverse then [str "Archive", str "Archive Size", str "Dependents", str "Dependents Sizes"]
    else [str "Archive", str "Archive Size", str "Dependencies", str "Dependencies Sizes"]) ++
  if args.depSymbols then [str "Symbols"] else []

/-- The table of the dependencies `D`. -/
structure DepsRows (args : Args) (D : Deps) (tab : Table) : Prop where
  headers : tab.headers = depTitles args
  width : ∀ r ∈ tab.rows, r.length = tab.headers.length
  rows : ∀ p, filledIn p tab.rows = (depsPassing args D).flatMap fun a => a.2.archives.map (depCells args a)

/-- The graph of the dependencies `D`. -/
structure DepsGraph (args : Args) (D : Deps) (lines : List DotLine) : Prop where
  once : (declared lines).Nodup
  nodes : ∀ n, n ∈ declared lines ↔ Occurs (depsPassing args D) n
  first : DeclaredFirst lines
  edges : edges lines = (dependencies args.depReverse (depsPassing args D)).map
    fun e => (e.1, e.2.1, if args.depSymbols then some e.2.2 else none)
  boxes : ∀ n l z b, DotLine.node n l z b ∈ lines → (b = true ↔ n ∈ dkeys (depsPassing args D))
  labels : ∀ n l z b, DotLine.node n l z b ∈ lines → ∃ abb, LastPart n abb ∧ l = displayed (abbreviates args) (n, abb)

/-- The report shows the dependencies `D`. -/
structure ReportsDeps (args : Args) (size : Str → Int) (D : Deps) (rep : Report) : Prop where
  json : args.format = str "json2" ∨ args.format = str "raw" → rep = .deps D
  tree : args.format = str "tree" → rep = .depsTree D
  table : args.format = str "table" ∨ args.format = str "text" → ∃ tab, rep = .table tab ∧ DepsRows args D tab
  csv : args.format = str "csv" → ∃ tab, rep = .csv (csvLines tab) ∧ DepsRows args D tab ∧
    ((∀ r ∈ tab.rows, ∀ c ∈ r, PlainName c) → csvRead (printed (csvLines tab)) = tab.headers :: tab.rows.map fun r => r.map strip)
  dot : args.format = str "dot" → ∃ ls : List DotLine, rep = .dot ([str "strict digraph {"] ++ ls.map DotLine.text ++ [str "}"]) ∧ DepsGraph args D ls ∧
    ∀ n l z b, DotLine.node n l z b ∈ ls → z = size n

end EspSize
