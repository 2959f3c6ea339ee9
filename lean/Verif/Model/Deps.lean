import Verif.Py.Fnmatch
import Verif.Py.Fmt
import Verif.Model.Summary
import Verif.Model.Get
/-!
# Archive dependencies and the DOT report

`/repo/esp_idf_size/deps.py`, `/repo/esp_idf_size/format_dot.py`, and `get_summary_filtered` of
`/repo/esp_idf_size/memorymap.py`.
-/
namespace EspSize

/-- `get_summary_filtered`, `memorymap.py:689-708`; `abb` is `entry_info['abbrev_name']`. -/
def getSummaryFiltered {α : Type} (abb : α → Str) (entries : Dict Str α) (args : Args) : Dict Str α :=
  match args.filter with
  | none => entries
  | some patterns =>
    dfilter (fun name info =>
      patterns.any fun p => fnmatch (if args.abbrev_ then abb info else name) (str "*" ++ p ++ str "*")) entries

/-- Inner entry, `deps.py:42-46`. -/
structure DepInfo where
  abb : Str
  size : Int
  symbols : List Str
deriving DecidableEq, Repr

/-- Outer entry, `deps.py:35-39`. -/
structure DepArch where
  abb : Str
  size : Int
  archives : Dict Str DepInfo
deriving DecidableEq, Repr

abbrev Deps := Dict Str DepArch

/-- `archives_sizes[name]['size']`. -/
def archSize (sizes : Dict Str Entry) (name : Str) : Except Err Int :=
  match dget sizes name with
  | some e => .ok e.size
  | none => .error .keyError

/-- `if name not in archives: archives[name] = ...`, `deps.py:34-39`, `:75-80`. -/
def ensureArch (sizes : Dict Str Entry) (d : Deps) (name : Str) : Except Err (Deps × DepArch) :=
  match dget d name with
  | some a => .ok (d, a)
  | none => do
    let z ← archSize sizes name
    let a : DepArch := { abb := basename name, size := z, archives := [] }
    .ok (dset d name a, a)

/-- `if dep not in archives[name]['archives']: ...`, `deps.py:41-46`, `:83-88`. -/
def innerOf (sizes : Dict Str Entry) (a : DepArch) (dep : Str) : Except Err DepInfo :=
  match dget a.archives dep with
  | some i => .ok i
  | none => do
    let z ← archSize sizes dep
    .ok { abb := basename dep, size := z, symbols := [] }

/-- `archives[name]['archives'][dep]['symbols'].append(sym)`, with the entries created first,
`deps.py:34-48`, `:83-90`. -/
def addDep (sizes : Dict Str Entry) (sym : Str) (d : Deps) (name dep : Str) : Except Err Deps := do
  let (d, a) ← ensureArch sizes d name
  let i ← innerOf sizes a dep
  .ok (dset d name { a with archives := dset a.archives dep { i with symbols := i.symbols ++ [sym] } })

/-- Loop body of `get_archives_deps`, `deps.py:29-48`.  `ord l` is the order in which the set of the elements
of `l` is iterated; it depends on the hash seed. -/
def depsRow (ord : List Str → List Str) (sizes : Dict Str Entry) (d : Deps) (p : Str × List (Str × Str)) :
    Except Err Deps :=
  match p.2 with
  | [] => .error .indexError
  | df :: refs => (ord (refs.map (·.1))).foldlM (fun d r => addDep sizes p.1 d r df.1) d

/-- `get_archives_deps`, `deps.py:11-50`. -/
def getArchivesDeps (ord : List Str → List Str) (sizes : Dict Str Entry) (crt : Crt) : Except Err Deps :=
  crt.foldlM (depsRow ord sizes) []

/-- Loop body of `get_archives_revdeps`, `deps.py:71-90`. -/
def revdepsRow (ord : List Str → List Str) (sizes : Dict Str Entry) (d : Deps) (p : Str × List (Str × Str)) :
    Except Err Deps :=
  match p.2 with
  | [] => .error .indexError
  | df :: refs => do
    let (d, _) ← ensureArch sizes d df.1
    (ord (refs.map (·.1))).foldlM (fun d r => addDep sizes p.1 d df.1 r) d

/-- `get_archives_revdeps`, `deps.py:53-92`. -/
def getArchivesRevdeps (ord : List Str → List Str) (sizes : Dict Str Entry) (crt : Crt) : Except Err Deps :=
  crt.foldlM (revdepsRow ord sizes) []

/-- `SHN_ABS`, `elf.py:1306`. -/
def shnAbs : Nat := 0xfff1

/-- The symbols kept, `deps.py:98-101`. -/
def crtSymbols (syms : List ElfSym) : List Str :=
  (syms.filter fun s => (s.type = sttFunc || s.type = sttObject) && s.shndx ≠ shnAbs).map ElfSym.name

/-- One row of the filtered table, `deps.py:108-117`; `none` if it is dropped. -/
def filterRefs (archives : Dict Str Entry) : List (Str × Str) → Except Err (Option (List (Str × Str)))
  | [] => .error .indexError
  | df :: refs =>
    if !dhas archives df.1 then .ok none
    else
      let refs := refs.filter fun r => dhas archives r.1 && r.1 ≠ df.1
      .ok (if refs.length + 1 > 1 then some (df :: refs) else none)

/-- Body of the second loop of `_filter_crt`, `deps.py:108-117`. -/
def filterRow (archives : Dict Str Entry) (acc : Crt) (p : Str × List (Str × Str)) : Except Err Crt := do
  match ← filterRefs archives p.2 with
  | none => .ok acc
  | some refs => .ok (dset acc p.1 refs)

/-- The second loop of `_filter_crt`, `deps.py:107-119`. -/
def filterRows (archives : Dict Str Entry) (crt : Crt) : Except Err Crt := crt.foldlM (filterRow archives) []

/-- `_filter_crt`, `deps.py:95-119`. -/
def filterCrt (crt : Crt) (archives : Dict Str Entry) : Option (List ElfSym) → Except Err Crt
  | none => .error .exit
  | some syms => filterRows archives (dfilter (fun s _ => (crtSymbols syms).contains s) crt)

/-- `get_archives_dependencies`, `deps.py:122-140`. -/
def getArchivesDependencies (ord : List Str → List Str) (crt : Option Crt) (m : MemMap)
    (elf : Option (List ElfSym)) (args : Args) : Except Err Deps :=
  match crt with
  | none => .error .exit
  | some crt => do
    let archives ← getArchivesSummary m args
    let crt ← filterCrt crt archives elf
    if args.depReverse then getArchivesRevdeps ord archives crt else getArchivesDeps ord archives crt

/-- A line of the DOT output, before it is turned into text. -/
inductive DotLine where
  | node (name label : Str) (size : Int) (box : Bool)
  | edge (src dst : Str) (label : Option (List Str))
deriving DecidableEq, Repr

/-- `add_node`, `format_dot.py:21-28`; the state is `lines` and `seen`. -/
def dotNode (d : Deps) (st : List DotLine × List Str) (name label : Str) (size : Int) : List DotLine × List Str :=
  if st.2.contains name then st
  else (st.1 ++ [.node name label size (dhas d name)], st.2 ++ [name])

/-- Inner loop, `format_dot.py:34-45`. -/
def dotInner (d : Deps) (args : Args) (name : Str) (st : List DotLine × List Str) (q : Str × DepInfo) :
    List DotLine × List Str :=
  let st := dotNode d st q.1 (if args.abbrev_ then q.2.abb else q.1) q.2.size
  let (src, dst) := if args.depReverse then (q.1, name) else (name, q.1)
  (st.1 ++ [.edge src dst (if args.depSymbols then some q.2.symbols else none)], st.2)

/-- Outer loop, `format_dot.py:30-45`. -/
def dotOuter (d : Deps) (args : Args) (st : List DotLine × List Str) (p : Str × DepArch) :
    List DotLine × List Str :=
  p.2.archives.foldl (dotInner d args p.1)
    (dotNode d st p.1 (if args.abbrev_ then p.2.abb else p.1) p.2.size)

/-- `lines` between the first and the last, `format_dot.py:30-45`. -/
def dotLines (d : Deps) (args : Args) : List DotLine := (d.foldl (dotOuter d args) ([], [])).1

/-- The text of a line, `format_dot.py:27,38-44`, as given to `log.print`.  The backslash before `[` keeps `rich`
from taking it for markup; it is not printed (`Py/Markup`). -/
def DotLine.text : DotLine → Str
  | .node name label size box =>
    str "\"" ++ name ++ str "\" \\[shape=" ++ (if box then str "box" else str "ellipse") ++ str ", label=\"" ++ label ++
      str " (" ++ intStr size ++ str ")\", style=filled, fillcolor=\"" ++
      (if box then str "darkorange3" else str "azure") ++ str "\"]"
  | .edge src dst label =>
    str "\"" ++ src ++ str "\" -> \"" ++ dst ++ str "\"" ++
      match label with
      | none => []
      | some syms => str " \\[label=\"" ++ join (str "\n") syms ++ str "\"]"

/-- `format_dot.show`, `format_dot.py:11-55`: the lines printed. -/
def showDot (ord : List Str → List Str) (m : MemMap) (crt : Option Crt) (elf : Option (List ElfSym))
    (args : Args) : Except Err (List Str) :=
  if !args.archiveDependencies then .error .exit
  else do
    let d ← getArchivesDependencies ord crt m elf args
    let d := getSummaryFiltered DepArch.abb d args
    .ok ([str "strict digraph {"] ++ (dotLines d args).map DotLine.text ++ [str "}"])

end EspSize
