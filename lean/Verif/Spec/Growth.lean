import Verif.Spec.Compare
import Verif.Spec.Sections
/-! # Where a change of the inputs is shown -/
namespace EspSize

/-- An input section: archive, object file, size. -/
abbrev Piece := Str × Str × Int

/-- The input sections of output sections. -/
def piecesOf (ss : List OSec) : List Piece := ss.flatMap fun s => s.inputs.map fun i => (i.archive, i.objectFile, i.size)

/-- Size of the pieces that are reported as `k`. -/
def sizeAs (key : Str → Str → Str) (ps : List Piece) (k : Str) : Int := sumBy (fun p => if key p.1 p.2.1 = k then p.2.2 else 0) ps

/-- A list compares a project, which has the pieces `new`, with a reference, which has the pieces `old` instead. -/
structure ShowsChanges (showUnchanged : Bool) (key : Str → Str → Str) (new old : List Piece) (E : Dict Str Entry) : Prop where
  diffs : ∀ k, diffIn E k = sizeAs key new k - sizeAs key old k
  names : showUnchanged = false → ∀ k, k ∈ E.map Prod.fst ↔ sizeAs key new k ≠ sizeAs key old k
  distinct : (E.map Prod.fst).Nodup
  sum : sumBy (fun e => e.2.sizeDiff) E = sumBy (fun p => p.2.2) new - sumBy (fun p => p.2.2) old

/-- What the map holds of an object file: memory type, section under the name of the reports, archive, object file, size. -/
structure Placed where
  type : Str
  «section» : Str
  archive : Str
  file : Str
  size : Int

/-- What the map holds of the object files in parts of output sections. -/
def placedOf (unify : Bool) (goes : MSec → Option (Str × Str)) (parts : List MSec) : List Placed :=
  parts.flatMap fun p => match goes p with
    | none => []
    | some x => p.archives.flatMap fun a => a.2.kids.map fun o => ⟨x.1, secKey unify x.2, a.1, o.1, o.2.size⟩

/-- Size in a column of what is reported as `k`. -/
def placedSize (key : Str → Str → Str) (ps : List Placed) (k : Str) (c : Col) : Int :=
  sumBy (fun p => if key p.archive p.file = k ∧ c.has p.type p.section = true then p.size else 0) ps

/-- The rows of a table compare a project, which has the pieces `new`, with a reference, which has `old` instead: `es` are
the names of the rows in full and abbreviated, `cols` the columns. -/
structure RowsShow (args : Args) (key : Str → Str → Str) (new old : List Piece) (tab : Table) (cols : List Col) (es : List (Str × Str)) :
    Prop where
  headers : tab.headers.tail = cols.map (titleOf args.unify (abbreviates args))
  rows : All2 (fun e row => ∃ cells, row = displayed (abbreviates args) e :: cells ∧
    All2 (fun c cell => c = .total → ∃ z, cell = colorDiff z (sizeAs key new e.1 - sizeAs key old e.1) true) cols cells) es tab.rows
  distinct : (es.map Prod.fst).Nodup
  names : args.showUnchanged = false → ∀ e ∈ es, sizeAs key new e.1 ≠ sizeAs key old e.1
  all : ∀ k, sizeAs key new k ≠ sizeAs key old k →
    ∃ n, PassesFilter args (displayed (abbreviates args) (k, n)) → (k, n) ∈ es

end EspSize
