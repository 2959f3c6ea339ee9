import Verif.Model.Run
/-! # Reports without differences -/
namespace EspSize

/-- No entry of the map has a difference; that of the total of a type counts if there is a total. -/
def NoDiffs (d : MemMap) : Prop :=
  ∀ t ∈ d.memoryTypes, (t.2.usedDiff = 0 ∧ (t.2.size ≠ 0 → t.2.sizeDiff = 0)) ∧ ∀ s ∈ t.2.sections, s.2.sizeDiff = 0 ∧
    ∀ a ∈ s.2.kids, a.2.sizeDiff = 0 ∧ ∀ o ∈ a.2.kids, o.2.sizeDiff = 0 ∧ ∀ y ∈ o.2.kids, y.2.sizeDiff = 0

/-- The reference is the project itself, and the image has its size. -/
def SameProject (d : MemMap) : Prop := d.targetDiff = d.target ∧ d.projectPathDiff = d.projectPath ∧ d.imageSizeDiff = 0

/-- No difference in an entry of a listing. -/
def Entry.NoDiffs (e : Entry) : Prop :=
  e.sizeDiff = 0 ∧ ∀ t ∈ e.types, t.2.sizeDiff = 0 ∧ ∀ s ∈ t.2.sections, s.2.sizeDiff = 0

/-- The cell is empty, or a number with the difference zero. -/
def UnchangedCell (F : FloatOps) (c : Str) : Prop :=
  c = [] ∨ (∃ z, c = intStr z ++ str " " ++ int6 0) ∨ ∃ p, c = F.show2 p ++ str " " ++ F.pad2 0

/-- Without `--show-unchanged` there are no rows, and no cell shows a difference. -/
def UnchangedTable (F : FloatOps) (args : Args) (tab : Table) : Prop :=
  (args.showUnchanged = false → tab.rows = []) ∧ ∀ r ∈ tab.rows, ∀ c ∈ r.tail, UnchangedCell F c

/-- The report shows no difference. -/
def ShowsNoDiffs (F : FloatOps) (args : Args) : Report → Prop
  | .table t => UnchangedTable F args t
  | .csv l => ∃ t, l = csvLines t ∧ UnchangedTable F args t
  | .entries E => (args.showUnchanged = false → E = []) ∧ ∀ p ∈ E, p.2.NoDiffs
  | .raw d => SameProject d ∧ EspSize.NoDiffs d
  | .tree d => SameProject d ∧ EspSize.NoDiffs d ∧ (args.showUnchanged = false → d.memoryTypes = [])
  | _ => True

end EspSize
