import Verif.Spec.Csv
import Verif.Spec.Sort
import Verif.Model.TreeFmt
import Verif.Model.Csv
/-!
# What a tree report has to show
-/
namespace EspSize

/-- The text of a label. -/
def RTree.text (t : RTree) : Str := render t.label

/-- The node is shown as the name, a blank and the size (with the difference when comparing). -/
def NameSize (t : RTree) (name : Str) (size diff : Int) (d : Bool) : Prop :=
  NoMarkup name → t.text = name ++ ' ' :: shown size diff d

/-- The name under which an entry is displayed. -/
def entryName {α : Type} (ab : Bool) (p : Str × Node α) : Str := if ab then p.2.abb else p.1

/-- The trees show the entries, one for one and in order, with their names and sizes, and below each its parts. -/
def EntriesShown {α : Type} (ab d : Bool) (kids : Node α → List RTree → Prop) (es : Dict Str (Node α)) (ts : List RTree) :
    Prop :=
  All2 (fun p t => NameSize t (entryName ab p) p.2.size p.2.sizeDiff d ∧ kids p.2 t.kids) es ts

/-- Symbols are shown with their full names and have nothing below. -/
def SymsShown (d : Bool) (o : Obj) (ts : List RTree) : Prop :=
  All2 (fun p t => NameSize t p.1 p.2.size p.2.sizeDiff d ∧ t.kids = []) o.kids ts

def ObjsShown (ab d : Bool) (a : Arch) : List RTree → Prop := EntriesShown ab d (SymsShown d) a.kids

def ArchsShown (ab d : Bool) (s : Sec) : List RTree → Prop := EntriesShown ab d (ObjsShown ab d) s.kids

/-- A memory type is shown with what is used and, if known, what there is. -/
def TypeText (t : RTree) (p : Str × MType) (d : Bool) : Prop :=
  NoMarkup p.1 → t.text = p.1 ++ ' ' :: shown p.2.used p.2.usedDiff d ++
    (if p.2.size = 0 then [] else str " / " ++ shown p.2.size p.2.sizeDiff d)

/-- The tree shows the whole memory map. -/
def MapShown (ab d : Bool) (m : MemMap) (t : RTree) : Prop :=
  t.text = str "Memory Types" ∧
  All2 (fun p t => TypeText t p d ∧ EntriesShown ab d (ArchsShown ab d) p.2.sections t.kids) m.memoryTypes t.kids

/-- The tree shows the dependencies, with the symbols they come from if wanted. -/
def DepsShown (ab syms : Bool) (d : Deps) (t : RTree) : Prop :=
  All2 (fun p t =>
      NameSize t (if ab then p.2.abb else p.1) p.2.size 0 false ∧
      All2 (fun q t =>
        NameSize t (if ab then q.2.abb else q.1) q.2.size 0 false ∧
        All2 (fun s t => (¬ HasTag s → ¬ HasEscape s → t.text = s) ∧ t.kids = []) (if syms then q.2.symbols else []) t.kids)
        p.2.archives t.kids)
    d t.kids

end EspSize
