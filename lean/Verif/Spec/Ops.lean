import Verif.Spec.Tree
import Verif.Spec.Sort
import Verif.Model.Summary
/-! # Specifications for `sort`, `trim` and `walk` -/
namespace EspSize

/-- `d'` is `d` stably sorted by `key`, with each value replaced by a related one. -/
def LevelSorted {α : Type} (key : α → Int) (rev : Bool) (R : α → α → Prop) (d d' : Dict Str α) : Prop :=
  ∃ mid, StableSort (fun p => key p.2) rev d mid ∧
    All2 (fun p p' => p'.1 = p.1 ∧ R p.2 p'.2) mid d'

/-- Same node up to sorting of what is below. -/
def NodeSorted {α : Type} (key : α → Int) (rev : Bool) (R : α → α → Prop) (n n' : Node α) : Prop :=
  n'.abb = n.abb ∧ n'.size = n.size ∧ n'.sizeDiff = n.sizeDiff ∧ LevelSorted key rev R n.kids n'.kids

def ObjSorted (diff rev : Bool) : Obj → Obj → Prop :=
  NodeSorted (fun x => if diff then x.sizeDiff else x.size) rev fun y y' => y' = y
def ArchSorted (diff rev : Bool) : Arch → Arch → Prop :=
  NodeSorted (fun x => if diff then x.sizeDiff else x.size) rev (ObjSorted diff rev)
def SecSorted (diff rev : Bool) : Sec → Sec → Prop :=
  NodeSorted (fun x => if diff then x.sizeDiff else x.size) rev (ArchSorted diff rev)
def MTypeSorted (diff rev : Bool) (t t' : MType) : Prop :=
  t' = { t with sections := t'.sections } ∧
  LevelSorted (fun x => if diff then x.sizeDiff else x.size) rev (SecSorted diff rev)
    t.sections t'.sections
def MapSorted (diff rev : Bool) (m m' : MemMap) : Prop :=
  m' = { m with memoryTypes := m'.memoryTypes } ∧
  LevelSorted (fun x => if diff then x.usedDiff else x.used) rev (MTypeSorted diff rev)
    m.memoryTypes m'.memoryTypes

/-- Entries of a summary sorted, and in each entry the memory types, and in each of them the sections. -/
def STypeSorted (diff rev : Bool) (t t' : SType) : Prop :=
  t'.size = t.size ∧ t'.sizeDiff = t.sizeDiff ∧
  LevelSorted (fun x => if diff then x.sizeDiff else x.size) rev (fun y y' => y' = y) t.sections t'.sections
def EntrySorted (diff rev : Bool) (e e' : Entry) : Prop :=
  e'.abb = e.abb ∧ e'.size = e.size ∧ e'.sizeDiff = e.sizeDiff ∧
  LevelSorted (fun x => if diff then x.sizeDiff else x.size) rev (STypeSorted diff rev) e.types e'.types
def EntriesSorted (diff rev : Bool) : Dict Str Entry → Dict Str Entry → Prop :=
  LevelSorted (fun x => if diff then x.sizeDiff else x.size) rev (EntrySorted diff rev)

/-- A difference that is displayed: not comparing, or everything requested, or nonzero. -/
def Shown (args : Args) (d : Int) : Prop :=
  args.diff = none ∨ args.diff = some [] ∨ args.showUnchanged = true ∨ d ≠ 0

/-- `--archive-details NAME` given. -/
def Details (args : Args) : Prop := args.archiveDetails ≠ none ∧ args.archiveDetails ≠ some []

def KeptT (args : Args) (m : MemMap) (t : Str) : Prop :=
  ∃ x, getType m t = some x ∧ Shown args x.usedDiff
def KeptS (args : Args) (m : MemMap) (t s : Str) : Prop :=
  KeptT args m t ∧ ∃ x, getSec m t s = some x ∧ Shown args x.sizeDiff
def KeptA (args : Args) (m : MemMap) (t s a : Str) : Prop :=
  KeptS args m t s ∧ ∃ x, getArch m t s a = some x ∧ Shown args x.sizeDiff ∧
    (Details args → args.archiveDetails = some x.abb)
def KeptO (args : Args) (m : MemMap) (t s a o : Str) : Prop :=
  KeptA args m t s a ∧ (Details args ∨ args.archives = false) ∧
    ∃ x, getObj m t s a o = some x ∧ Shown args x.sizeDiff
def KeptY (args : Args) (m : MemMap) (t s a o y : Str) : Prop :=
  KeptO args m t s a o ∧ (Details args ∨ args.files = false) ∧
    ∃ x, getSym m t s a o y = some x ∧ Shown args x.sizeDiff

/-- `a` stands before `b` in the list. -/
def Before (ks : List Str) (a b : Str) : Prop := [a, b].Sublist ks

end EspSize
