import Verif.Spec.Tree
/-! # Specification of `unify`: groups of entries with the same chain of abbreviated names -/
namespace EspSize

/-- Entries of a dictionary whose abbreviated name is `k`. -/
def named {α : Type} (abb : α → Str) (k : Str) (d : Dict Str α) : List α :=
  (d.filter fun p => abb p.2 = k).map (·.2)

/-- Sections of memory type `t` abbreviated to `s`. -/
def chainSecs (m : MemMap) (t s : Str) : List Sec :=
  match getType m t with
  | none => []
  | some x => named Node.abb s x.sections
/-- Archives abbreviated to `a` in those sections, and so on downwards. -/
def chainArchs (m : MemMap) (t s a : Str) : List Arch :=
  (chainSecs m t s).flatMap fun n => named Node.abb a n.kids
def chainObjs (m : MemMap) (t s a o : Str) : List Obj :=
  (chainArchs m t s a).flatMap fun n => named Node.abb o n.kids
def chainSyms (m : MemMap) (t s a o y : Str) : List Sym :=
  (chainObjs m t s a o).flatMap fun n => named Sym.abb y n.kids

/-- `e` is the aggregate of the group `g` under the name `k`: absent iff the group is empty. -/
structure Aggregate {α : Type} (abb : α → Str) (size sizeDiff : α → Int) (k : Str) (g : List α)
    (e : Option α) : Prop where
  present : e.isSome = true ↔ g ≠ []
  name : ∀ x, e = some x → abb x = k
  sizeEq : orZero size e = sumBy size g
  diffEq : orZero sizeDiff e = sumBy sizeDiff g

/-- Every key is the abbreviated name of its entry, and keys are distinct, at all levels below. -/
def Node.Uni {α : Type} (W : α → Prop) (abb : α → Str) (n : Node α) : Prop :=
  KeysNodup n.kids ∧ ∀ p ∈ n.kids, p.1 = abb p.2 ∧ W p.2
def Obj.Uni : Obj → Prop := Node.Uni (fun _ => True) Sym.abb
def Arch.Uni : Arch → Prop := Node.Uni Obj.Uni Node.abb
def Sec.Uni : Sec → Prop := Node.Uni Arch.Uni Node.abb
def MType.Uni (t : MType) : Prop := KeysNodup t.sections ∧ ∀ p ∈ t.sections, p.1 = p.2.abb ∧ Sec.Uni p.2

/-- The abbreviated name is a function of the key at each level, as in every map built by `get`
(`_abbrev` and `os.path.basename` applied to the key, `memorymap.py:1076-1102,1243,1257,1270`). -/
def Obj.AbbBy (fy : Str → Str) (n : Obj) : Prop := ∀ p ∈ n.kids, p.2.abb = fy p.1
def Arch.AbbBy (fo fy : Str → Str) (n : Arch) : Prop :=
  ∀ p ∈ n.kids, p.2.abb = fo p.1 ∧ Obj.AbbBy fy p.2
def Sec.AbbBy (fa fo fy : Str → Str) (n : Sec) : Prop :=
  ∀ p ∈ n.kids, p.2.abb = fa p.1 ∧ Arch.AbbBy fo fy p.2
def MType.AbbBy (fs fa fo fy : Str → Str) (t : MType) : Prop :=
  ∀ p ∈ t.sections, p.2.abb = fs p.1 ∧ Sec.AbbBy fa fo fy p.2
def MemMap.AbbBy (fs fa fo fy : Str → Str) (m : MemMap) : Prop :=
  ∀ p ∈ m.memoryTypes, MType.AbbBy fs fa fo fy p.2

instance (fy) : DecidablePred (Obj.AbbBy fy) := fun n =>
  inferInstanceAs (Decidable (∀ p ∈ n.kids, _))
instance (fo fy) : DecidablePred (Arch.AbbBy fo fy) := fun n =>
  inferInstanceAs (Decidable (∀ p ∈ n.kids, _))
instance (fa fo fy) : DecidablePred (Sec.AbbBy fa fo fy) := fun n =>
  inferInstanceAs (Decidable (∀ p ∈ n.kids, _))
instance (fs fa fo fy) : DecidablePred (MType.AbbBy fs fa fo fy) := fun n =>
  inferInstanceAs (Decidable (∀ p ∈ n.sections, _))
instance (fs fa fo fy) : DecidablePred (MemMap.AbbBy fs fa fo fy) := fun n =>
  inferInstanceAs (Decidable (∀ p ∈ n.memoryTypes, _))

/-- Totals over all entries of a level of a memory type. -/
def totSecs (f : Sec → Int) (t : MType) : Int := sumBy (fun p => f p.2) t.sections
def totKids {α : Type} (f : α → Int) (n : Node α) : Int := sumBy (fun p => f p.2) n.kids
def totArchs (f : Arch → Int) (t : MType) : Int := totSecs (totKids f) t
def totObjs (f : Obj → Int) (t : MType) : Int := totSecs (totKids (totKids f)) t
def totSyms (f : Sym → Int) (t : MType) : Int := totSecs (totKids (totKids (totKids f))) t

end EspSize
