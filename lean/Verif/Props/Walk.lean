import Verif.Model.Ops
import Verif.Spec.Ops
import Verif.Proofs.Diff
import Verif.Props.Diff
/-! # C54: `memorymap.walk` -/
namespace EspSize

/-- Tree order: lexicographic by the position of the keys at each level. -/
def ItemLt (m : MemMap) (i j : Item) : Prop :=
  Before (dkeys m.memoryTypes) i.type.1 j.type.1 ∨ i.type = j.type ∧
  ∃ s s', i.sec = some s ∧ j.sec = some s' ∧
    (Before (dkeys i.type.2.sections) s.1 s'.1 ∨ s = s' ∧
    ∃ a a', i.arch = some a ∧ j.arch = some a' ∧
      (Before (dkeys s.2.kids) a.1 a'.1 ∨ a = a' ∧
      ∃ o o', i.obj = some o ∧ j.obj = some o' ∧
        (Before (dkeys a.2.kids) o.1 o'.1 ∨ o = o' ∧
        ∃ y y', i.sym = some y ∧ j.sym = some y' ∧ Before (dkeys o.2.kids) y.1 y'.1)))

theorem pairwise_before {α : Type} (d : Dict Str α) :
    d.Pairwise fun p q => Before (dkeys d) p.1 q.1 := by
  rw [List.pairwise_iff_forall_sublist]
  intro a b h
  exact List.Sublist.map (·.1) h

theorem pairwise_level {α β : Type} {R : β → β → Prop} (d : Dict Str α) (f : Str × α → List β)
    (h1 : ∀ p ∈ d, (f p).Pairwise R)
    (h2 : ∀ p q, Before (dkeys d) p.1 q.1 → ∀ x ∈ f p, ∀ y ∈ f q, R x y) :
    (d.flatMap f).Pairwise R := by
  rw [List.pairwise_flatMap]
  exact ⟨h1, (pairwise_before d).imp fun h => h2 _ _ h⟩

theorem mem_walkObj {depth t s a o i} (h : i ∈ walkObj depth t s a o) :
    i.type = t ∧ i.sec = some s ∧ i.arch = some a ∧ i.obj = some o := by
  unfold walkObj at h
  split at h
  · simp at h; subst h; simp
  · simp at h; obtain ⟨y1, y2, _, rfl⟩ := h; simp

theorem mem_walkArch {depth t s a i} (h : i ∈ walkArch depth t s a) :
    i.type = t ∧ i.sec = some s ∧ i.arch = some a := by
  unfold walkArch at h
  split at h
  · simp at h; subst h; simp
  · obtain ⟨o, _, h⟩ := List.mem_flatMap.mp h
    have := mem_walkObj h
    exact ⟨this.1, this.2.1, this.2.2.1⟩

theorem mem_walkSec {depth t s i} (h : i ∈ walkSec depth t s) : i.type = t ∧ i.sec = some s := by
  unfold walkSec at h
  split at h
  · simp at h; subst h; simp
  · obtain ⟨o, _, h⟩ := List.mem_flatMap.mp h
    have := mem_walkArch h
    exact ⟨this.1, this.2.1⟩

theorem mem_walkType {depth t i} (h : i ∈ walkType depth t) : i.type = t := by
  unfold walkType at h
  split at h
  · simp at h; subst h; simp
  · obtain ⟨o, _, h⟩ := List.mem_flatMap.mp h
    exact (mem_walkSec h).1

/-- **C54** (order) entries are yielded strictly in tree order, so none twice. -/
theorem C54_walk_order (m : MemMap) (depth : Str) : (walk m depth).Pairwise (ItemLt m) := by
  apply pairwise_level
  · intro t _
    unfold walkType
    split
    · simp
    apply pairwise_level
    · intro s _
      unfold walkSec
      split
      · simp
      apply pairwise_level
      · intro a _
        unfold walkArch
        split
        · simp
        apply pairwise_level
        · intro o _
          unfold walkObj
          split
          · simp
          rw [List.pairwise_map]
          refine (pairwise_before _).imp ?_
          intro p q h
          exact Or.inr ⟨rfl, _, _, rfl, rfl, Or.inr ⟨rfl, _, _, rfl, rfl, Or.inr ⟨rfl, _, _, rfl, rfl,
            Or.inr ⟨rfl, _, _, rfl, rfl, h⟩⟩⟩⟩
        · intro p q h x hx y hy
          have hx := mem_walkObj hx
          have hy := mem_walkObj hy
          exact Or.inr ⟨hx.1.trans hy.1.symm, _, _, hx.2.1, hy.2.1, Or.inr ⟨rfl, _, _, hx.2.2.1, hy.2.2.1,
            Or.inr ⟨rfl, _, _, hx.2.2.2, hy.2.2.2, Or.inl h⟩⟩⟩
      · intro p q h x hx y hy
        have hx := mem_walkArch hx
        have hy := mem_walkArch hy
        exact Or.inr ⟨hx.1.trans hy.1.symm, _, _, hx.2.1, hy.2.1, Or.inr ⟨rfl, _, _, hx.2.2, hy.2.2,
          Or.inl h⟩⟩
    · intro p q h x hx y hy
      have hx := mem_walkSec hx
      have hy := mem_walkSec hy
      refine Or.inr ⟨hx.1.trans hy.1.symm, _, _, hx.2, hy.2, Or.inl ?_⟩
      rw [hx.1]; exact h
  · intro p q h x hx y hy
    have hx := mem_walkType hx
    have hy := mem_walkType hy
    refine Or.inl ?_
    rw [hx, hy]; exact h

/-- The depth argument that selects no early level. -/
def FullDepth (d : Str) : Prop :=
  d ≠ str "types" ∧ d ≠ str "sections" ∧ d ≠ str "archives" ∧ d ≠ str "objects"

/-- **C54** (contents) exactly the entries of the level, with their ancestors. -/
theorem C54_walk_mem (m : MemMap) (hm : m.WF) (i : Item) :
    (i ∈ walk m (str "types") ↔ ∃ t x, getType m t = some x ∧ i = { type := (t, x) }) ∧
    (i ∈ walk m (str "sections") ↔ ∃ t s x sx, getType m t = some x ∧ getSec m t s = some sx ∧
      i = { type := (t, x), sec := some (s, sx) }) ∧
    (i ∈ walk m (str "archives") ↔ ∃ t s a x sx ax, getType m t = some x ∧ getSec m t s = some sx ∧
      getArch m t s a = some ax ∧ i = { type := (t, x), sec := some (s, sx), arch := some (a, ax) }) ∧
    (i ∈ walk m (str "objects") ↔ ∃ t s a o x sx ax ox, getType m t = some x ∧
      getSec m t s = some sx ∧ getArch m t s a = some ax ∧ getObj m t s a o = some ox ∧
      i = { type := (t, x), sec := some (s, sx), arch := some (a, ax), obj := some (o, ox) }) ∧
    (∀ d, FullDepth d → (i ∈ walk m d ↔ ∃ t s a o y x sx ax ox yx, getType m t = some x ∧
      getSec m t s = some sx ∧ getArch m t s a = some ax ∧ getObj m t s a o = some ox ∧
      getSym m t s a o y = some yx ∧
      i = { type := (t, x), sec := some (s, sx), arch := some (a, ax), obj := some (o, ox),
            sym := some (y, yx) })) := by
  have hT : ∀ t : Str × MType, t ∈ m.memoryTypes ↔ getType m t.1 = some t.2 :=
    fun t => (dget_iff_mem hm.1).symm
  have hS : ∀ (t : Str × MType) (s : Str × Sec), getType m t.1 = some t.2 →
      (s ∈ t.2.sections ↔ getSec m t.1 s.1 = some s.2) := by
    intro t s ht
    unfold getSec; rw [ht]
    exact (dget_iff_mem (hm.getType ht).1).symm
  have hA : ∀ (t : Str × MType) (s : Str × Sec) (a : Str × Arch), getSec m t.1 s.1 = some s.2 →
      (a ∈ s.2.kids ↔ getArch m t.1 s.1 a.1 = some a.2) := by
    intro t s a ht
    unfold getArch; rw [ht]
    exact (dget_iff_mem (hm.getSec ht).1).symm
  have hO : ∀ (t : Str × MType) (s : Str × Sec) (a : Str × Arch) (o : Str × Obj),
      getArch m t.1 s.1 a.1 = some a.2 →
      (o ∈ a.2.kids ↔ getObj m t.1 s.1 a.1 o.1 = some o.2) := by
    intro t s a o ht
    unfold getObj; rw [ht]
    exact (dget_iff_mem (hm.getArch ht).1).symm
  have hY : ∀ (t : Str × MType) (s : Str × Sec) (a : Str × Arch) (o : Str × Obj) (y : Str × Sym),
      getObj m t.1 s.1 a.1 o.1 = some o.2 →
      (y ∈ o.2.kids ↔ getSym m t.1 s.1 a.1 o.1 y.1 = some y.2) := by
    intro t s a o y ht
    unfold getSym; rw [ht]
    exact (dget_iff_mem (hm.getObj ht).1).symm
  refine ⟨?_, ?_, ?_, ?_, ?_⟩
  · unfold walk
    simp only [List.mem_flatMap, walkType, if_true, List.mem_singleton]
    constructor
    · rintro ⟨t, ht, rfl⟩; exact ⟨t.1, t.2, (hT t).mp ht, rfl⟩
    · rintro ⟨t, x, ht, rfl⟩; exact ⟨(t, x), (hT _).mpr ht, rfl⟩
  · have n1 : str "sections" ≠ str "types" := by decide
    unfold walk
    simp only [List.mem_flatMap, walkType, if_neg n1, walkSec, if_true, List.mem_singleton]
    constructor
    · rintro ⟨t, ht, s, hs, rfl⟩
      have ht := (hT t).mp ht
      exact ⟨t.1, s.1, t.2, s.2, ht, (hS t s ht).mp hs, rfl⟩
    · rintro ⟨t, s, x, sx, ht, hs, rfl⟩
      exact ⟨(t, x), (hT _).mpr ht, (s, sx), (hS (t, x) (s, sx) ht).mpr hs, rfl⟩
  · have n1 : str "archives" ≠ str "types" := by decide
    have n2 : str "archives" ≠ str "sections" := by decide
    unfold walk
    simp only [List.mem_flatMap, walkType, if_neg n1, walkSec, if_neg n2, walkArch, if_true,
      List.mem_singleton]
    constructor
    · rintro ⟨t, ht, s, hs, a, ha, rfl⟩
      have ht := (hT t).mp ht
      have hs := (hS t s ht).mp hs
      exact ⟨t.1, s.1, a.1, t.2, s.2, a.2, ht, hs, (hA t s a hs).mp ha, rfl⟩
    · rintro ⟨t, s, a, x, sx, ax, ht, hs, ha, rfl⟩
      exact ⟨(t, x), (hT _).mpr ht, (s, sx), (hS (t, x) (s, sx) ht).mpr hs, (a, ax),
        (hA (t, x) (s, sx) (a, ax) hs).mpr ha, rfl⟩
  · have n1 : str "objects" ≠ str "types" := by decide
    have n2 : str "objects" ≠ str "sections" := by decide
    have n3 : str "objects" ≠ str "archives" := by decide
    unfold walk
    simp only [List.mem_flatMap, walkType, if_neg n1, walkSec, if_neg n2, walkArch, if_neg n3,
      walkObj, if_true, List.mem_singleton]
    constructor
    · rintro ⟨t, ht, s, hs, a, ha, o, ho, rfl⟩
      have ht := (hT t).mp ht
      have hs := (hS t s ht).mp hs
      have ha := (hA t s a hs).mp ha
      exact ⟨t.1, s.1, a.1, o.1, t.2, s.2, a.2, o.2, ht, hs, ha, (hO t s a o ha).mp ho, rfl⟩
    · rintro ⟨t, s, a, o, x, sx, ax, ox, ht, hs, ha, ho, rfl⟩
      exact ⟨(t, x), (hT _).mpr ht, (s, sx), (hS (t, x) (s, sx) ht).mpr hs, (a, ax),
        (hA (t, x) (s, sx) (a, ax) hs).mpr ha, (o, ox),
        (hO (t, x) (s, sx) (a, ax) (o, ox) ha).mpr ho, rfl⟩
  · rintro d ⟨n1, n2, n3, n4⟩
    unfold walk
    simp only [List.mem_flatMap, walkType, if_neg n1, walkSec, if_neg n2, walkArch, if_neg n3,
      walkObj, if_neg n4, List.mem_map]
    constructor
    · rintro ⟨t, ht, s, hs, a, ha, o, ho, y, hy, rfl⟩
      have ht := (hT t).mp ht
      have hs := (hS t s ht).mp hs
      have ha := (hA t s a hs).mp ha
      have ho := (hO t s a o ha).mp ho
      exact ⟨t.1, s.1, a.1, o.1, y.1, t.2, s.2, a.2, o.2, y.2, ht, hs, ha, ho,
        (hY t s a o y ho).mp hy, rfl⟩
    · rintro ⟨t, s, a, o, y, x, sx, ax, ox, yx, ht, hs, ha, ho, hy, rfl⟩
      exact ⟨(t, x), (hT _).mpr ht, (s, sx), (hS (t, x) (s, sx) ht).mpr hs, (a, ax),
        (hA (t, x) (s, sx) (a, ax) hs).mpr ha, (o, ox),
        (hO (t, x) (s, sx) (a, ax) (o, ox) ha).mpr ho, (y, yx),
        (hY (t, x) (s, sx) (a, ax) (o, ox) (y, yx) ho).mpr hy, rfl⟩

example : (walk exMapA (str "all")).map (fun i => i.sym.map (·.1)) =
    [some (str "s"), some (str "u"), some (str "s")] := by decide
example : FullDepth (str "all") := by unfold FullDepth; decide

end EspSize
