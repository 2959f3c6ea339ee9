import Verif.Proofs.Summary
import Verif.Proofs.UnifyDiff
import Verif.Props.Walk
/-! # Internal consistency of a summary -/
namespace EspSize

theorem sumBy_comm {α β : Type} (f : α → β → Int) (a : List α) (b : List β) :
    sumBy (fun x => sumBy (f x) b) a = sumBy (fun y => sumBy (fun x => f x y) a) b := by
  induction a with
  | nil => simp [sumBy, sumBy_zero (fun _ _ => rfl)]
  | cons x t ih => simp only [sumBy, ih, sumBy_add]

theorem lastOr_eq_sumIf {α : Type} (P : α → Bool) (f : α → Int) (l : List α)
    (h : l.Pairwise fun x y => ¬ (P x = true ∧ P y = true)) : lastOr P f 0 l = sumIf P f l := by
  induction l using snocInd with
  | nil => rfl
  | snoc l r ih =>
    rw [lastOr_snoc, sumIf_append, sumIf_singleton]
    rw [List.pairwise_append] at h
    by_cases hp : P r = true
    · rw [if_pos hp]
      have : sumIf P f l = 0 := by
        apply sumBy_zero
        intro x hx
        have := h.2.2 x hx r (by simp)
        simp only [hp, and_true] at this
        simp [this]
      rw [this]; simp [hp]
    · rw [if_neg hp, ih h.1]; simp [hp]

/-- Records never collide inside one entry, memory type and section. -/
def NoClash (recs : List Rec) : Prop :=
  recs.Pairwise fun x y => ¬ (x.key = y.key ∧ x.type = y.type ∧ x.sec = y.sec)

theorem NoClash.pair {recs : List Rec} (h : NoClash recs) (k t s : Str) :
    recs.Pairwise fun x y => ¬ (onKTS k t s x = true ∧ onKTS k t s y = true) := by
  refine h.imp ?_
  intro x y hxy hP
  apply hxy
  simp only [onKTS, Bool.and_eq_true, decide_eq_true_eq] at hP
  obtain ⟨⟨⟨a1, a2⟩, a3⟩, ⟨⟨b1, b2⟩, b3⟩⟩ := hP
  exact ⟨a1.trans b1.symm, a2.trans b2.symm, a3.trans b3.symm⟩

theorem summaryTypes_get {m : MemMap} (t : Str) :
    dget (summaryTypes m) t = (getType m t).map fun x =>
      { size := 0, sizeDiff := 0,
        sections := dmap (fun _ s => { abb := s.abb, size := 0, sizeDiff := 0 }) x.sections } := by
  unfold summaryTypes getType
  rw [dget_dmap]

theorem mtWF_summaryTypes {m : MemMap} (hm : m.WF) : MtWF (summaryTypes m) := by
  refine ⟨hm.1.dmap _, ?_⟩
  intro p hp
  simp only [summaryTypes, dmap, List.mem_map] at hp
  obtain ⟨q, hq, rfl⟩ := hp
  exact (hm.2 q hq).1.dmap fun _ s => ({ abb := s.abb, size := 0, sizeDiff := 0 } : SSec)

/-- Sum of the memory type sizes of an entry. -/
theorem sum_typesOf {m : MemMap} (hm : m.WF) (k : Str) (recs : List Rec)
    (hr : ∀ r ∈ recs, RecOk (summaryTypes m) r) (f : Rec → Int) :
    sumBy (fun p => sumIf (onKT k p.1) f recs) (summaryTypes m) = sumIf (onK k) f recs := by
  unfold sumIf
  rw [sumBy_comm]
  apply sumBy_congr
  intro r hrm
  obtain ⟨st, ss, ht, _⟩ := hr r hrm
  have hmem : r.type ∈ dkeys (summaryTypes m) := by rw [← dget_isSome, ht]; rfl
  have := sumBy_ite_key (summaryTypes m) (mtWF_summaryTypes hm).1 r.type (if onK k r then f r else 0)
  rw [if_pos hmem] at this
  rw [← this]
  apply sumBy_congr
  intro p _
  by_cases h : p.1 = r.type
  · simp [onKT, onK, h]
  · simp [onKT, Ne.symm h, h]

theorem sum_secsOf {m : MemMap} (hm : m.WF) (k t : Str) (recs : List Rec)
    (hr : ∀ r ∈ recs, RecOk (summaryTypes m) r) (x : MType) (hx : getType m t = some x) (f : Rec → Int) :
    sumBy (fun p => sumIf (onKTS k t p.1) f recs) x.sections = sumIf (onKT k t) f recs := by
  unfold sumIf
  rw [sumBy_comm]
  apply sumBy_congr
  intro r hrm
  obtain ⟨st, ss, ht, hs⟩ := hr r hrm
  by_cases h0 : r.type = t
  · rw [h0, summaryTypes_get, hx] at ht
    obtain rfl := Option.some.inj ht
    simp only [dget_dmap] at hs
    have hmem : r.sec ∈ dkeys x.sections := by
      rw [← dget_isSome]
      cases hd : dget x.sections r.sec with
      | none => rw [hd] at hs; cases hs
      | some _ => rfl
    have := sumBy_ite_key x.sections (hm.2 _ (mem_of_dget hx)).1 r.sec (if onKT k t r then f r else 0)
    rw [if_pos hmem] at this
    rw [← this]
    apply sumBy_congr
    intro p _
    by_cases h : p.1 = r.sec
    · simp [onKTS, onKT, h]
    · simp [onKTS, Ne.symm h, h]
  · rw [sumBy_zero]
    · simp [onKT, h0]
    · intro p _; simp [onKTS, h0]

/-- What a summary must satisfy as far as its own numbers are concerned. -/
structure Consistent (m : MemMap) (e : Entry) : Prop where
  types : dkeys e.types = dkeys m.memoryTypes
  size : e.size = sumBy (fun p => p.2.size) e.types
  sizeDiff : e.sizeDiff = sumBy (fun p => p.2.sizeDiff) e.types

/-- The sections of each memory type of an entry are those of the map and sum to the type's size. -/
structure SecConsistent (m : MemMap) (e : Entry) : Prop where
  sections : ∀ t st, dget e.types t = some st → ∃ x, getType m t = some x ∧
    dkeys st.sections = dkeys x.sections
  size : ∀ t st, dget e.types t = some st → st.size = sumBy (fun p => p.2.size) st.sections
  sizeDiff : ∀ t st, dget e.types t = some st → st.sizeDiff = sumBy (fun p => p.2.sizeDiff) st.sections

theorem entryOf_type {m : MemMap} {k t : Str} {recs : List Rec} {st : SType}
    (h : dget (entryOf (summaryTypes m) k recs).types t = some st) : ∃ x, getType m t = some x ∧
      st = { size := sumIf (onKT k t) Rec.size recs, sizeDiff := sumIf (onKT k t) Rec.sizeDiff recs,
             sections := dmap (fun s sx => { abb := sx.abb,
                                             size := lastOr (onKTS k t s) Rec.size 0 recs,
                                             sizeDiff := lastOr (onKTS k t s) Rec.sizeDiff 0 recs })
                           x.sections } := by
  simp only [entryOf, typesOf, dget_dmap, summaryTypes_get] at h
  cases hx : getType m t with
  | none => rw [hx] at h; cases h
  | some x =>
    rw [hx] at h
    refine ⟨x, rfl, ?_⟩
    have := Option.some.inj h
    rw [← this]
    simp [secsOf, dmap]

theorem sumBy_mt_size (m : MemMap) (k : Str) (recs : List Rec) :
    sumBy (fun p => p.2.size) (typesOf k recs (summaryTypes m)) =
      sumBy (fun p => sumIf (onKT k p.1) Rec.size recs) (summaryTypes m) := by
  unfold typesOf
  simp only [dmap, sumBy_map, summaryTypes, Int.zero_add]

theorem sumBy_mt_sizeDiff (m : MemMap) (k : Str) (recs : List Rec) :
    sumBy (fun p => p.2.sizeDiff) (typesOf k recs (summaryTypes m)) =
      sumBy (fun p => sumIf (onKT k p.1) Rec.sizeDiff recs) (summaryTypes m) := by
  unfold typesOf
  simp only [dmap, sumBy_map, summaryTypes, Int.zero_add]

theorem consistent_entryOf {m : MemMap} (hm : m.WF) (k : Str) (recs : List Rec)
    (hr : ∀ r ∈ recs, RecOk (summaryTypes m) r) : Consistent m (entryOf (summaryTypes m) k recs) where
  types := by simp [entryOf, typesOf, summaryTypes]
  size := by
    simp only [entryOf]
    rw [sumBy_mt_size, sum_typesOf hm k recs hr]
  sizeDiff := by
    simp only [entryOf]
    rw [sumBy_mt_sizeDiff, sum_typesOf hm k recs hr]

theorem secConsistent_entryOf {m : MemMap} (hm : m.WF) (k : Str) (recs : List Rec)
    (hr : ∀ r ∈ recs, RecOk (summaryTypes m) r) (hc : NoClash recs) :
    SecConsistent m (entryOf (summaryTypes m) k recs) where
  sections := by
    intro t st h
    obtain ⟨x, hx, rfl⟩ := entryOf_type h
    exact ⟨x, hx, by simp⟩
  size := by
    intro t st h
    obtain ⟨x, hx, rfl⟩ := entryOf_type h
    simp only [dmap, sumBy_map]
    rw [← sum_secsOf hm k t recs hr x hx]
    apply sumBy_congr
    intro p _
    rw [lastOr_eq_sumIf _ _ _ (hc.pair k t p.1)]
  sizeDiff := by
    intro t st h
    obtain ⟨x, hx, rfl⟩ := entryOf_type h
    simp only [dmap, sumBy_map]
    rw [← sum_secsOf hm k t recs hr x hx]
    apply sumBy_congr
    intro p _
    rw [lastOr_eq_sumIf _ _ _ (hc.pair k t p.1)]

/-! ### Records of the three reports -/

theorem walk_type_mem {m : MemMap} {d : Str} {i : Item} (h : i ∈ walk m d) : i.type ∈ m.memoryTypes := by
  obtain ⟨t, ht, hi⟩ := List.mem_flatMap.mp h
  rw [mem_walkType hi]; exact ht

theorem walk_sec_mem {m : MemMap} {d : Str} {i : Item} (h : i ∈ walk m d) {s : Str × Sec}
    (hs : i.sec = some s) : s ∈ i.type.2.sections := by
  obtain ⟨t, ht, hi⟩ := List.mem_flatMap.mp h
  have e := mem_walkType hi
  unfold walkType at hi
  split at hi
  · simp at hi; subst hi; simp at hs
  · obtain ⟨s', hs', hi⟩ := List.mem_flatMap.mp hi
    have := (mem_walkSec hi).2
    rw [hs] at this
    cases this
    rw [e]; exact hs'

theorem recOk_of {m : MemMap} (hm : m.WF) {d : Str} {i : Item} (h : i ∈ walk m d) {s : Str × Sec}
    (hs : i.sec = some s) {r : Rec} (h1 : r.type = i.type.1) (h2 : r.sec = s.1) :
    RecOk (summaryTypes m) r := by
  have ht : getType m i.type.1 = some i.type.2 := dget_of_mem hm.1 (walk_type_mem h)
  have hsx : dget i.type.2.sections s.1 = some s.2 :=
    dget_of_mem (hm.2 _ (walk_type_mem h)).1 (walk_sec_mem h hs)
  refine ⟨{ size := 0, sizeDiff := 0,
            sections := dmap (fun _ s => { abb := s.abb, size := 0, sizeDiff := 0 }) i.type.2.sections },
      { abb := s.2.abb, size := 0, sizeDiff := 0 }, ?_, ?_⟩
  · rw [h1, summaryTypes_get, ht]; rfl
  · simp only [h2, dget_dmap, hsx]; rfl

theorem not_before_self {ks : List Str} (h : ks.Nodup) (a : Str) : ¬ Before ks a a := by
  intro hb
  have := List.Nodup.sublist hb h
  simp at this

/-- Records built from `walk` do not clash if those of one section have different keys. -/
theorem noClash_of {m : MemMap} (hm : m.WF) {d : Str} {f : Item → Option Rec}
    (hf : ∀ i ∈ walk m d, ∀ r, f i = some r → ∃ s, i.sec = some s ∧ r.type = i.type.1 ∧ r.sec = s.1)
    (hk : ∀ i ∈ walk m d, ∀ j ∈ walk m d, ItemLt m i j → i.type = j.type → i.sec = j.sec → ∀ r r', f i = some r → f j = some r' →
      r.key ≠ r'.key) :
    NoClash ((walk m d).filterMap f) := by
  unfold NoClash
  rw [List.pairwise_filterMap]
  have hord := C54_walk_order m d
  rw [List.pairwise_iff_forall_sublist] at hord ⊢
  intro i j hij r hr r' hr' hsame
  have hi : i ∈ walk m d := hij.subset (by simp)
  have hj : j ∈ walk m d := hij.subset (by simp)
  obtain ⟨s, hs, h1, h2⟩ := hf i hi r hr
  obtain ⟨s', hs', h1', h2'⟩ := hf j hj r' hr'
  have hlt := hord hij
  have ety : i.type.1 = j.type.1 := by rw [← h1, ← h1']; exact hsame.2.1
  have esec : s.1 = s'.1 := by rw [← h2, ← h2']; exact hsame.2.2
  have hlt' := hlt
  rcases hlt with hb | ⟨et, s1, s2, e1, e2, hrest⟩
  · rw [ety] at hb; exact not_before_self hm.1 _ hb
  · rw [hs] at e1; cases e1
    rw [hs'] at e2; cases e2
    rcases hrest with hb | ⟨es, _⟩
    · rw [esec] at hb; exact not_before_self (hm.2 _ (walk_type_mem hi)).1 _ hb
    · exact hk i hi j hj hlt' et (by rw [hs, hs', es]) r r' hr hr' hsame.1

end EspSize
