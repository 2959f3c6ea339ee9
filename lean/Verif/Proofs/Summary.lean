import Verif.Model.Summary
import Verif.Proofs.Dict
import Verif.Proofs.Unify
import Verif.Proofs.List
/-! # The three summaries as one fold -/
namespace EspSize

/-- Sum of `f` over the records satisfying `P`. -/
def sumIf {α : Type} (P : α → Bool) (f : α → Int) (l : List α) : Int :=
  sumBy (fun r => if P r then f r else 0) l

/-- `f` of the last record satisfying `P`, `d` if there is none. -/
def lastOr {α : Type} (P : α → Bool) (f : α → Int) (d : Int) (l : List α) : Int :=
  l.foldl (fun acc r => if P r then f r else acc) d

theorem sumIf_append {α : Type} (P : α → Bool) (f : α → Int) (a b : List α) :
    sumIf P f (a ++ b) = sumIf P f a + sumIf P f b := sumBy_append _ _ _

theorem sumIf_singleton {α : Type} (P : α → Bool) (f : α → Int) (r : α) :
    sumIf P f [r] = if P r then f r else 0 := by simp [sumIf, sumBy]

theorem lastOr_snoc {α : Type} (P : α → Bool) (f : α → Int) (d : Int) (l : List α) (r : α) :
    lastOr P f d (l ++ [r]) = if P r then f r else lastOr P f d l := by
  simp [lastOr, List.foldl_append]

def onK (k : Str) (r : Rec) : Bool := r.key = k
def onKT (k t : Str) (r : Rec) : Bool := r.key = k && r.type = t
def onKTS (k t s : Str) (r : Rec) : Bool := r.key = k && r.type = t && r.sec = s

/-- Sections part of an entry after `recs`. -/
def secsOf (k t : Str) (recs : List Rec) (d : Dict Str SSec) : Dict Str SSec :=
  dmap (fun s ss => { ss with size := lastOr (onKTS k t s) Rec.size ss.size recs,
                              sizeDiff := lastOr (onKTS k t s) Rec.sizeDiff ss.sizeDiff recs }) d

/-- Memory types part of an entry after `recs`. -/
def typesOf (k : Str) (recs : List Rec) (mt : Dict Str SType) : Dict Str SType :=
  dmap (fun t st => { size := st.size + sumIf (onKT k t) Rec.size recs,
                      sizeDiff := st.sizeDiff + sumIf (onKT k t) Rec.sizeDiff recs,
                      sections := secsOf k t recs st.sections }) mt

/-- The entry with key `k` after `recs`. -/
def entryOf (mt : Dict Str SType) (k : Str) (recs : List Rec) : Entry :=
  { abb := ((recs.find? (onK k)).map Rec.abb).getD []
    size := sumIf (onK k) Rec.size recs
    sizeDiff := sumIf (onK k) Rec.sizeDiff recs
    types := typesOf k recs mt }

def MtWF (mt : Dict Str SType) : Prop := KeysNodup mt ∧ ∀ p ∈ mt, KeysNodup p.2.sections

/-- The record's memory type and section exist. -/
def RecOk (mt : Dict Str SType) (r : Rec) : Prop :=
  ∃ st ss, dget mt r.type = some st ∧ dget st.sections r.sec = some ss

theorem dset_dmap {κ α β : Type} [DecidableEq κ] (f : κ → α → β) (d : Dict κ α) (hd : KeysNodup d)
    (k : κ) (v : β) (hk : k ∈ dkeys d) :
    dset (dmap f d) k v = dmap (fun k' x => if k' = k then v else f k' x) d := by
  rw [dset_eq_map (hd.dmap f) (by simpa using hk)]
  simp only [dmap, List.map_map]
  apply List.map_congr_left
  intro p _
  simp only [Function.comp]
  by_cases h : p.1 = k <;> simp [h]

theorem dmap_congr {κ α β : Type} {f g : κ → α → β} {d : Dict κ α}
    (h : ∀ p ∈ d, f p.1 p.2 = g p.1 p.2) : dmap f d = dmap g d := by
  apply List.map_congr_left
  intro p hp
  rw [h p hp]

theorem secsOf_snoc_ne {k t : Str} {recs : List Rec} {r : Rec} (h : onKT k t r = false)
    (d : Dict Str SSec) : secsOf k t (recs ++ [r]) d = secsOf k t recs d := by
  apply dmap_congr
  intro p _
  have : onKTS k t p.1 r = false := by
    simp only [onKT, onKTS, Bool.and_eq_false_iff] at *
    exact Or.inl h
  simp [lastOr_snoc, this]

theorem typesOf_snoc_ne {k : Str} {recs : List Rec} {r : Rec} (h : r.key ≠ k) (mt : Dict Str SType) :
    typesOf k (recs ++ [r]) mt = typesOf k recs mt := by
  apply dmap_congr
  intro p _
  have : onKT k p.1 r = false := by simp [onKT, h]
  rw [secsOf_snoc_ne this]
  simp [sumIf_append, sumIf_singleton, this]

theorem entryOf_snoc_ne {mt : Dict Str SType} {k : Str} {recs : List Rec} {r : Rec} (h : r.key ≠ k) :
    entryOf mt k (recs ++ [r]) = entryOf mt k recs := by
  have h1 : onK k r = false := by simp [onK, h]
  unfold entryOf
  rw [typesOf_snoc_ne h, List.find?_append]
  simp [sumIf_append, sumIf_singleton, h1]

theorem secsOf_snoc {t : Str} {recs : List Rec} {r : Rec} (ht : r.type = t)
    (d : Dict Str SSec) (hd : KeysNodup d) (ss : SSec) (hs : dget d r.sec = some ss) :
    secsOf r.key t (recs ++ [r]) d =
      dset (secsOf r.key t recs d) r.sec { ss with size := r.size, sizeDiff := r.sizeDiff } := by
  unfold secsOf
  rw [dset_dmap _ _ hd _ _ (by rw [← dget_isSome, hs]; rfl)]
  apply dmap_congr
  intro p hp
  by_cases h : p.1 = r.sec
  · have hpv : dget d p.1 = some p.2 := dget_of_mem hd (k := p.1) (v := p.2) hp
    rw [h, hs] at hpv
    obtain rfl : ss = p.2 := by simpa using hpv
    simp [lastOr_snoc, h, onKTS, ht]
  · simp [lastOr_snoc, h, onKTS, Ne.symm h]

theorem typesOf_snoc {recs : List Rec} {r : Rec} {mt : Dict Str SType} (hm : MtWF mt) (st : SType)
    (ss : SSec) (ht : dget mt r.type = some st) (hs : dget st.sections r.sec = some ss) :
    typesOf r.key (recs ++ [r]) mt =
      dset (typesOf r.key recs mt) r.type
        { size := st.size + sumIf (onKT r.key r.type) Rec.size recs + r.size
          sizeDiff := st.sizeDiff + sumIf (onKT r.key r.type) Rec.sizeDiff recs + r.sizeDiff
          sections := dset (secsOf r.key r.type recs st.sections) r.sec
            { ss with size := r.size, sizeDiff := r.sizeDiff } } := by
  unfold typesOf
  rw [dset_dmap _ _ hm.1 _ _ (by rw [← dget_isSome, ht]; rfl)]
  apply dmap_congr
  intro p hp
  by_cases h : p.1 = r.type
  · have hpv : dget mt p.1 = some p.2 := dget_of_mem hm.1 (k := p.1) (v := p.2) hp
    rw [h, ht] at hpv
    obtain rfl : st = p.2 := by simpa using hpv
    rw [if_pos h, secsOf_snoc h.symm _ (hm.2 _ hp) ss hs, h]
    have : onKT r.key r.type r = true := by simp [onKT]
    simp [sumIf_append, sumIf_singleton, this, Int.add_assoc]
  · rw [if_neg h]
    have : onKT r.key p.1 r = false := by simp [onKT, Ne.symm h]
    rw [secsOf_snoc_ne this]
    simp [sumIf_append, sumIf_singleton, this]

/-- One iteration turns the entry after `recs` into the entry after `recs ++ [r]`. -/
theorem bump_entryOf {mt : Dict Str SType} (hm : MtWF mt) {recs : List Rec} {r : Rec} (hr : RecOk mt r)
    (abb : Str) :
    bump { entryOf mt r.key recs with abb := abb } r =
      .ok { entryOf mt r.key (recs ++ [r]) with abb := abb } := by
  obtain ⟨st, ss, ht, hs⟩ := hr
  unfold bump
  have h1 : dget (entryOf mt r.key recs).types r.type = some
      { size := st.size + sumIf (onKT r.key r.type) Rec.size recs,
        sizeDiff := st.sizeDiff + sumIf (onKT r.key r.type) Rec.sizeDiff recs,
        sections := secsOf r.key r.type recs st.sections } := by
    simp [entryOf, typesOf, dget_dmap, ht]
  have h2 : dget (secsOf r.key r.type recs st.sections) r.sec = some
      { ss with size := lastOr (onKTS r.key r.type r.sec) Rec.size ss.size recs,
                sizeDiff := lastOr (onKTS r.key r.type r.sec) Rec.sizeDiff ss.sizeDiff recs } := by
    simp [secsOf, dget_dmap, hs]
  simp only [h1, h2]
  have h3 : onK r.key r = true := by simp [onK]
  simp only [entryOf, typesOf_snoc hm st ss ht hs, sumIf_append, sumIf_singleton, h3, if_true]

theorem entryOf_nil (mt : Dict Str SType) (k : Str) :
    entryOf mt k [] = { abb := [], size := 0, sizeDiff := 0, types := mt } := by
  simp [entryOf, sumIf, sumBy, typesOf, secsOf, dmap, lastOr]

/-- State of the fold after `recs`. -/
structure SumInv (mt : Dict Str SType) (recs : List Rec) (E : Dict Str Entry) : Prop where
  nodup : KeysNodup E
  look : ∀ k, dget E k = if recs.any (onK k) then some (entryOf mt k recs) else none
  total : sumBy (fun p => p.2.size) E = sumBy Rec.size recs
  totalDiff : sumBy (fun p => p.2.sizeDiff) E = sumBy Rec.sizeDiff recs

theorem entryOf_none {mt : Dict Str SType} {k : Str} {recs : List Rec} (h : recs.any (onK k) = false) :
    entryOf mt k recs = { abb := [], size := 0, sizeDiff := 0, types := mt } := by
  induction recs using snocInd with
  | nil => exact entryOf_nil mt k
  | snoc l r ih =>
    simp only [List.any_append, List.any_cons, List.any_nil, Bool.or_false, Bool.or_eq_false_iff] at h
    rw [entryOf_snoc_ne (by simpa [onK] using h.2), ih h.1]

theorem addRec_inv {mt : Dict Str SType} (hm : MtWF mt) {recs : List Rec} {r : Rec} (hr : RecOk mt r)
    {E : Dict Str Entry} (h : SumInv mt recs E) :
    ∃ E', addRec mt E r = .ok E' ∧ SumInv mt (recs ++ [r]) E' := by
  have hlk := h.look r.key
  have hstep : addRec mt E r = .ok (dset E r.key (entryOf mt r.key (recs ++ [r]))) := by
    unfold addRec
    by_cases ha : recs.any (onK r.key) = true
    · rw [if_pos ha] at hlk
      simp only [hlk]
      have := bump_entryOf hm (recs := recs) hr (entryOf mt r.key recs).abb
      have e1 : ({ entryOf mt r.key recs with abb := (entryOf mt r.key recs).abb } : Entry) =
        entryOf mt r.key recs := rfl
      rw [e1] at this
      rw [this]
      have e2 : (entryOf mt r.key (recs ++ [r])).abb = (entryOf mt r.key recs).abb := by
        simp only [entryOf]
        rw [List.find?_append]
        obtain ⟨x, hx⟩ := Option.isSome_iff_exists.mp (List.find?_isSome.mpr (List.any_eq_true.mp ha))
        simp [hx]
      simp only [bind, Except.bind]
      rw [← e2]
    · have ha' : recs.any (onK r.key) = false := by simpa using ha
      rw [if_neg ha] at hlk
      simp only [hlk]
      have := bump_entryOf hm (recs := recs) hr r.abb
      rw [entryOf_none ha'] at this
      simp only [] at this
      rw [this]
      have e2 : (entryOf mt r.key (recs ++ [r])).abb = r.abb := by
        simp only [entryOf]
        rw [List.find?_append]
        have : recs.find? (onK r.key) = none := by
          rw [List.find?_eq_none]
          intro x hx
          rw [List.any_eq_false] at ha'
          exact ha' x hx
        simp [this, onK]
      simp only [bind, Except.bind]
      rw [← e2]
  refine ⟨_, hstep, h.nodup.dset _ _, ?_, ?_, ?_⟩
  · intro k
    rw [dget_dset]
    by_cases hk : r.key = k
    · subst hk; simp [onK]
    · rw [if_neg hk, h.look k, entryOf_snoc_ne hk]
      simp [onK, hk]
  · rw [sumBy_dset, h.total, hlk]
    by_cases ha : recs.any (onK r.key) = true
    · simp [ha, orZero, entryOf, sumIf_append, sumIf_singleton, onK, sumBy_append, sumBy]; omega
    · have ha' : recs.any (onK r.key) = false := by simpa using ha
      have h0 : (entryOf mt r.key recs).size = 0 := by rw [entryOf_none ha']
      simp only [entryOf] at h0
      simp [ha', orZero, entryOf, sumIf_append, sumIf_singleton, onK, sumBy_append, sumBy, h0]
  · rw [sumBy_dset, h.totalDiff, hlk]
    by_cases ha : recs.any (onK r.key) = true
    · simp [ha, orZero, entryOf, sumIf_append, sumIf_singleton, onK, sumBy_append, sumBy]; omega
    · have ha' : recs.any (onK r.key) = false := by simpa using ha
      have h0 : (entryOf mt r.key recs).sizeDiff = 0 := by rw [entryOf_none ha']
      simp only [entryOf] at h0
      simp [ha', orZero, entryOf, sumIf_append, sumIf_singleton, onK, sumBy_append, sumBy, h0]

theorem summarize_inv {mt : Dict Str SType} (hm : MtWF mt) (recs : List Rec)
    (hr : ∀ r ∈ recs, RecOk mt r) : ∃ E, summarize mt recs = .ok E ∧ SumInv mt recs E := by
  unfold summarize
  induction recs using snocInd with
  | nil =>
    refine ⟨[], rfl, KeysNodup.nil, ?_, rfl, rfl⟩
    intro k; simp [dget]
  | snoc l r ih =>
    obtain ⟨E, hE, hi⟩ := ih fun x hx => hr x (by simp [hx])
    obtain ⟨E', hE', hi'⟩ := addRec_inv hm (hr r (by simp)) hi
    refine ⟨E', ?_, hi'⟩
    rw [List.foldlM_append, hE]
    simp [bind, Except.bind, List.foldlM, hE', pure, Except.pure]

end EspSize
