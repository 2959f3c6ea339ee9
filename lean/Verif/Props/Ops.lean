import Verif.Model.Prepare
import Verif.Spec.Ops
import Verif.Spec.Diff
import Verif.Proofs.Dict
import Verif.Props.Diff
import Verif.Props.Unify
/-! # C08, C09, C10: `remove_unused`, `ignore_flash_size`, `trim` -/
namespace EspSize

theorem foldl_add_eq {α : Type} (f : α → Int) (l : List α) (u : Int) :
    l.foldl (fun u s => u + f s) u = u + sumBy f l := by
  induction l generalizing u with
  | nil => simp [sumBy]
  | cons x t ih => rw [List.foldl_cons, ih]; simp [sumBy]; omega

theorem getType_removeUnused {m : MemMap} (hm : m.WF) (t : Str) :
    getType (removeUnused m) t = ((getType m t).filter fun x => x.used ≠ 0).map fun x =>
      { x with sections := dfilter (fun _ s => !s.kids.isEmpty) x.sections,
               used := sumBy (fun s => s.2.size) (dfilter (fun _ s => !s.kids.isEmpty) x.sections) } := by
  unfold getType removeUnused
  simp only [dget_dmap, dget_dfilter hm.1, Option.map_map]
  congr 1
  funext x
  simp [foldl_add_eq]

/-- **C08** everything except the expectation about zero usage, which the code violates
(`C08_zero_used_remains`). -/
theorem C08_remove_unused_partial (m : MemMap) (hm : m.WF) (t : Str) :
    -- a memory type remains iff it was used, with the same sizes and differences
    (∀ x', getType (removeUnused m) t = some x' → ∃ x, getType m t = some x ∧ x.used ≠ 0 ∧
      x' = { x with used := x'.used, sections := x'.sections } ∧
      -- `used` is the sum of the remaining sections
      x'.used = sumBy (fun s => s.2.size) x'.sections ∧
      -- the sections that remain are exactly those with archives, in the same order, unchanged
      x'.sections.Sublist x.sections ∧
      (∀ s sec, dget x'.sections s = some sec ↔ dget x.sections s = some sec ∧ sec.kids ≠ [])) ∧
    (∀ x, getType m t = some x → x.used ≠ 0 → (getType (removeUnused m) t).isSome = true) := by
  constructor
  · intro x' h
    rw [getType_removeUnused hm] at h
    obtain ⟨x, hx, rfl⟩ := Option.map_eq_some_iff.mp h
    obtain ⟨hx, hu⟩ := Option.filter_eq_some_iff.mp hx
    refine ⟨x, hx, by simpa using hu, rfl, rfl, List.filter_sublist, ?_⟩
    intro s sec
    have hwf : KeysNodup x.sections := (hm.2 _ (mem_of_dget hx)).1
    simp only []
    rw [dget_dfilter hwf, Option.filter_eq_some_iff]
    simp
  · intro x hx hu
    rw [getType_removeUnused hm, hx]
    simp [Option.filter, hu]

/-- A memory type whose only section has no archive. -/
def exEmptyType : MemMap :=
  { exMapA with memoryTypes := [
      (str "IRAM", { size := 64, sizeDiff := 0, used := 5, usedDiff := 0, sections := [
        (str ".iram0.text_end", { abb := str ".text_end", size := 5, sizeDiff := 0, kids := [] })] })] }

/-- **C08** (violated part) a memory type with `used` zero can remain, so `remove_unused` is not
idempotent. -/
theorem C08_zero_used_remains :
    exEmptyType.WF ∧
    (getType (removeUnused exEmptyType) (str "IRAM")).map MType.used = some 0 ∧
    removeUnused (removeUnused exEmptyType) ≠ removeUnused exEmptyType := by decide

example : exMapA.WF ∧ (getType (removeUnused exMapA) (str "DRAM")).isSome = true ∧
    getType (removeUnused exMapA) (str "Flash Code") = none := by decide

/-! ### C09 -/

/-- The name contains "flash", ignoring case. -/
def IsFlash (k : Str) : Prop := str "flash" <:+: lower k

/-- **C09** (single map) flash types get total size 0, nothing else changes. -/
theorem C09_ignore_flash_size (m : MemMap) :
    { ignoreFlashSize m with memoryTypes := m.memoryTypes } = m ∧
    dkeys (ignoreFlashSize m).memoryTypes = dkeys m.memoryTypes ∧
    (∀ t, IsFlash t → getType (ignoreFlashSize m) t =
      (getType m t).map fun x => { x with size := 0 }) ∧
    (∀ t, ¬ IsFlash t → getType (ignoreFlashSize m) t = getType m t) := by
  refine ⟨rfl, by simp [ignoreFlashSize], ?_, ?_⟩
  · intro t ht
    have ht := contains_iff.mpr ht
    unfold getType ignoreFlashSize
    rw [dget_dmap]
    congr 1
    funext x
    rw [if_pos ht]
  · intro t ht
    rw [IsFlash, ← contains_iff] at ht
    unfold getType ignoreFlashSize
    rw [dget_dmap]
    cases dget m.memoryTypes t with
    | none => rfl
    | some x => simp [ht]

/-- Arguments of a plain comparison. -/
def exDiffArgs : Args := { diff := some (str "ref.map"), showUnused := true }

/-- **C09** (violated part) comparing a project with itself reports a nonzero total-size difference
for a flash memory type: `main.py:129-130` zeroes the current map twice and the reference never. -/
theorem C09_self_diff_nonzero :
    exMapA.WF ∧
    (prepare exDiffArgs exMapA exMapA).map
      (fun d => (getType d (str "Flash Code")).map MType.sizeDiff) = .ok (some (-1000)) := by decide

theorem wf_ignoreFlash {m : MemMap} (h : m.WF) : (ignoreFlashSize m).WF := by
  refine ⟨by simp only [ignoreFlashSize]; exact h.1.dmap _, ?_⟩
  intro p hp
  simp only [ignoreFlashSize, dmap, List.mem_map] at hp
  obtain ⟨q, hq, rfl⟩ := hp
  have := h.2 q hq
  simp only []
  split
  · exact this
  · exact this

theorem wf_removeUnused {m : MemMap} (h : m.WF) : (removeUnused m).WF := by
  refine ⟨by simp only [removeUnused]; exact ((h.1.dfilter _).dmap _).dmap _, ?_⟩
  intro p hp
  simp only [removeUnused, dmap, dfilter, List.mem_map, List.mem_filter] at hp
  obtain ⟨q, ⟨r, ⟨hr, _⟩, rfl⟩, rfl⟩ := hp
  have := h.2 r hr
  refine ⟨this.1.dfilter (fun _ s => !s.kids.isEmpty), ?_⟩
  intro s hs
  exact this.2 s (List.mem_filter.mp hs).1

theorem getSec_ignoreFlash (m : MemMap) (t s : Str) :
    getSec (ignoreFlashSize m) t s = getSec m t s := by
  have h := C09_ignore_flash_size m
  unfold getSec
  by_cases hf : IsFlash t
  · rw [h.2.2.1 t hf]; cases getType m t <;> rfl
  · rw [h.2.2.2 t hf]

theorem orZero_map {α β : Type} (f : β → Int) (g : α → β) (o : Option α) :
    orZero f (o.map g) = orZero (fun x => f (g x)) o := by cases o <;> rfl

theorem ignoreFlash_idem (m : MemMap) : ignoreFlashSize (ignoreFlashSize m) = ignoreFlashSize m := by
  unfold ignoreFlashSize
  simp only [dmap, List.map_map]
  congr 1
  apply List.map_congr_left
  intro p _
  simp only [Function.comp]
  split <;> rfl

/-- **C09** (what does hold of the command line) comparing a project with itself: usage and section
differences are zero, total-size differences are zero except those of flash types, which are minus
the total. -/
theorem C09_self_diff_partial (args : Args) (m : MemMap) (hm : m.WF) (hd : truthy args.diff = true)
    (hu : args.unify = false) (hf : args.useFlashSize = false) :
    ∃ d, prepare args m m = .ok d ∧
      (∀ t, ¬ IsFlash t → orZero MType.sizeDiff (getType d t) = 0) ∧
      (∀ t, IsFlash t → ∀ x, getType d t = some x → ∃ x0, getType m t = some x0 ∧
        x.sizeDiff = - x0.size) ∧
      (∀ t, orZero MType.usedDiff (getType d t) = 0) ∧
      (∀ t s, orZero Node.sizeDiff (getSec d t s) = 0) ∧
      (∀ t s a, orZero Node.sizeDiff (getArch d t s a) = 0) ∧
      (∀ t s a o, orZero Node.sizeDiff (getObj d t s a o) = 0) ∧
      (∀ t s a o y, orZero Sym.sizeDiff (getSym d t s a o y) = 0) := by
  have key : ∀ n : MemMap, n.WF → ∃ d, diff (ignoreFlashSize (ignoreFlashSize n)) n = .ok d ∧
      (∀ t, ¬ IsFlash t → orZero MType.sizeDiff (getType d t) = 0) ∧
      (∀ t, IsFlash t → ∀ x, getType d t = some x → ∃ x0, getType n t = some x0 ∧
        x.sizeDiff = - x0.size) ∧
      (∀ t, orZero MType.usedDiff (getType d t) = 0) ∧
      (∀ t s, orZero Node.sizeDiff (getSec d t s) = 0) ∧
      (∀ t s a, orZero Node.sizeDiff (getArch d t s a) = 0) ∧
      (∀ t s a o, orZero Node.sizeDiff (getObj d t s a o) = 0) ∧
      (∀ t s a o y, orZero Sym.sizeDiff (getSym d t s a o y) = 0) := by
    intro n hn
    rw [ignoreFlash_idem]
    have hfl := C09_ignore_flash_size n
    have hS := getSec_ignoreFlash n
    have hA : ∀ t s a, getArch (ignoreFlashSize n) t s a = getArch n t s a := by
      intro t s a; unfold getArch; rw [hS]
    have hO : ∀ t s a o, getObj (ignoreFlashSize n) t s a o = getObj n t s a o := by
      intro t s a o; unfold getObj; rw [hA]
    have hY : ∀ t s a o y, getSym (ignoreFlashSize n) t s a o y = getSym n t s a o y := by
      intro t s a o y; unfold getSym; rw [hO]
    refine ⟨_, diff_eq (wf_ignoreFlash hn) hn, ?_, ?_, ?_, ?_, ?_, ?_, ?_⟩
    · intro t ht
      rw [getType_outMap hn, hfl.2.2.2 t ht]
      cases getType n t <;> simp [comb, outMType, orZero]
    · intro t ht x hx
      rw [getType_outMap hn, hfl.2.2.1 t ht] at hx
      revert hx
      cases getType n t with
      | none => intro hx; simp [comb] at hx
      | some x0 =>
        intro hx
        simp only [comb, Option.map_some, outMType, orZero, Option.some.injEq] at hx
        refine ⟨x0, rfl, ?_⟩
        rw [← hx]; simp
    · intro t
      rw [getType_outMap hn]
      by_cases ht : IsFlash t
      · rw [hfl.2.2.1 t ht]; cases getType n t <;> simp [comb, outMType, orZero]
      · rw [hfl.2.2.2 t ht]; cases getType n t <;> simp [comb, outMType, orZero]
    · intro t s; rw [getSec_outMap hn, hS]
      cases getSec n t s <;> simp [comb, outSec, outNode, orZero]
    · intro t s a; rw [getArch_outMap hn, hA]
      cases getArch n t s a <;> simp [comb, outArch, outNode, orZero]
    · intro t s a o; rw [getObj_outMap hn, hO]
      cases getObj n t s a o <;> simp [comb, outObj, outNode, orZero]
    · intro t s a o y; rw [getSym_outMap hn, hY]
      cases getSym n t s a o y <;> simp [comb, outSym, orZero]
  unfold prepare
  simp only [hd, hf, hu, if_true, Bool.false_eq_true, if_false]
  cases hs : args.showUnused with
  | true =>
    obtain ⟨d, hd', rest⟩ := key m hm
    refine ⟨d, ?_, rest⟩
    simp [hd', bind, Except.bind]
  | false =>
    obtain ⟨d, hd', h1, h2, rest⟩ := key _ (wf_removeUnused hm)
    refine ⟨d, ?_, h1, ?_, rest⟩
    · simp [hd', bind, Except.bind]
    · intro t ht x hx
      obtain ⟨x0, hx0, he⟩ := h2 t ht x hx
      rw [getType_removeUnused hm] at hx0
      obtain ⟨y, hy, rfl⟩ := Option.map_eq_some_iff.mp hx0
      exact ⟨y, (Option.filter_eq_some_iff.mp hy).1, he⟩

/-! ### C10 -/

theorem truthy_iff (o : Option Str) : truthy o = true ↔ o ≠ none ∧ o ≠ some [] := by
  cases o with
  | none => simp [truthy]
  | some l => cases l <;> simp [truthy]

theorem changed_iff (args : Args) (d : Int) : changed args d = true ↔ Shown args d := by
  unfold changed Shown
  have h := truthy_iff args.diff
  by_cases ht : truthy args.diff = true
  · have := h.mp ht
    by_cases hs : args.showUnchanged = true <;> simp [ht, hs, this.1, this.2]
  · have h2 : args.diff = none ∨ args.diff = some [] := by
      by_cases h1 : args.diff = none
      · exact Or.inl h1
      · refine Or.inr ?_
        by_cases h3 : args.diff = some []
        · exact h3
        · exact absurd (h.mpr ⟨h1, h3⟩) ht
    have hf : truthy args.diff = false := by simpa using ht
    simp only [hf, Bool.not_false, Bool.true_or, if_true, true_iff]
    rcases h2 with h2 | h2 <;> simp [h2]

theorem details_iff (args : Args) : Details args ↔ truthy args.archiveDetails = true :=
  (truthy_iff _).symm

/-- A kept entry has the name and numbers it had, and its children are some of its children, in the
same order. -/
structure SameNode {α : Type} (o o' : Option (Node α)) : Prop where
  same : ∀ x', o' = some x' → ∃ x, o = some x ∧
    x'.abb = x.abb ∧ x'.size = x.size ∧ x'.sizeDiff = x.sizeDiff ∧ (dkeys x'.kids).Sublist (dkeys x.kids)

theorem getType_trim {m : MemMap} (hm : m.WF) (args : Args) (t : Str) :
    getType (trim m args) t =
      ((getType m t).filter fun x => changed args x.usedDiff).map (trimMType args) := by
  unfold getType trim
  rw [dget_dmap, dget_dfilter hm.1]

theorem getSec_trim {m : MemMap} (hm : m.WF) (args : Args) (t s : Str) :
    getSec (trim m args) t s = ((getType m t).filter fun x => changed args x.usedDiff).bind fun x =>
      ((dget x.sections s).filter fun x => changed args x.sizeDiff).map (trimSec args) := by
  unfold getSec
  rw [getType_trim hm]
  cases hx : getType m t with
  | none => rfl
  | some x =>
    have hw : KeysNodup x.sections := (hm.2 _ (mem_of_dget hx)).1
    by_cases h : changed args x.usedDiff = true
    · simp [Option.filter, h, trimMType, dget_dmap, dget_dfilter hw]
    · simp [Option.filter, h]

/-- The archive filter of `trim`. -/
def archKept (args : Args) (x : Arch) : Bool :=
  (if truthy args.archiveDetails then decide (some x.abb = args.archiveDetails) else true) &&
    changed args x.sizeDiff

theorem trimDepth_details (args : Args) : trimDepth args = .archiveDetails ↔ truthy args.archiveDetails = true := by
  unfold trimDepth
  by_cases h : truthy args.archiveDetails = true <;> simp [h]
  split
  · simp
  · split <;> simp
theorem trimDepth_archives (args : Args) :
    trimDepth args = .archives ↔ truthy args.archiveDetails = false ∧ args.archives = true := by
  unfold trimDepth
  by_cases h : truthy args.archiveDetails = true <;> simp [h]
  by_cases h2 : args.archives = true <;> simp [h2]
  split <;> simp
theorem trimDepth_objects (args : Args) :
    trimDepth args = .objects ↔
      truthy args.archiveDetails = false ∧ args.archives = false ∧ args.files = true := by
  unfold trimDepth
  by_cases h : truthy args.archiveDetails = true <;> simp [h]
  by_cases h2 : args.archives = true <;> simp [h2]

theorem trimSec_kids (args : Args) (s : Sec) :
    (trimSec args s).kids = dmap (fun _ => trimArch args) (dfilter (fun _ v => archKept args v) s.kids) := by
  unfold trimSec archKept
  simp only [trimDepth_details]
  by_cases h : truthy args.archiveDetails = true <;> simp [h]

theorem dget_trimSec (args : Args) (s : Sec) (hs : KeysNodup s.kids) (a : Str) :
    dget (trimSec args s).kids a = ((dget s.kids a).filter (archKept args)).map (trimArch args) := by
  rw [trimSec_kids, dget_dmap, dget_dfilter hs]

theorem dget_trimArch (args : Args) (s : Arch) (hs : KeysNodup s.kids) (o : Str) :
    dget (trimArch args s).kids o = ((dget s.kids o).filter fun x =>
      (truthy args.archiveDetails || !args.archives) && changed args x.sizeDiff).map (trimObj args) := by
  unfold trimArch
  have hd := trimDepth_archives args
  by_cases h : trimDepth args = .archives
  · have h' := hd.mp h
    simp only [h, if_true, h'.1, h'.2]
    cases dget s.kids o <;> simp [dget, Option.filter]
  · have h' : (truthy args.archiveDetails || !args.archives) = true := by
      rw [hd] at h
      cases h1 : truthy args.archiveDetails <;> cases h2 : args.archives <;> simp_all
    simp only [h, if_false, h', Bool.true_and]
    rw [dget_dmap, dget_dfilter hs]

theorem dget_trimObj (args : Args) (s : Obj) (hs : KeysNodup s.kids) (y : Str) :
    dget (trimObj args s).kids y = ((dget s.kids y).filter fun x =>
      (truthy args.archiveDetails || args.archives || !args.files) && changed args x.sizeDiff) := by
  unfold trimObj
  have hd := trimDepth_objects args
  by_cases h : trimDepth args = .objects
  · have h' := hd.mp h
    simp only [h, if_true, h'.1, h'.2]
    cases dget s.kids y <;> simp [dget, Option.filter]
  · have h' : (truthy args.archiveDetails || args.archives || !args.files) = true := by
      rw [hd] at h
      cases h1 : truthy args.archiveDetails <;> cases h2 : args.archives <;> cases h3 : args.files <;>
        simp_all
    simp only [h, if_false, h', Bool.true_and]
    rw [dget_dfilter hs]

theorem getSec_trim_iff {m : MemMap} (hm : m.WF) (args : Args) (t s : Str) (x' : Sec) :
    getSec (trim m args) t s = some x' ↔
      KeptS args m t s ∧ ∃ x, getSec m t s = some x ∧ x' = trimSec args x := by
  rw [getSec_trim hm]
  unfold KeptS KeptT getSec
  cases hx : getType m t with
  | none => simp
  | some x =>
    simp only [Option.filter, ← changed_iff]
    by_cases h : changed args x.usedDiff = true
    · simp only [h, if_true, Option.bind_some, Option.map_eq_some_iff]
      cases hs : dget x.sections s with
      | none => simp
      | some y =>
        by_cases h2 : changed args y.sizeDiff = true <;> simp [h, h2, @eq_comm _ x']
    · simp [h]

theorem getArch_trim_iff {m : MemMap} (hm : m.WF) (args : Args) (t s a : Str) (x' : Arch) :
    getArch (trim m args) t s a = some x' ↔
      KeptA args m t s a ∧ ∃ x, getArch m t s a = some x ∧ x' = trimArch args x := by
  unfold getArch KeptA
  rw [Option.bind_eq_some_iff]
  constructor
  · rintro ⟨y, hy, hx⟩
    obtain ⟨hk, z, hz, rfl⟩ := (getSec_trim_iff hm args t s y).mp hy
    rw [dget_trimSec _ _ (hm.getSec hz).1] at hx
    obtain ⟨w, hw, rfl⟩ := Option.map_eq_some_iff.mp hx
    obtain ⟨hw, hf⟩ := Option.filter_eq_some_iff.mp hw
    have hg : getArch m t s a = some w := by unfold getArch; rw [hz]; exact hw
    simp only [archKept, Bool.and_eq_true, changed_iff] at hf
    refine ⟨⟨hk, w, hg, hf.2, ?_⟩, w, hg, rfl⟩
    intro hd
    rw [details_iff] at hd
    simpa [hd, eq_comm] using hf.1
  · rintro ⟨⟨hk, w, hw, hsh, hd⟩, w', hw', rfl⟩
    obtain rfl : w = w' := by
      have := hw.symm.trans hw'; simpa using this
    obtain ⟨z, hz, hwz⟩ := Option.bind_eq_some_iff.mp hw
    refine ⟨_, (getSec_trim_iff hm args t s _).mpr ⟨hk, z, hz, rfl⟩, ?_⟩
    rw [dget_trimSec _ _ (hm.getSec hz).1, hwz]
    have : archKept args w = true := by
      simp only [archKept, Bool.and_eq_true, changed_iff]
      refine ⟨?_, hsh⟩
      by_cases h : truthy args.archiveDetails = true
      · simp only [h, if_true, decide_eq_true_eq]
        exact (hd ((details_iff args).mpr h)).symm
      · simp [h]
    simp [Option.filter, this]

theorem getObj_trim_iff {m : MemMap} (hm : m.WF) (args : Args) (t s a o : Str) (x' : Obj) :
    getObj (trim m args) t s a o = some x' ↔
      KeptO args m t s a o ∧ ∃ x, getObj m t s a o = some x ∧ x' = trimObj args x := by
  unfold getObj KeptO
  rw [Option.bind_eq_some_iff]
  constructor
  · rintro ⟨y, hy, hx⟩
    obtain ⟨hk, z, hz, rfl⟩ := (getArch_trim_iff hm args t s a y).mp hy
    rw [dget_trimArch _ _ (hm.getArch hz).1] at hx
    obtain ⟨w, hw, rfl⟩ := Option.map_eq_some_iff.mp hx
    obtain ⟨hw, hf⟩ := Option.filter_eq_some_iff.mp hw
    have hg : getObj m t s a o = some w := by unfold getObj; rw [hz]; exact hw
    simp only [Bool.and_eq_true, Bool.or_eq_true, Bool.not_eq_true', changed_iff] at hf
    exact ⟨⟨hk, by rw [details_iff]; exact hf.1, w, hg, hf.2⟩, w, hg, rfl⟩
  · rintro ⟨⟨hk, hd, w, hw, hsh⟩, w', hw', rfl⟩
    obtain rfl : w = w' := by
      have := hw.symm.trans hw'; simpa using this
    obtain ⟨z, hz, hwz⟩ := Option.bind_eq_some_iff.mp hw
    refine ⟨_, (getArch_trim_iff hm args t s a _).mpr ⟨hk, z, hz, rfl⟩, ?_⟩
    rw [dget_trimArch _ _ (hm.getArch hz).1, hwz]
    rw [details_iff] at hd
    have : ((truthy args.archiveDetails || !args.archives) && changed args w.sizeDiff) = true := by
      simp only [Bool.and_eq_true, Bool.or_eq_true, Bool.not_eq_true', changed_iff]
      exact ⟨hd, hsh⟩
    simp [Option.filter, this]

theorem getSym_trim_iff {m : MemMap} (hm : m.WF) (args : Args) (t s a o y : Str) (x : Sym) :
    getSym (trim m args) t s a o y = some x ↔
      KeptY args m t s a o y ∧ getSym m t s a o y = some x := by
  unfold getSym KeptY
  rw [Option.bind_eq_some_iff]
  constructor
  · rintro ⟨z', hz', hx⟩
    obtain ⟨hk, z, hz, rfl⟩ := (getObj_trim_iff hm args t s a o z').mp hz'
    rw [dget_trimObj _ _ (hm.getObj hz).1] at hx
    obtain ⟨hw, hf⟩ := Option.filter_eq_some_iff.mp hx
    have hg : getSym m t s a o y = some x := by unfold getSym; rw [hz]; exact hw
    simp only [Bool.and_eq_true, Bool.or_eq_true, Bool.not_eq_true', changed_iff] at hf
    refine ⟨⟨hk, ?_, x, hg, hf.2⟩, hg⟩
    rw [details_iff]
    have h2 := hk.2.1
    rw [details_iff] at h2
    rcases hf.1 with (h | h) | h
    · exact Or.inl h
    · rcases h2 with h2 | h2
      · exact Or.inl h2
      · rw [h] at h2; cases h2
    · exact Or.inr h
  · rintro ⟨⟨hk, hd, w, hw, hsh⟩, hw'⟩
    obtain rfl : w = x := by
      have := hw.symm.trans hw'; simpa using this
    obtain ⟨z, hz, hwz⟩ := Option.bind_eq_some_iff.mp hw
    refine ⟨_, (getObj_trim_iff hm args t s a o _).mpr ⟨hk, z, hz, rfl⟩, ?_⟩
    rw [dget_trimObj _ _ (hm.getObj hz).1, hwz]
    rw [details_iff] at hd
    have : ((truthy args.archiveDetails || args.archives || !args.files) && changed args w.sizeDiff) = true := by
      simp only [Bool.and_eq_true, Bool.or_eq_true, Bool.not_eq_true', changed_iff]
      refine ⟨?_, hsh⟩
      rcases hd with hd | hd
      · exact Or.inl (Or.inl hd)
      · exact Or.inr hd
    simp [Option.filter, this]

theorem isSome_iff_of {α β : Type} {o : Option α} {P : Prop} {o2 : Option β} {f : β → α}
    (h : ∀ x, o = some x ↔ P ∧ ∃ y, o2 = some y ∧ x = f y) (hP : P → ∃ y, o2 = some y) :
    o.isSome = true ↔ P := by
  rw [Option.isSome_iff_exists]
  constructor
  · rintro ⟨x, hx⟩; exact ((h x).mp hx).1
  · intro hp
    obtain ⟨y, hy⟩ := hP hp
    exact ⟨_, (h (f y)).mpr ⟨hp, y, hy, rfl⟩⟩

theorem sub_dmap_dfilter {α β : Type} (f : Str → α → β) (p : Str → α → Bool) (d : Dict Str α) :
    (dkeys (dmap f (dfilter p d))).Sublist (dkeys d) := by
  rw [dkeys_dmap]
  exact List.Sublist.map _ List.filter_sublist

/-- **C10** (all but the expectation) exactly the entries whose own difference and whose ancestors'
differences are shown are kept, unchanged and in order. -/
theorem C10_trim_partial (m : MemMap) (hm : m.WF) (args : Args) :
    (∀ t, (getType (trim m args) t).isSome = true ↔ KeptT args m t) ∧
    (∀ t s, (getSec (trim m args) t s).isSome = true ↔ KeptS args m t s) ∧
    (∀ t s a, (getArch (trim m args) t s a).isSome = true ↔ KeptA args m t s a) ∧
    (∀ t s a o, (getObj (trim m args) t s a o).isSome = true ↔ KeptO args m t s a o) ∧
    (∀ t s a o y, (getSym (trim m args) t s a o y).isSome = true ↔ KeptY args m t s a o y) ∧
    -- values
    (∀ t x', getType (trim m args) t = some x' → ∃ x, getType m t = some x ∧
      x' = { x with sections := x'.sections } ∧ (dkeys x'.sections).Sublist (dkeys x.sections)) ∧
    (∀ t s, SameNode (getSec m t s) (getSec (trim m args) t s)) ∧
    (∀ t s a, SameNode (getArch m t s a) (getArch (trim m args) t s a)) ∧
    (∀ t s a o, SameNode (getObj m t s a o) (getObj (trim m args) t s a o)) ∧
    (∀ t s a o y x, getSym (trim m args) t s a o y = some x → getSym m t s a o y = some x) ∧
    (dkeys (trim m args).memoryTypes).Sublist (dkeys m.memoryTypes) := by
  refine ⟨?_, ?_, ?_, ?_, ?_, ?_, ?_, ?_, ?_, ?_, ?_⟩
  · intro t
    rw [getType_trim hm]
    unfold KeptT
    cases getType m t with
    | none => simp
    | some x =>
      by_cases h : changed args x.usedDiff = true
      · simp [Option.filter, h, ← changed_iff]
      · simp [Option.filter, h, ← changed_iff]
  · intro t s
    exact isSome_iff_of (getSec_trim_iff hm args t s) fun h => ⟨_, h.2.choose_spec.1⟩
  · intro t s a
    exact isSome_iff_of (getArch_trim_iff hm args t s a) fun h => ⟨_, h.2.choose_spec.1⟩
  · intro t s a o
    exact isSome_iff_of (getObj_trim_iff hm args t s a o) fun h => ⟨_, h.2.2.choose_spec.1⟩
  · intro t s a o y
    rw [Option.isSome_iff_exists]
    constructor
    · rintro ⟨x, hx⟩; exact ((getSym_trim_iff hm args t s a o y x).mp hx).1
    · intro h
      obtain ⟨x, hx, _⟩ := h.2.2
      exact ⟨x, (getSym_trim_iff hm args t s a o y x).mpr ⟨h, hx⟩⟩
  · intro t x' hx
    rw [getType_trim hm] at hx
    obtain ⟨x, hx0, rfl⟩ := Option.map_eq_some_iff.mp hx
    exact ⟨x, (Option.filter_eq_some_iff.mp hx0).1, rfl, by
      simp only [trimMType]; exact sub_dmap_dfilter _ _ _⟩
  · intro t s
    constructor
    intro x' hx
    obtain ⟨_, x, hx0, rfl⟩ := (getSec_trim_iff hm args t s x').mp hx
    refine ⟨x, hx0, rfl, rfl, rfl, ?_⟩
    rw [trimSec_kids]; exact sub_dmap_dfilter _ _ _
  · intro t s a
    constructor
    intro x' hx
    obtain ⟨_, x, hx0, rfl⟩ := (getArch_trim_iff hm args t s a x').mp hx
    refine ⟨x, hx0, ?_⟩
    unfold trimArch
    split
    · exact ⟨rfl, rfl, rfl, by simp [dkeys]⟩
    · exact ⟨rfl, rfl, rfl, by simp only []; exact sub_dmap_dfilter _ _ _⟩
  · intro t s a o
    constructor
    intro x' hx
    obtain ⟨_, x, hx0, rfl⟩ := (getObj_trim_iff hm args t s a o x').mp hx
    refine ⟨x, hx0, ?_⟩
    unfold trimObj
    split
    · exact ⟨rfl, rfl, rfl, by simp [dkeys]⟩
    · exact ⟨rfl, rfl, rfl, List.Sublist.map _ List.filter_sublist⟩
  · intro t s a o y x hx
    exact ((getSym_trim_iff hm args t s a o y x).mp hx).2
  · simp only [trim]; exact sub_dmap_dfilter _ _ _

/-- A comparison in which two changes cancel out in the total of a memory type. -/
def exCancel : MemMap :=
  { exMapA with memoryTypes := [
      (str "DRAM", { size := 64, sizeDiff := 0, used := 20, usedDiff := 0, sections := [
        (str ".a", { abb := str ".a", size := 15, sizeDiff := 5, kids := [] }),
        (str ".b", { abb := str ".b", size := 5, sizeDiff := -5, kids := [] })] })] }

/-- **C10** (violated expectation) sections that did change are hidden when the changes cancel out in
the memory type total. -/
theorem C10_hidden_changes :
    exCancel.WF ∧ (getSec exCancel (str "DRAM") (str ".a")).map Node.sizeDiff = some 5 ∧
    getSec (trim exCancel { diff := some (str "ref.map") }) (str "DRAM") (str ".a") = none := by decide

example : (diff exMapA exMapB).map (fun d =>
    dkeys (trim d { diff := some (str "r"), archives := true }).memoryTypes) =
    .ok [str "DRAM", str "IRAM"] := by decide

end EspSize
