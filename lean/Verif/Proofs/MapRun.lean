import Verif.Proofs.ProjectCells
import Verif.Spec.MapRun
/-! # The memory types, sections and archives of the map that is shown -/
namespace EspSize

theorem sumBy_at {α : Type} {d : Dict Str α} (hd : KeysNodup d) (f : α → Int) (k : Str) :
    sumBy (fun p => if decide (p.1 = k) = true then f p.2 else 0) d = orZero f (dget d k) := by
  induction d with
  | nil => rfl
  | cons p t ih =>
    have h := KeysNodup.cons_iff.mp hd
    rw [sumBy_cons, ih h.2]
    by_cases hk : p.1 = k
    · have hn : dget t k = none := dget_eq_none.mpr (hk ▸ h.1)
      rw [hn, show dget (p :: t) k = some p.2 by rw [dget, if_pos hk]]
      simp [hk, orZero]
    · rw [show dget (p :: t) k = dget t k by rw [dget, if_neg hk]]
      simp [hk]

theorem sends_iff {b : Build} {t : Str} {w : Str → Bool} {p : MSec} :
    b.sends t w p = true ↔ ∃ s, b.goes p = some (t, s) ∧ w s = true := by
  unfold Build.sends
  cases h : b.goes p with
  | none => simp
  | some x =>
    obtain ⟨x1, x2⟩ := x
    simp only [Option.any_some, Bool.and_eq_true, decide_eq_true_eq, Option.some.injEq, Prod.mk.injEq]
    constructor
    · rintro ⟨rfl, h⟩; exact ⟨x2, ⟨rfl, rfl⟩, h⟩
    · rintro ⟨s, ⟨rfl, rfl⟩, h⟩; exact ⟨rfl, h⟩

/-- The sections of a memory type that are shown. -/
def keptSecs (unused : Bool) (d : Dict Str Sec) : Dict Str Sec := d.filter fun p => unused || !p.2.kids.isEmpty

theorem holds_sum_kept {b : Build} {t : Str} {mt : MType} (h : Holds b.goes b.parts t mt) (unused : Bool) (w : Str → Bool) :
    sumBy (fun s => if w s.1 then s.2.size else 0) (keptSecs unused mt.sections) =
      sumBy (fun p => p.size) ((b.sections unused).filter (b.sends t w)) := by
  unfold keptSecs Build.sections
  rw [sumBy_filter, List.filter_filter, sumBy_filter,
    holds_keyed h fun k s => if (unused || !s.kids.isEmpty) = true then if w k then s.size else 0 else 0]
  apply sumBy_congr
  intro p _
  unfold Build.sends
  cases hx : b.goes p with
  | none => simp
  | some x =>
    simp only [secEntry, Option.any_some]
    by_cases h1 : x.1 = t <;> by_cases h2 : w x.2 = true <;> by_cases h3 : (unused || !p.archives.isEmpty) = true <;>
      simp [h1, h2, h3]

theorem shown_unique {goes : MSec → Option (Str × Str)} {ps : List MSec} {p q : MSec} (hp : p ∈ shownParts goes ps)
    (hq : q ∈ shownParts goes ps) (h : goes p = goes q) : p = q := by
  have := shown_pairwise (goes := goes) ps
  generalize shownParts goes ps = l at hp hq this
  induction l with
  | nil => cases hp
  | cons x l ih =>
    obtain ⟨h1, h2⟩ := List.pairwise_cons.mp this
    rcases List.mem_cons.mp hp with rfl | hp'
    · rcases List.mem_cons.mp hq with rfl | hq'
      · rfl
      · exact absurd h (h1 q hq')
    · rcases List.mem_cons.mp hq with rfl | hq'
      · exact absurd h.symm (h1 p hp')
      · exact ih hp' hq' h2

theorem holds_entry {b : Build} {t : Str} {mt : MType} (h : Holds b.goes b.parts t mt) (unused : Bool) (s : Str) (sec : Sec) :
    dget (keptSecs unused mt.sections) s = some sec ↔ ∃ p ∈ b.sections unused, b.goes p = some (t, s) ∧ sec = secEntry s p := by
  have hlast : ∀ sec, dget mt.sections s = some sec → ∃ p ∈ shownParts b.goes b.parts, b.goes p = some (t, s) ∧ sec = secEntry s p := by
    intro sec hsec
    obtain ⟨pre, p, post, h1, h2, h3, h4⟩ := h.last s sec hsec
    exact ⟨p, by rw [h1]; exact last_shown (by rw [h2]; simp) fun q hq => by rw [h2]; exact h4 q hq, h2, h3⟩
  have hn : KeysNodup (keptSecs unused mt.sections) := KeysNodup.dfilter h.nodup fun _ s => unused || !s.kids.isEmpty
  constructor
  · intro hs
    obtain ⟨hp, hk⟩ := List.mem_filter.mp (mem_of_dget hs)
    obtain ⟨q, hq, hg, he⟩ := hlast sec (dget_of_mem h.nodup hp)
    refine ⟨q, List.mem_filter.mpr ⟨hq, ?_⟩, hg, he⟩
    rw [he] at hk
    exact hk
  · rintro ⟨p, hp, hg, rfl⟩
    obtain ⟨hp, hk⟩ := List.mem_filter.mp hp
    obtain ⟨sec, hsec⟩ := Option.isSome_iff_exists.mp ((h.keys s).mpr ⟨p, (mem_shown hp).1, hg⟩)
    obtain ⟨q, hq, hg', he⟩ := hlast sec hsec
    have : q = p := shown_unique hq hp (hg'.trans hg.symm)
    subst this
    refine dget_of_mem hn (List.mem_filter.mpr ⟨?_, hk⟩)
    exact mem_of_dget (he ▸ hsec)

/-- The map of one build, after `remove_unused` unless unused types are shown. -/
structure Side (unused : Bool) (b : Build) (m : MemMap) : Prop where
  types : ∀ t, (getType m t).isSome = true ↔ b.Lists unused t
  used : ∀ t x, getType m t = some x → x.used = b.used unused t ∧ x.usedDiff = 0
  size : ∀ t x, getType m t = some x → x.size = b.capacity t ∧ x.sizeDiff = 0
  free : ∀ t, getType m t = none → b.used unused t = 0
  sums : ∀ t (w : Str → Bool), sumBy (fun s => if w s.1 then s.2.size else 0) (sectionsOf (getType m t)) =
    sumBy (fun p => p.size) ((b.sections unused).filter (b.sends t w))
  entry : ∀ t s sec, getSec m t s = some sec ↔ ∃ p ∈ b.sections unused, b.goes p = some (t, s) ∧ sec = secEntry s p

theorem getSec_eq (m : MemMap) (t s : Str) : getSec m t s = dget (sectionsOf (getType m t)) s := by
  unfold getSec
  cases getType m t <;> rfl

section
variable {unused : Bool} {b : Build} {m : MemMap}

theorem Side.keys (h : Side unused b m) (t s : Str) :
    s ∈ dkeys (sectionsOf (getType m t)) ↔ ∃ p ∈ b.sections unused, b.goes p = some (t, s) := by
  rw [← dget_isSome, ← getSec_eq, Option.isSome_iff_exists]
  constructor
  · rintro ⟨x, hx⟩
    obtain ⟨p, hp, hg, _⟩ := (h.entry t s x).mp hx
    exact ⟨p, hp, hg⟩
  · rintro ⟨p, hp, hg⟩
    exact ⟨_, (h.entry t s _).mpr ⟨p, hp, hg, rfl⟩⟩

theorem Side.same (h : Side unused b m) (hm : m.WF) (t : Str) : ∀ s ∈ sectionsOf (getType m t), s.2.sizeDiff = 0 := by
  intro s hs
  have hk : KeysNodup (sectionsOf (getType m t)) := by
    cases hx : getType m t with
    | none => exact KeysNodup.nil
    | some x => exact (hm.getType hx).1
  obtain ⟨p, _, _, he⟩ := (h.entry t s.1 s.2).mp (by rw [getSec_eq]; exact dget_of_mem hk hs)
  rw [he]
  rfl

theorem Side.archs (h : Side unused b m) (t s a : Str) :
    (getArch m t s a).isSome = true ↔ ∃ p ∈ b.sections unused, b.goes p = some (t, s) ∧ a ∈ dkeys p.archives := by
  unfold getArch
  cases hx : getSec m t s with
  | none =>
    constructor
    · intro h; cases h
    · rintro ⟨p, hp, hg, _⟩
      rw [(h.entry t s _).mpr ⟨p, hp, hg, rfl⟩] at hx
      cases hx
  | some x =>
    obtain ⟨p, hp, hg, rfl⟩ := (h.entry t s x).mp hx
    rw [Option.bind_some, dget_isSome]
    constructor
    · exact fun ha => ⟨p, hp, hg, ha⟩
    · rintro ⟨q, hq, hg', ha⟩
      have : q = p := shown_unique (List.mem_filter.mp hq).1 (List.mem_filter.mp hp).1 (hg'.trans hg.symm)
      subst this
      exact ha

end

theorem filter_none {b : Build} {t : Str} (h : ∀ p ∈ b.parts, b.sends t (fun _ => true) p ≠ true) (unused : Bool) (w : Str → Bool) :
    (b.sections unused).filter (b.sends t w) = [] := by
  rw [List.filter_eq_nil_iff]
  intro p hp hw
  obtain ⟨s, hs, _⟩ := sends_iff.mp hw
  exact h p (mem_shown (List.mem_filter.mp hp).1).1 (sends_iff.mpr ⟨s, hs, rfl⟩)

theorem side_of {b : Build} {m : MemMap} (hwf : m.WF) (hempty : UnusedEmpty m) (hb : TypesOf b.types b.regions b.goes b.parts m)
    (unused : Bool) : Side unused b (if unused then m else removeUnused m) := by
  -- nothing goes to memory types that the target does not have
  have hno : ∀ t, getType m t = none → ∀ p ∈ b.parts, b.sends t (fun _ => true) p ≠ true := by
    intro t ht p hp hs
    obtain ⟨s, hs, _⟩ := sends_iff.mp hs
    have := (hb.alias t).mpr (hb.into p t s hs)
    rw [ht] at this; cases this
  have husedp : ∀ t x, getType m t = some x → x.used = sumBy (fun p => p.size) (b.parts.filter (b.sends t fun _ => true)) := by
    intro t x hx
    rw [(hb.holds t x hx).used]
    congr 1
    apply List.filter_congr
    intro p _
    unfold Build.sends
    simp
  have hlist : ∀ t x, getType m t = some x → (x.used ≠ 0 ↔ ∃ p ∈ b.parts, b.sends t (fun _ => true) p = true) := by
    intro t x hx
    constructor
    · intro hu
      apply Classical.byContradiction
      intro hn
      apply hu
      rw [husedp t x hx, List.filter_eq_nil_iff.mpr]
      · rfl
      · exact fun p hp hs => hn ⟨p, hp, hs⟩
    · rintro ⟨p, hp, hs⟩ hu
      obtain ⟨s, hs, _⟩ := sends_iff.mp hs
      have := ((hb.holds t x hx).keys s).mpr ⟨p, hp, hs⟩
      rw [hempty (t, x) (mem_of_dget hx) hu] at this
      cases this
  cases unused with
  | true =>
    simp only [if_true]
    have hk : ∀ t x, getType m t = some x → keptSecs true x.sections = x.sections := by
      intro t x _
      unfold keptSecs
      simp
    refine ⟨?_, ?_, ?_, ?_, ?_, ?_⟩
    · intro t
      rw [hb.alias]
      unfold Build.Lists
      simp
    · exact fun t x hx => ⟨husedp t x hx, (hb.same t x hx).2⟩
    · exact fun t x hx => ⟨hb.size t x hx, (hb.same t x hx).1⟩
    · intro t ht
      unfold Build.used
      rw [if_pos rfl, List.filter_eq_nil_iff.mpr (hno t ht)]
      rfl
    · intro t w
      cases hx : getType m t with
      | none => rw [filter_none (hno t hx)]; rfl
      | some x => rw [← holds_sum_kept (hb.holds t x hx) true w, hk t x hx]; rfl
    · intro t s sec
      rw [getSec_eq]
      cases hx : getType m t with
      | none =>
        constructor
        · intro h; cases h
        · rintro ⟨p, hp, hg, _⟩
          exact absurd (sends_iff.mpr ⟨s, hg, rfl⟩) (hno t hx p (mem_shown (List.mem_filter.mp hp).1).1)
      | some x => rw [← holds_entry (hb.holds t x hx) true s sec, hk t x hx]; rfl
  | false =>
    simp only [Bool.false_eq_true, if_false]
    have hget : ∀ t, getType (removeUnused m) t = ((getType m t).filter fun x => x.used ≠ 0).map fun x =>
        { x with sections := keptSecs false x.sections, used := sumBy (fun s => s.2.size) (keptSecs false x.sections) } := by
      intro t
      rw [getType_removeUnused hwf]
      rfl
    have hin : ∀ t x', getType (removeUnused m) t = some x' → ∃ x, getType m t = some x ∧ x.used ≠ 0 ∧
        x' = { x with sections := keptSecs false x.sections, used := sumBy (fun s => s.2.size) (keptSecs false x.sections) } := by
      intro t x' h
      rw [hget] at h
      obtain ⟨x, hx, rfl⟩ := Option.map_eq_some_iff.mp h
      obtain ⟨hx, hu⟩ := Option.filter_eq_some_iff.mp hx
      exact ⟨x, hx, by simpa using hu, rfl⟩
    have hout : ∀ t, getType (removeUnused m) t = none → ∀ p ∈ b.parts, b.sends t (fun _ => true) p ≠ true := by
      intro t ht
      cases hx : getType m t with
      | none => exact hno t hx
      | some x =>
        intro p hp hs
        have hu := (hlist t x hx).mpr ⟨p, hp, hs⟩
        rw [hget, hx] at ht
        simp [Option.filter, hu] at ht
    refine ⟨?_, ?_, ?_, ?_, ?_, ?_⟩
    · intro t
      unfold Build.Lists
      rw [← hb.alias]
      constructor
      · intro h
        obtain ⟨x', hx'⟩ := Option.isSome_iff_exists.mp h
        obtain ⟨x, hx, hu, _⟩ := hin t x' hx'
        exact ⟨by rw [hx]; rfl, .inr ((hlist t x hx).mp hu)⟩
      · rintro ⟨h1, h2⟩
        obtain ⟨x, hx⟩ := Option.isSome_iff_exists.mp h1
        rcases h2 with h2 | h2
        · cases h2
        · have hu := (hlist t x hx).mpr h2
          rw [hget, hx]
          simp [Option.filter, hu]
    · intro t x' hx'
      obtain ⟨x, hx, _, rfl⟩ := hin t x' hx'
      refine ⟨?_, (hb.same t x hx).2⟩
      have := holds_sum_kept (hb.holds t x hx) false fun _ => true
      simp only [if_true] at this
      exact this
    · intro t x' hx'
      obtain ⟨x, hx, _, rfl⟩ := hin t x' hx'
      exact ⟨hb.size t x hx, (hb.same t x hx).1⟩
    · intro t ht
      unfold Build.used
      rw [if_neg (by simp), filter_none (hout t ht)]
      rfl
    · intro t w
      cases hx : getType (removeUnused m) t with
      | none => rw [filter_none (hout t hx)]; rfl
      | some x' =>
        obtain ⟨x, hx0, _, rfl⟩ := hin t x' hx
        exact holds_sum_kept (hb.holds t x hx0) false w
    · intro t s sec
      rw [getSec_eq]
      cases hx : getType (removeUnused m) t with
      | none =>
        constructor
        · intro h; cases h
        · rintro ⟨p, hp, hg, _⟩
          exact absurd (sends_iff.mpr ⟨s, hg, rfl⟩) (hout t hx p (mem_shown (List.mem_filter.mp hp).1).1)
      | some x' =>
        obtain ⟨x, hx0, _, rfl⟩ := hin t x' hx
        exact holds_entry (hb.holds t x hx0) false s sec

/-! ### `--use-flash-size`, `--diff` -/

theorem getType_ignored (args : Args) (m : MemMap) (t : Str) :
    getType (if args.useFlashSize then m else ignoreFlashSize m) t =
      (getType m t).map fun x => { x with size := if (!args.useFlashSize && contains (str "flash") (lower t)) = true then 0 else x.size } := by
  cases hu : args.useFlashSize with
  | true =>
    simp only [if_true, Bool.not_true, Bool.false_and, Bool.false_eq_true, if_false]
    cases getType m t <;> rfl
  | false =>
    simp only [Bool.false_eq_true, if_false, Bool.not_false, Bool.true_and]
    have h := C09_ignore_flash_size m
    by_cases hf : IsFlash t
    · rw [h.2.2.1 t hf]
      simp only [if_pos (contains_iff.mpr hf)]
    · rw [h.2.2.2 t hf]
      simp only [if_neg fun x => hf (contains_iff.mp x)]
      cases getType m t <;> rfl

theorem sectionsOf_ignored (args : Args) (m : MemMap) (t : Str) :
    sectionsOf (getType (if args.useFlashSize then m else ignoreFlashSize m) t) = sectionsOf (getType m t) := by
  rw [getType_ignored]
  cases getType m t <;> rfl

theorem sizeShown_listed {b : Build} {unused ignore : Bool} {t : Str} (h : b.Lists unused t) :
    SizeShown b unused ignore t (if (ignore && contains (str "flash") (lower t)) = true then 0 else b.capacity t) := by
  have e : (ignore && contains (str "flash") (lower t)) = true ↔ ignore = true ∧ NamesFlash t := by
    rw [Bool.and_eq_true, contains_iff]; rfl
  constructor
  · intro _ hn
    rw [if_neg fun x => hn (e.mp x)]
  · rintro (hn | hn)
    · exact absurd h hn
    · rw [if_pos (e.mpr hn)]

theorem sizeShown_other {b : Build} {unused ignore : Bool} {t : Str} (h : ¬ b.Lists unused t) : SizeShown b unused ignore t 0 :=
  ⟨fun h' => absurd h' h, fun _ => rfl⟩

/-- The map before `unify`. -/
structure MidMap (args : Args) (cur : Build) (ref : Option Build) (d : MemMap) : Prop where
  types : ∀ t, (getType d t).isSome = true ↔ cur.Lists args.showUnused t ∨ ∃ r, ref = some r ∧ r.Lists args.showUnused t
  used : ∀ t x, getType d t = some x → x.used = cur.used args.showUnused t ∧
    x.usedDiff = changeTo ref (fun b => b.used args.showUnused t) cur
  size : ∀ t x, getType d t = some x → SizeShown cur args.showUnused (!args.useFlashSize) t x.size ∧
    (ref = none → x.sizeDiff = 0) ∧ ∀ r, ref = some r → SizeShown r args.showUnused false t (x.size - x.sizeDiff)
  secSize : ∀ t (w : Str → Bool), sumBy (fun s => if w s.1 then s.2.size else 0) (sectionsOf (getType d t)) =
    sumBy (fun p => p.size) ((cur.sections args.showUnused).filter (cur.sends t w))
  secDiff : ∀ t (w : Str → Bool), sumBy (fun s => if w s.1 then s.2.sizeDiff else 0) (sectionsOf (getType d t)) =
    changeTo ref (fun b => sumBy (fun p => p.size) ((b.sections args.showUnused).filter (b.sends t w))) cur
  keys : ∀ t s, s ∈ dkeys (sectionsOf (getType d t)) ↔ (∃ p ∈ cur.sections args.showUnused, cur.goes p = some (t, s)) ∨
    ∃ r, ref = some r ∧ ∃ p ∈ r.sections args.showUnused, r.goes p = some (t, s)
  archs : ∀ t s a, (getArch d t s a).isSome = true ↔
    (∃ p ∈ cur.sections args.showUnused, cur.goes p = some (t, s) ∧ a ∈ dkeys p.archives) ∨
    ∃ r, ref = some r ∧ ∃ p ∈ r.sections args.showUnused, r.goes p = some (t, s) ∧ a ∈ dkeys p.archives
  entry : ref = none → ∀ t s x, getSec d t s = some x ↔ ∃ p ∈ cur.sections args.showUnused, cur.goes p = some (t, s) ∧ x = secEntry s p

theorem getArch_ignored (args : Args) (m : MemMap) (t s a : Str) :
    getArch (if args.useFlashSize then m else ignoreFlashSize m) t s a = getArch m t s a := by
  unfold getArch
  rw [getSec_eq, getSec_eq, sectionsOf_ignored]

theorem midMap_plain {args : Args} {cur : Build} {m : MemMap} (hm : m.WF) (h : Side args.showUnused cur m) :
    MidMap args cur none (if args.useFlashSize then m else ignoreFlashSize m) := by
  have hin : ∀ t x', getType (if args.useFlashSize then m else ignoreFlashSize m) t = some x' → ∃ x, getType m t = some x ∧
      x' = { x with size := if (!args.useFlashSize && contains (str "flash") (lower t)) = true then 0 else x.size } := by
    intro t x' hx
    rw [getType_ignored] at hx
    obtain ⟨x, hx0, rfl⟩ := Option.map_eq_some_iff.mp hx
    exact ⟨x, hx0, rfl⟩
  refine ⟨?_, ?_, ?_, ?_, ?_, ?_, ?_, ?_⟩
  · intro t
    rw [getType_ignored, Option.isSome_map, h.types]
    simp
  · intro t x' hx'
    obtain ⟨x, hx, rfl⟩ := hin t x' hx'
    exact h.used t x hx
  · intro t x' hx'
    obtain ⟨x, hx, rfl⟩ := hin t x' hx'
    refine ⟨?_, fun _ => (h.size t x hx).2, (by intro r hr; cases hr)⟩
    simp only [(h.size t x hx).1]
    exact sizeShown_listed ((h.types t).mp (by rw [hx]; rfl))
  · intro t w
    rw [sectionsOf_ignored]
    exact h.sums t w
  · intro t w
    rw [sectionsOf_ignored]
    apply sumBy_zero
    intro s hs
    rw [h.same hm t s hs]
    simp
  · intro t s
    rw [sectionsOf_ignored, h.keys]
    simp
  · intro t s a
    rw [getArch_ignored, h.archs]
    simp
  · intro _ t s x
    rw [getSec_eq, sectionsOf_ignored, ← getSec_eq]
    exact h.entry t s x

theorem sectionsOf_outMap {c r : MemMap} (hr : r.WF) (t : Str) :
    sectionsOf (getType (outMap c r) t) = outLevel outSec (sectionsOf (getType c t)) (sectionsOf (getType r t)) := by
  rw [getType_outMap hr]
  cases getType c t <;> cases getType r t <;> rfl

theorem dictWF_sectionsOf {m : MemMap} (h : m.WF) (t : Str) : DictWF Sec.WF (sectionsOf (getType m t)) := by
  cases hx : getType m t with
  | none => exact ⟨KeysNodup.nil, by simp [sectionsOf]⟩
  | some x => exact h.getType hx

theorem midMap_diff {args : Args} {cur r : Build} {m ref : MemMap} (hm : m.WF) (hr : ref.WF) (h : Side args.showUnused cur m)
    (h' : Side args.showUnused r ref) :
    MidMap args cur (some r) (outMap (if args.useFlashSize then m else ignoreFlashSize m) ref) := by
  have hc : ∀ t, (getType m t) = none → ¬ cur.Lists args.showUnused t := by
    intro t ht hl
    rw [← h.types, ht] at hl; cases hl
  have hc' : ∀ t, (getType ref t) = none → ¬ r.Lists args.showUnused t := by
    intro t ht hl
    rw [← h'.types, ht] at hl; cases hl
  have hsum : ∀ {F A B : Str → Sec → Int} (t : Str), DiffLaw Sec.WF outSec F A B →
      sumBy (fun s => F s.1 s.2) (sectionsOf (getType (outMap (if args.useFlashSize then m else ignoreFlashSize m) ref) t)) =
        sumBy (fun s => A s.1 s.2) (sectionsOf (getType m t)) - sumBy (fun s => B s.1 s.2) (sectionsOf (getType ref t)) := by
    intro F A B t hl
    rw [sectionsOf_outMap hr, sectionsOf_ignored]
    exact hl.sum (dictWF_sectionsOf hm t) (dictWF_sectionsOf hr t)
  have hshown : ∀ t x, getType m t = some x → SizeShown cur args.showUnused (!args.useFlashSize) t
      (if (!args.useFlashSize && contains (str "flash") (lower t)) = true then 0 else x.size) := by
    intro t x hx
    rw [(h.size t x hx).1]
    exact sizeShown_listed ((h.types t).mp (by rw [hx]; rfl))
  have hshown' : ∀ t x, getType ref t = some x → SizeShown r args.showUnused false t x.size := by
    intro t x hx
    rw [(h'.size t x hx).1]
    have := sizeShown_listed (ignore := false) ((h'.types t).mp (by rw [hx]; rfl))
    simpa using this
  refine ⟨?_, ?_, ?_, ?_, ?_, ?_, ?_, by intro h; cases h⟩
  · intro t
    rw [getType_outMap hr, getType_ignored]
    rw [← h.types]
    simp only [Option.some.injEq, exists_eq_left']
    rw [← h'.types]
    cases getType m t <;> cases getType ref t <;> simp [comb]
  · intro t x' hx'
    rw [getType_outMap hr, getType_ignored] at hx'
    simp only [changeTo]
    cases hx : getType m t with
    | none =>
      cases hy : getType ref t with
      | none => rw [hx, hy] at hx'; cases hx'
      | some y =>
        rw [hx, hy] at hx'
        cases hx'
        refine ⟨(h.free t hx).symm, ?_⟩
        rw [h.free t hx, ← (h'.used t y hy).1]
        rfl
    | some x =>
      cases hy : getType ref t with
      | none =>
        rw [hx, hy] at hx'
        cases hx'
        refine ⟨(h.used t x hx).1, ?_⟩
        rw [h'.free t hy, ← (h.used t x hx).1]
        rfl
      | some y =>
        rw [hx, hy] at hx'
        cases hx'
        refine ⟨(h.used t x hx).1, ?_⟩
        rw [← (h'.used t y hy).1, ← (h.used t x hx).1]
        rfl
  · intro t x' hx'
    rw [getType_outMap hr, getType_ignored] at hx'
    simp only [Option.some.injEq, forall_eq', reduceCtorEq, false_implies, true_and]
    cases hx : getType m t with
    | none =>
      cases hy : getType ref t with
      | none => rw [hx, hy] at hx'; cases hx'
      | some y =>
        rw [hx, hy] at hx'
        cases hx'
        refine ⟨sizeShown_other (hc t hx), ?_⟩
        have := hshown' t y hy
        simpa [outMType] using this
    | some x =>
      cases hy : getType ref t with
      | none =>
        rw [hx, hy] at hx'
        cases hx'
        refine ⟨hshown t x hx, ?_⟩
        have := sizeShown_other (ignore := false) (hc' t hy)
        simpa [outMType, orZero] using this
      | some y =>
        rw [hx, hy] at hx'
        cases hx'
        refine ⟨hshown t x hx, ?_⟩
        have := hshown' t y hy
        simp only [Option.map_some, outMType, orZero]
        rwa [Int.sub_sub_self]
  · intro t w
    rw [hsum t (diffLaw_size Sec.WF outArch w), h.sums t w]
    have : sumBy (fun _ : Str × Sec => (0 : Int)) (sectionsOf (getType ref t)) = 0 := sumBy_zero fun _ _ => rfl
    rw [this]
    omega
  · intro t w
    rw [hsum t (diffLaw_diff Sec.WF outArch w), h.sums t w, h'.sums t w]
    rfl
  · intro t s
    simp only [Option.some.injEq, exists_eq_left']
    rw [← h.keys, ← h'.keys, sectionsOf_outMap hr, sectionsOf_ignored, ← dget_isSome, ← dget_isSome, ← dget_isSome,
      dget_outLevel' _ _ _ (dictWF_sectionsOf hr t).1]
    cases dget (sectionsOf (getType m t)) s <;> cases dget (sectionsOf (getType ref t)) s <;> simp [comb]
  · intro t s a
    simp only [Option.some.injEq, exists_eq_left']
    rw [← h.archs, ← h'.archs, getArch_outMap hr, getArch_ignored]
    cases getArch m t s a <;> cases getArch ref t s a <;> simp [comb]

/-! ### `--unify` -/

theorem mem_sectionsOf {m : MemMap} {t : Str} {s : Str × Sec} (h : s ∈ sectionsOf (getType m t)) :
    ∃ mt, (t, mt) ∈ m.memoryTypes ∧ s ∈ mt.sections := by
  cases hx : getType m t with
  | none => rw [hx] at h; cases h
  | some x => rw [hx] at h; exact ⟨x, mem_of_dget hx, h⟩

theorem unified_sum {d : MemMap} (hn : NamedSecs d) (u : Bool) (hw : (if u then unify d else d : MemMap).WF) (t s : Str) :
    orZero Node.size (getSec (if u then unify d else d) t s) =
      sumBy (fun x => if decide (secKey u x.1 = s) = true then x.2.size else 0) (sectionsOf (getType d t)) ∧
    orZero Node.sizeDiff (getSec (if u then unify d else d) t s) =
      sumBy (fun x => if decide (secKey u x.1 = s) = true then x.2.sizeDiff else 0) (sectionsOf (getType d t)) := by
  rw [getSec_eq, ← sumBy_at (dictWF_sectionsOf hw t).1, ← sumBy_at (dictWF_sectionsOf hw t).1]
  cases u with
  | false => exact ⟨rfl, rfl⟩
  | true =>
    simp only [if_true]
    rw [getType_unify]
    cases hx : getType d t with
    | none => exact ⟨rfl, rfl⟩
    | some x =>
      have h1 := uniLaw_size unifyArchs (fun k => decide (k = s)) x.sections []
      have h2 := uniLaw_diff unifyArchs (fun k => decide (k = s)) x.sections []
      rw [sumBy_nil, Int.zero_add] at h1 h2
      have e : ∀ y ∈ x.sections, y.2.abb = secKey true y.1 := fun y hy => hn _ (mem_of_dget hx) y hy
      refine ⟨h1.trans (sumBy_congr fun y hy => ?_), h2.trans (sumBy_congr fun y hy => ?_)⟩ <;> rw [e y hy]

theorem unified_keys {d : MemMap} (hn : NamedSecs d) (u : Bool) (t s : Str) :
    (getSec (if u then unify d else d) t s).isSome = true ↔ ∃ k ∈ dkeys (sectionsOf (getType d t)), secKey u k = s := by
  cases u with
  | false =>
    simp only [Bool.false_eq_true, if_false]
    rw [getSec_eq, dget_isSome]
    simp [secKey]
  | true =>
    simp only [if_true]
    have hone : ∀ {g : List Sec}, (collapse unifyArchs s g).isSome = true ↔ g ≠ [] := by
      intro g
      cases g <;> simp [collapse]
    rw [getSec_unify, hone]
    cases hx : getType d t with
    | none => simp [chainSecs, hx, sectionsOf, dkeys]
    | some x =>
      simp only [chainSecs, hx, named, sectionsOf, secKey, if_true, ne_eq, List.map_eq_nil_iff, List.filter_eq_nil_iff,
        decide_eq_true_eq, dkeys, List.mem_map]
      have e : ∀ y ∈ x.sections, y.2.abb = abbrevSec y.1 := fun y hy => hn _ (mem_of_dget hx) y hy
      constructor
      · intro h
        apply Classical.byContradiction
        intro hne
        apply h
        intro y hy hs
        exact hne ⟨y.1, ⟨y, hy, rfl⟩, (e y hy).symm.trans hs⟩
      · rintro ⟨k, ⟨y, hy, rfl⟩, hk⟩ hall
        exact hall y hy ((e y hy).trans hk)

theorem unified_archs {d : MemMap} (hd : d.WF) (hn : AllNamed d) (u : Bool) (t s a : Str) :
    (getArch (if u then unify d else d) t s a).isSome = true ↔
      ∃ k x, (getArch d t k x).isSome = true ∧ secKey u k = s ∧ archKey u x = a := by
  cases u with
  | false => simp [secKey, archKey]
  | true =>
    simp only [if_true, secKey, archKey]
    have hone : ∀ {g : List Arch}, (collapse unifyObjs a g).isSome = true ↔ ∃ x, x ∈ g := by
      intro g
      cases g with
      | nil => simp [collapse]
      | cons x l => simp only [collapse, Option.isSome_some, true_iff]; exact ⟨x, List.mem_cons_self ..⟩
    rw [getArch_unify, hone]
    simp only [chainArchs, List.mem_flatMap, chainSecs_eq, named, List.mem_map, List.mem_filter, decide_eq_true_eq]
    constructor
    · rintro ⟨x, n, ⟨q, ⟨hq, hs⟩, rfl⟩, y, ⟨hy, ha⟩, rfl⟩
      unfold secsAt at hq
      cases hx : getType d t with
      | none => rw [hx] at hq; cases hq
      | some mt =>
        rw [hx] at hq
        have hm := mem_of_dget hx
        refine ⟨q.1, y.1, ?_, (hn.secs _ hm q hq).symm.trans hs, (hn.files _ hm q hq y hy).1.symm.trans ha⟩
        unfold getArch
        rw [show getSec d t q.1 = some q.2 from Option.bind_eq_some_iff.mpr ⟨mt, hx, dget_of_mem (hd.getType hx).1 hq⟩,
          Option.bind_some, dget_isSome]
        exact List.mem_map.mpr ⟨y, hy, rfl⟩
    · rintro ⟨k, x, hx, hs, ha⟩
      obtain ⟨ax, hx⟩ := Option.isSome_iff_exists.mp hx
      obtain ⟨sx, hsx, hax⟩ := Option.bind_eq_some_iff.mp hx
      obtain ⟨mt, hmt, hsx⟩ := Option.bind_eq_some_iff.mp hsx
      have h1 := mem_of_dget hmt
      have h2 := mem_of_dget hsx
      have h3 := mem_of_dget hax
      refine ⟨ax, sx, ⟨(k, sx), ⟨by unfold secsAt; rw [hmt]; exact h2, (hn.secs _ h1 _ h2).trans hs⟩, rfl⟩, (x, ax), ⟨h3, ?_⟩, rfl⟩
      exact (hn.files _ h1 _ h2 _ h3).1.trans ha

theorem changeTo_congr {ref : Option Build} {f g : Build → Int} {cur : Build} (h : ∀ b, f b = g b) : changeTo ref f cur = changeTo ref g cur := by
  rw [show f = g from funext h]

/-- The archives of the map that is shown. -/
theorem sumArchs_at {d : MemMap} (hd : d.WF) (f : Arch → Int) (t s a : Str) :
    sumArchs d (fun t' s' x => if (decide (x.1 = a) && Col.has (.sec t s) t' s') = true then f x.2 else 0) = orZero f (getArch d t s a) := by
  unfold sumArchs
  have h1 : ∀ p ∈ d.memoryTypes, sumBy (fun q : Str × Sec => sumBy (fun x : Str × Arch =>
        if (decide (x.1 = a) && Col.has (.sec t s) p.1 q.1) = true then f x.2 else 0) q.2.kids) p.2.sections =
      if decide (p.1 = t) = true then orZero f ((dget p.2.sections s).bind fun x => dget x.kids a) else 0 := by
    intro p hp
    have hp' := hd.2 p hp
    by_cases ht : p.1 = t
    · rw [if_pos (decide_eq_true ht)]
      have h2 : ∀ q ∈ p.2.sections, sumBy (fun x : Str × Arch =>
            if (decide (x.1 = a) && Col.has (.sec t s) p.1 q.1) = true then f x.2 else 0) q.2.kids =
          if decide (q.1 = s) = true then orZero f (dget q.2.kids a) else 0 := by
        intro q hq
        by_cases hs : q.1 = s
        · rw [if_pos (decide_eq_true hs), ← sumBy_at (hp'.2 q hq).1]
          apply sumBy_congr
          intro x _
          simp [Col.has, ht, hs]
        · rw [if_neg (by simpa using hs)]
          apply sumBy_zero
          intro x _
          simp [Col.has, hs]
      rw [sumBy_congr h2, sumBy_at hp'.1 (fun n : Sec => orZero f (dget n.kids a))]
      cases dget p.2.sections s <;> rfl
    · rw [if_neg (by simpa using ht)]
      apply sumBy_zero
      intro q _
      apply sumBy_zero
      intro x _
      simp [Col.has, ht]
  rw [sumBy_congr h1, sumBy_at hd.1 (fun n : MType => orZero f ((dget n.sections s).bind fun x => dget x.kids a))]
  unfold getArch getSec getType
  cases dget d.memoryTypes t <;> rfl

/-- The map that is shown, from what is known of it before `unify`. -/
theorem mapOf_unify {args : Args} {cur : Build} {ref : Option Build} {m r d : MemMap} (h : MidMap args cur ref d)
    (hmid : MidCells (truthy args.diff) m r d) (hm : CellMap cur.goes cur.parts m) (href : ref.isSome = truthy args.diff)
    (hr : ∀ b, ref = some b → CellMap b.goes b.parts r) :
    MapOf args cur ref (if args.unify then unify d else d) := by
  have hp := midCells_unify hmid args.unify
  have ht : ∀ t, getType (if args.unify then unify d else d) t =
      (getType d t).map fun x => { x with sections := if args.unify then unifySecs x.sections [] else x.sections } := by
    intro t
    cases args.unify with
    | true => exact getType_unify d t
    | false =>
      simp only [Bool.false_eq_true, if_false]
      cases getType d t <;> rfl
  have hin : ∀ t x', getType (if args.unify then unify d else d) t = some x' → ∃ x, getType d t = some x ∧
      x' = { x with sections := if args.unify then unifySecs x.sections [] else x.sections } := by
    intro t x' hx
    rw [ht] at hx
    obtain ⟨x, hx0, rfl⟩ := Option.map_eq_some_iff.mp hx
    exact ⟨x, hx0, rfl⟩
  have hsec : ∀ t s x, getSec (if args.unify then unify d else d) t s = some x → ∃ p ∈ (if args.unify then unify d else d : MemMap).memoryTypes,
      (s, x) ∈ p.2.sections := by
    intro t s x hx
    obtain ⟨mt, hmt, hx⟩ := Option.bind_eq_some_iff.mp hx
    exact ⟨_, mem_of_dget hmt, mem_of_dget hx⟩
  have harch : ∀ t s a, orZero Node.size (getArch (if args.unify then unify d else d) t s a) = cur.archiveSize args.unify t s a := by
    intro t s a
    rw [← sumArchs_at hp.wf]
    exact (hp.archSize fun t' s' x => decide (x = a) && Col.has (.sec t s) t' s').trans (hm.archs args.unify a (.sec t s))
  have hadiff : ∀ t s a, orZero Node.sizeDiff (getArch (if args.unify then unify d else d) t s a) =
      changeTo ref (fun b => b.archiveSize args.unify t s a) cur := by
    intro t s a
    rw [← sumArchs_at hp.wf]
    refine (hp.archDiff fun t' s' x => decide (x = a) && Col.has (.sec t s) t' s').trans ?_
    cases href' : ref with
    | none =>
      rw [← href, href', if_neg (by simp)]
      exact hm.noArch _ _
    | some b =>
      rw [← href, href', if_pos (by simp)]
      have hr' := hr b href'
      rw [hm.archs args.unify a (.sec t s), hr'.archs args.unify a (.sec t s)]
      rfl
  refine ⟨hp.wf, ?_, ?_, ?_, ?_, ?_, ?_, ?_, ?_⟩
  · intro t
    rw [ht, Option.isSome_map]
    exact h.types t
  · intro t x' hx'
    obtain ⟨x, hx, rfl⟩ := hin t x' hx'
    exact h.used t x hx
  · intro t x' hx'
    obtain ⟨x, hx, rfl⟩ := hin t x' hx'
    exact h.size t x hx
  · intro t s
    rw [unified_keys hmid.named.secs]
    have e : ∀ b : Build, b.HasSection args.showUnused args.unify t s ↔
        ∃ k, (∃ p ∈ b.sections args.showUnused, b.goes p = some (t, k)) ∧ secKey args.unify k = s := by
      intro b
      constructor
      · rintro ⟨p, hp, hs⟩
        obtain ⟨k, hk, hs⟩ := sends_iff.mp hs
        exact ⟨k, ⟨p, hp, hk⟩, of_decide_eq_true hs⟩
      · rintro ⟨k, ⟨p, hp, hk⟩, hs⟩
        exact ⟨p, hp, sends_iff.mpr ⟨k, hk, decide_eq_true hs⟩⟩
    constructor
    · rintro ⟨k, hk, hs⟩
      rcases (h.keys t k).mp hk with h1 | ⟨b, hb, h1⟩
      · exact .inl ((e _).mpr ⟨k, h1, hs⟩)
      · exact .inr ⟨b, hb, (e _).mpr ⟨k, h1, hs⟩⟩
    · rintro (h1 | ⟨b, hb, h1⟩)
      · obtain ⟨k, h1, hs⟩ := (e _).mp h1
        exact ⟨k, (h.keys t k).mpr (.inl h1), hs⟩
      · obtain ⟨k, h1, hs⟩ := (e _).mp h1
        exact ⟨k, (h.keys t k).mpr (.inr ⟨b, hb, h1⟩), hs⟩
  · intro t s x hx
    obtain ⟨p, hp1, hp2⟩ := hsec t s x hx
    have hu := unified_sum hmid.named.secs args.unify hp.wf t s
    rw [hx] at hu
    exact ⟨hp.secNames p hp1 _ hp2, hu.1.trans (h.secSize t fun k => decide (secKey args.unify k = s)),
      hu.2.trans (h.secDiff t fun k => decide (secKey args.unify k = s))⟩
  · intro t s a x hx
    obtain ⟨p, hp1, q, hq, _, _, hx'⟩ := mem_of_getArch hx
    have h1 := harch t s a
    have h2 := hadiff t s a
    rw [hx] at h1 h2
    exact ⟨hp.archNames p hp1 q hq _ hx', h1, h2⟩
  · intro t s a
    rw [unified_archs hmid.wf hmid.named]
    have e : ∀ b : Build, b.HasArchive args.showUnused args.unify t s a ↔ ∃ k x,
        (∃ p ∈ b.sections args.showUnused, b.goes p = some (t, k) ∧ x ∈ dkeys p.archives) ∧ secKey args.unify k = s ∧ archKey args.unify x = a := by
      intro b
      constructor
      · rintro ⟨p, hp, hs, x, hx, ha⟩
        obtain ⟨k, hk, hs⟩ := sends_iff.mp hs
        exact ⟨k, x, ⟨p, hp, hk, hx⟩, of_decide_eq_true hs, ha⟩
      · rintro ⟨k, x, ⟨p, hp, hk, hx⟩, hs, ha⟩
        exact ⟨p, hp, sends_iff.mpr ⟨k, hk, decide_eq_true hs⟩, x, hx, ha⟩
    constructor
    · rintro ⟨k, x, hk, hs⟩
      rcases (h.archs t k x).mp hk with h1 | ⟨b, hb, h1⟩
      · exact .inl ((e _).mpr ⟨k, x, h1, hs⟩)
      · exact .inr ⟨b, hb, (e _).mpr ⟨k, x, h1, hs⟩⟩
    · rintro (h1 | ⟨b, hb, h1⟩)
      · obtain ⟨k, x, h1, hs⟩ := (e _).mp h1
        exact ⟨k, x, (h.archs t k x).mpr (.inl h1), hs⟩
      · obtain ⟨k, x, h1, hs⟩ := (e _).mp h1
        exact ⟨k, x, (h.archs t k x).mpr (.inr ⟨b, hb, h1⟩), hs⟩
  · intro hn hu t s x
    rw [hu]
    exact h.entry hn t s x

/-- The map that `prepare` makes. -/
theorem prepare_map {args : Args} {cur : Build} {ref : Option Build} {m r d : MemMap} (hm : CellMap cur.goes cur.parts m)
    (ht : TypesOf cur.types cur.regions cur.goes cur.parts m) (href : ref.isSome = truthy args.diff)
    (hr : ∀ b, ref = some b → CellMap b.goes b.parts r ∧ TypesOf b.types b.regions b.goes b.parts r) (h : prepare args m r = .ok d) :
    MapOf args cur ref d := by
  have hwf : ∀ {m : MemMap}, m.WF → (if args.showUnused then m else removeUnused m : MemMap).WF := by
    intro m h
    split
    · exact h
    · exact wf_removeUnused h
  have hwf' : ∀ {m : MemMap}, m.WF → (if args.useFlashSize then m else ignoreFlashSize m : MemMap).WF := by
    intro m h
    split
    · exact h
    · exact wf_ignoreFlash h
  have hr' : truthy args.diff = true → ∃ b, ref = some b ∧ CellMap b.goes b.parts r ∧ TypesOf b.types b.regions b.goes b.parts r := by
    intro hx
    rw [← href] at hx
    obtain ⟨b, hb⟩ := Option.isSome_iff_exists.mp hx
    exact ⟨b, hb, hr b hb⟩
  have hprep : ∀ {d'}, d = (if args.unify then unify d' else d') → MidCells (truthy args.diff) m r d' → MidMap args cur ref d' → MapOf args cur ref d := by
    rintro d' rfl h1 h2
    exact mapOf_unify h2 h1 hm href fun b hb => (hr b hb).1
  have hfine : ∀ {m : MemMap}, m.WF → AllNamed m → UnusedEmpty m → FineCells m (if args.showUnused then m else removeUnused m) := by
    intro m h1 h2 h3
    refine ⟨fine_removeUnused h1 h2.files h3 args.showUnused, ?_⟩
    split
    · exact h2
    · exact ⟨named_removeUnused h2.files, namedSyms_removeUnused h2.syms, namedSecs_removeUnused h2.secs⟩
  have hign : ∀ {m m' : MemMap}, FineCells m m' → FineCells m (if args.useFlashSize then m' else ignoreFlashSize m') := by
    intro m m' h
    refine ⟨fine_ignoreFlash h.fine args.useFlashSize, ?_⟩
    split
    · exact h.named
    · exact ⟨named_ignoreFlash h.named.files, namedSyms_ignoreFlash h.named.syms, namedSecs_ignoreFlash h.named.secs⟩
  have f1 := hign (hfine hm.wf hm.named hm.empty)
  have s1 := side_of (b := cur) hm.wf hm.empty ht args.showUnused
  unfold prepare at h
  cases hd : truthy args.diff with
  | false =>
    simp only [hd, Bool.false_eq_true, if_false, bind, Except.bind, Except.ok.injEq] at h
    have hn : ref = none := by
      rw [hd] at href
      cases ref with
      | none => rfl
      | some b => cases href
    refine hprep h.symm (hd ▸ midCells_plain f1) ?_
    rw [hn]
    exact midMap_plain (hwf hm.wf) s1
  | true =>
    obtain ⟨b, hb, h1, h2⟩ := hr' hd
    have f3 := hfine h1.wf h1.named h1.empty
    have s2 := side_of (b := b) h1.wf h1.empty h2 args.showUnused
    simp only [hd, if_true, bind, Except.bind] at h
    have hidem : ∀ x : MemMap, (if args.useFlashSize then (if args.useFlashSize then x else ignoreFlashSize x) else
        ignoreFlashSize (if args.useFlashSize then x else ignoreFlashSize x)) = if args.useFlashSize then x else ignoreFlashSize x := by
      intro x
      cases args.useFlashSize with
      | true => rfl
      | false => exact ignoreFlash_idem x
    rw [hidem, diff_eq (hwf' (hwf hm.wf)) (hwf h1.wf)] at h
    simp only [Except.ok.injEq] at h
    refine hprep h.symm (hd ▸ midCells_diff f1 f3) ?_
    rw [hb]
    exact midMap_diff (hwf hm.wf) (hwf h1.wf) s1 s2

end EspSize
