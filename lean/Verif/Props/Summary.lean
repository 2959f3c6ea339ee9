import Verif.Proofs.Summary2
import Verif.Model.Unify
/-! # C11, C12, C13: archive, file and symbol reports -/
namespace EspSize

/-- The filter applied to the entries of a report when comparing. -/
def shownEntries (args : Args) (E : Dict Str Entry) : Dict Str Entry := remSummaryUnchanged E args

theorem remSummaryUnchanged_spec (args : Args) (E : Dict Str Entry) (hE : KeysNodup E) (k : Str) (e : Entry) :
    dget (remSummaryUnchanged E args) k = some e ↔
      dget E k = some e ∧ (truthy args.diff = true → args.showUnchanged = false → e.sizeDiff ≠ 0) := by
  unfold remSummaryUnchanged
  by_cases h : (!truthy args.diff || args.showUnchanged) = true
  · rw [if_pos h]
    constructor
    · intro hd
      refine ⟨hd, fun h1 h2 => ?_⟩
      simp [h1, h2] at h
    · exact fun hd => hd.1
  · rw [if_neg h, dget_dfilter hE, Option.filter_eq_some_iff]
    have h' : truthy args.diff = true ∧ args.showUnchanged = false := by simpa using h
    simp [h'.1, h'.2]

theorem sumBy_key {α : Type} (d : Dict Str α) (hd : KeysNodup d) (k : Str) (F : Str × α → Int) :
    sumBy (fun p => if p.1 = k then F p else 0) d = orZero (fun v => F (k, v)) (dget d k) := by
  induction d with
  | nil => rfl
  | cons p t ih =>
    have h := KeysNodup.cons_iff.mp hd
    simp only [sumBy, dget_cons]
    by_cases e : p.1 = k
    · subst e
      have hz : dget t p.1 = none := dget_eq_none.mpr h.1
      rw [ih h.2, hz]; simp [orZero]
    · rw [if_neg e, if_neg e, ih h.2]; simp

/-- Size of archive `a` summed over all memory types and sections of the map. -/
def archTotal (f : Arch → Int) (m : MemMap) (a : Str) : Int :=
  sumBy (fun t => sumBy (fun s => orZero f (dget s.2.kids a)) t.2.sections) m.memoryTypes

theorem archRecs_eq (m : MemMap) : (walk m (str "archives")).filterMap archRec =
    m.memoryTypes.flatMap fun t => t.2.sections.flatMap fun s => s.2.kids.map fun a =>
      { key := a.1, abb := a.2.abb, type := t.1, sec := s.1, size := a.2.size, sizeDiff := a.2.sizeDiff } := by
  have n1 : str "archives" ≠ str "types" := by decide
  have n2 : str "archives" ≠ str "sections" := by decide
  unfold walk walkType walkSec walkArch
  simp only [if_neg n1, if_neg n2, if_true, List.filterMap_flatMap]
  congr 1; funext t
  congr 1; funext s
  simp [archRec, List.map_eq_flatMap]

theorem archRecs_ok {m : MemMap} (hm : m.WF) :
    ∀ r ∈ (walk m (str "archives")).filterMap archRec, RecOk (summaryTypes m) r := by
  intro r hr
  obtain ⟨i, hi, hr⟩ := List.mem_filterMap.mp hr
  unfold archRec at hr
  split at hr
  · rename_i s a hs ha
    cases hr
    exact recOk_of hm hi hs rfl rfl
  · cases hr

theorem archRecs_noClash {m : MemMap} (hm : m.WF) :
    NoClash ((walk m (str "archives")).filterMap archRec) := by
  apply noClash_of hm
  · intro i _ r hr
    unfold archRec at hr
    split at hr
    · rename_i s a hs ha
      cases hr
      exact ⟨s, hs, rfl, rfl⟩
    · cases hr
  · intro i hi j hj hlt et es r r' hr hr' hk
    unfold archRec at hr hr'
    split at hr
    · rename_i s a hs ha
      split at hr'
      · rename_i s' a' hs' ha'
        cases hr; cases hr'
        simp only at hk
        rcases hlt with hb | ⟨_, s1, s2, e1, e2, hrest⟩
        · rw [et] at hb; exact not_before_self hm.1 _ hb
        · rw [e1, e2] at es; cases es
          rcases hrest with hb | ⟨_, a1, a2, e3, e4, hrest⟩
          · exact not_before_self (hm.2 _ (walk_type_mem hi)).1 _ hb
          · rw [ha] at e3; cases e3
            rw [ha'] at e4; cases e4
            have hw : Sec.WF s1.2 := (hm.2 _ (walk_type_mem hi)).2 _ (walk_sec_mem hi e1)
            rcases hrest with hb | ⟨_, o1, o2, e5, _⟩
            · rw [hk] at hb
              exact not_before_self hw.1 _ hb
            · -- at this depth there is no object component
              obtain ⟨t, s, a, x, sx, ax, _, _, _, rfl⟩ := ((C54_walk_mem m hm i).2.2.1).mp hi
              cases e5
      · cases hr'
    · cases hr

theorem archRecs_sum {m : MemMap} (P : Rec → Bool) (f : Rec → Int) :
    sumIf P f ((walk m (str "archives")).filterMap archRec) =
      sumBy (fun t => sumBy (fun s => sumBy (fun a =>
        if P { key := a.1, abb := a.2.abb, type := t.1, sec := s.1, size := a.2.size, sizeDiff := a.2.sizeDiff }
        then f { key := a.1, abb := a.2.abb, type := t.1, sec := s.1, size := a.2.size, sizeDiff := a.2.sizeDiff }
        else 0) s.2.kids) t.2.sections) m.memoryTypes := by
  unfold sumIf
  rw [archRecs_eq, sumBy_flatMap]
  congr 1; funext t
  rw [sumBy_flatMap]
  congr 1; funext s
  rw [sumBy_map]

theorem arch_sum_K {m : MemMap} (hm : m.WF) (a : Str) (f : Rec → Int) (F : Arch → Int)
    (hf : ∀ k b t s (x : Arch), f { key := k, abb := b, type := t, sec := s, size := x.size, sizeDiff := x.sizeDiff } = F x) :
    sumIf (onK a) f ((walk m (str "archives")).filterMap archRec) = archTotal F m a := by
  rw [archRecs_sum]
  unfold archTotal
  apply sumBy_congr
  intro t ht
  apply sumBy_congr
  intro s hs
  rw [← sumBy_key s.2.kids ((hm.2 t ht).2 s hs).1 a fun p => F p.2]
  apply sumBy_congr
  intro p _
  simp [onK, hf]

theorem arch_sum_KT {m : MemMap} (hm : m.WF) (a t : Str) (x : MType) (hx : getType m t = some x)
    (f : Rec → Int) (F : Arch → Int)
    (hf : ∀ k b t s (x : Arch), f { key := k, abb := b, type := t, sec := s, size := x.size, sizeDiff := x.sizeDiff } = F x) :
    sumIf (onKT a t) f ((walk m (str "archives")).filterMap archRec) =
      sumBy (fun s => orZero F (dget s.2.kids a)) x.sections := by
  rw [archRecs_sum]
  have h1 := sumBy_key m.memoryTypes hm.1 t fun p =>
    sumBy (fun s => orZero F (dget s.2.kids a)) p.2.sections
  have hx' : dget m.memoryTypes t = some x := hx
  rw [hx'] at h1
  refine Eq.trans ?_ h1
  apply sumBy_congr
  intro p hp
  by_cases e : p.1 = t
  · rw [if_pos e]
    apply sumBy_congr
    intro s hs
    rw [← sumBy_key s.2.kids ((hm.2 p hp).2 s hs).1 a fun p => F p.2]
    apply sumBy_congr
    intro q _
    simp [onKT, hf, e]
  · rw [if_neg e]
    apply sumBy_zero; intro s _
    apply sumBy_zero; intro q _
    simp [onKT, e]

theorem arch_sum_KTS {m : MemMap} (hm : m.WF) (a t s : Str) (f : Rec → Int) (F : Arch → Int)
    (hf : ∀ k b t s (x : Arch), f { key := k, abb := b, type := t, sec := s, size := x.size, sizeDiff := x.sizeDiff } = F x) :
    sumIf (onKTS a t s) f ((walk m (str "archives")).filterMap archRec) = orZero F (getArch m t s a) := by
  rw [archRecs_sum]
  have h1 := sumBy_key m.memoryTypes hm.1 t fun p => orZero F ((dget p.2.sections s).bind fun x => dget x.kids a)
  have h2 : orZero F (getArch m t s a) = orZero
      (fun v => orZero F ((dget v.sections s).bind fun x => dget x.kids a)) (dget m.memoryTypes t) := by
    unfold getArch getSec getType
    cases dget m.memoryTypes t <;> rfl
  rw [h2, ← h1]
  apply sumBy_congr
  intro p hp
  by_cases e : p.1 = t
  · rw [if_pos e]
    have h3 := sumBy_key p.2.sections (hm.2 p hp).1 s fun q => orZero F (dget q.2.kids a)
    have h4 : orZero F ((dget p.2.sections s).bind fun x => dget x.kids a) =
        orZero (fun v => orZero F (dget v.kids a)) (dget p.2.sections s) := by
      cases dget p.2.sections s <;> rfl
    rw [h4, ← h3]
    apply sumBy_congr
    intro q hq
    by_cases e2 : q.1 = s
    · rw [if_pos e2, ← sumBy_key q.2.kids ((hm.2 p hp).2 q hq).1 a fun p => F p.2]
      apply sumBy_congr
      intro z _
      simp [onKTS, hf, e, e2]
    · rw [if_neg e2]
      apply sumBy_zero; intro z _
      simp [onKTS, e2]
  · rw [if_neg e]
    apply sumBy_zero; intro q _
    apply sumBy_zero; intro z _
    simp [onKTS, e]

/-- **C11** the archive report.  `E` are all entries; when comparing, those whose total difference is
zero are dropped from what is returned. -/
theorem C11_archives_summary (m : MemMap) (hm : m.WF) (args : Args) :
    ∃ E R, getArchivesSummary m args = .ok R ∧ KeysNodup E ∧
      -- what is returned
      (∀ a e, dget R a = some e ↔ dget E a = some e ∧
        (truthy args.diff = true → args.showUnchanged = false → e.sizeDiff ≠ 0)) ∧
      -- one entry per archive name
      (∀ a, (dget E a).isSome = true ↔ ∃ t s, (getArch m t s a).isSome = true) ∧
      -- its sizes
      (∀ a e, dget E a = some e →
        e.size = archTotal Node.size m a ∧ e.sizeDiff = archTotal Node.sizeDiff m a ∧
        Consistent m e ∧ SecConsistent m e ∧
        (∀ t st, dget e.types t = some st → ∃ x, getType m t = some x ∧
          st.size = sumBy (fun s => orZero Node.size (dget s.2.kids a)) x.sections ∧
          st.sizeDiff = sumBy (fun s => orZero Node.sizeDiff (dget s.2.kids a)) x.sections) ∧
        (∀ t st s ss, dget e.types t = some st → dget st.sections s = some ss →
          ss.size = orZero Node.size (getArch m t s a) ∧
          ss.sizeDiff = orZero Node.sizeDiff (getArch m t s a))) ∧
      -- the totals
      sumBy (fun p => p.2.size) E = sumBy (fun t => sumBy (fun s => sumBy (fun a => a.2.size)
        s.2.kids) t.2.sections) m.memoryTypes ∧
      sumBy (fun p => p.2.sizeDiff) E = sumBy (fun t => sumBy (fun s => sumBy (fun a => a.2.sizeDiff)
        s.2.kids) t.2.sections) m.memoryTypes := by
  have hok := archRecs_ok hm
  have hnc := archRecs_noClash hm
  obtain ⟨E, hE, inv⟩ := summarize_inv (mtWF_summaryTypes hm) _ hok
  refine ⟨E, remSummaryUnchanged E args, ?_, inv.nodup, ?_, ?_, ?_, ?_, ?_⟩
  · unfold getArchivesSummary
    simp [hE, bind, Except.bind]
  · exact fun a e => remSummaryUnchanged_spec args E inv.nodup a e
  · intro a
    rw [inv.look a]
    have : ((walk m (str "archives")).filterMap archRec).any (onK a) = true ↔
        ∃ t s, (getArch m t s a).isSome = true := by
      simp only [List.any_eq_true, List.mem_filterMap]
      constructor
      · rintro ⟨r, ⟨i, hi, hr⟩, hk⟩
        obtain ⟨t, s, a', x, sx, ax, _, _, ha, rfl⟩ := ((C54_walk_mem m hm i).2.2.1).mp hi
        simp only [archRec, Option.some.injEq] at hr
        subst hr
        simp only [onK, decide_eq_true_eq] at hk
        subst hk
        exact ⟨t, s, by rw [ha]; rfl⟩
      · rintro ⟨t, s, ha⟩
        obtain ⟨ax, ha⟩ := Option.isSome_iff_exists.mp ha
        obtain ⟨sx, hs, hax⟩ := Option.bind_eq_some_iff.mp ha
        obtain ⟨x, hx, hsx⟩ := Option.bind_eq_some_iff.mp hs
        exact ⟨_, ⟨_, ((C54_walk_mem m hm _).2.2.1).mpr ⟨t, s, a, x, sx, ax, hx, hs, ha, rfl⟩, rfl⟩,
          by simp [onK]⟩
    by_cases hh : ((walk m (str "archives")).filterMap archRec).any (onK a) = true
    · rw [if_pos hh]; simp [this.mp hh]
    · rw [if_neg hh]
      rw [this] at hh
      simp only [Option.isSome_none, Bool.false_eq_true, false_iff]
      exact hh
  · intro a e he
    rw [inv.look a] at he
    split at he
    · cases he
      refine ⟨arch_sum_K hm a _ _ (fun _ _ _ _ _ => rfl), arch_sum_K hm a _ _ (fun _ _ _ _ _ => rfl),
        consistent_entryOf hm a _ hok, secConsistent_entryOf hm a _ hok hnc, ?_, ?_⟩
      · intro t st hst
        obtain ⟨x, hx, rfl⟩ := entryOf_type hst
        exact ⟨x, hx, arch_sum_KT hm a t x hx _ _ (fun _ _ _ _ _ => rfl),
          arch_sum_KT hm a t x hx _ _ (fun _ _ _ _ _ => rfl)⟩
      · intro t st s ss hst hss
        obtain ⟨x, hx, rfl⟩ := entryOf_type hst
        simp only [dget_dmap] at hss
        obtain ⟨sx, hsx, rfl⟩ := Option.map_eq_some_iff.mp hss
        simp only []
        rw [lastOr_eq_sumIf _ _ _ (hnc.pair a t s), lastOr_eq_sumIf _ _ _ (hnc.pair a t s)]
        exact ⟨arch_sum_KTS hm a t s _ _ (fun _ _ _ _ _ => rfl),
          arch_sum_KTS hm a t s _ _ (fun _ _ _ _ _ => rfl)⟩
    · cases he
  · rw [inv.total]
    have := archRecs_sum (m := m) (fun _ => true) Rec.size
    simp only [sumIf, if_true] at this
    exact this
  · rw [inv.totalDiff]
    have := archRecs_sum (m := m) (fun _ => true) Rec.sizeDiff
    simp only [sumIf, if_true] at this
    exact this

example : (getArchivesSummary exMapA {}).map (fun E => (dkeys E, (dget E (str "x/liba.a")).map Entry.size)) =
    .ok ([str "x/liba.a", str "y/liba.a"], some 10) := by decide

/-! ### C12 -/

theorem objRec_shape {u : Bool} {i : Item} {r : Rec} (h : objRec u i = some r) :
    ∃ s a o, i.sec = some s ∧ i.arch = some a ∧ i.obj = some o ∧
      r = { key := if u then o.2.abb else join (str ":") [a.1, o.1], abb := basename o.1,
            type := i.type.1, sec := s.1, size := o.2.size, sizeDiff := o.2.sizeDiff } := by
  unfold objRec at h
  split at h
  · rename_i s a o hs ha ho
    cases h
    exact ⟨s, a, o, hs, ha, ho, rfl⟩
  · cases h

theorem objRecs_ok {m : MemMap} (hm : m.WF) (u : Bool) :
    ∀ r ∈ (walk m (str "objects")).filterMap (objRec u), RecOk (summaryTypes m) r := by
  intro r hr
  obtain ⟨i, hi, hr⟩ := List.mem_filterMap.mp hr
  obtain ⟨s, a, o, hs, _, _, rfl⟩ := objRec_shape hr
  exact recOk_of hm hi hs rfl rfl

theorem objRecs_sum (m : MemMap) (u : Bool) (f : Rec → Int) (F : Obj → Int)
    (hf : ∀ k b t s (x : Obj), f { key := k, abb := b, type := t, sec := s, size := x.size, sizeDiff := x.sizeDiff } = F x) :
    sumBy f ((walk m (str "objects")).filterMap (objRec u)) =
      sumBy (fun t => sumBy (fun s => sumBy (fun a => sumBy (fun o => F o.2)
        a.2.kids) s.2.kids) t.2.sections) m.memoryTypes := by
  have n1 : str "objects" ≠ str "types" := by decide
  have n2 : str "objects" ≠ str "sections" := by decide
  have n3 : str "objects" ≠ str "archives" := by decide
  unfold walk walkType walkSec walkArch walkObj
  simp only [if_neg n1, if_neg n2, if_neg n3, if_true, List.filterMap_flatMap, sumBy_flatMap]
  simp [objRec, hf, sumBy]

/-- Two object files of one section never get the same report key. -/
def ObjKeysInj (u : Bool) (m : MemMap) : Prop :=
  ∀ t s a o a' o' ox ox', getObj m t s a o = some ox → getObj m t s a' o' = some ox' →
    (if u then ox.abb else join (str ":") [a, o]) = (if u then ox'.abb else join (str ":") [a', o']) →
    a = a' ∧ o = o'

theorem colon_split {a o a' o' : Str} (ho : ':' ∉ o) (ho' : ':' ∉ o')
    (h : a ++ ':' :: o = a' ++ ':' :: o') : a = a' ∧ o = o' := by
  induction a generalizing a' with
  | nil =>
    cases a' with
    | nil => simpa using h
    | cons c a' =>
      simp only [List.nil_append, List.cons_append, List.cons.injEq] at h
      exact absurd (by rw [h.2]; simp : ':' ∈ o) ho
  | cons c a ih =>
    cases a' with
    | nil =>
      simp only [List.nil_append, List.cons_append, List.cons.injEq] at h
      exact absurd (by rw [← h.2]; simp : ':' ∈ o') ho'
    | cons c' a' =>
      simp only [List.cons_append, List.cons.injEq] at h
      obtain ⟨h1, h2⟩ := ih h.2
      exact ⟨by rw [h.1, h1], h2⟩

/-- Without `--unify`, object file names without a colon are enough. -/
theorem objKeysInj_of_noColon (m : MemMap)
    (h : ∀ t s a o ox, getObj m t s a o = some ox → ':' ∉ o) : ObjKeysInj false m := by
  intro t s a o a' o' ox ox' ho ho' hk
  apply colon_split (h _ _ _ _ _ ho) (h _ _ _ _ _ ho')
  simpa [join, str] using hk

theorem objRecs_noClash {m : MemMap} (hm : m.WF) {u : Bool} (hinj : ObjKeysInj u m) :
    NoClash ((walk m (str "objects")).filterMap (objRec u)) := by
  apply noClash_of hm
  · intro i _ r hr
    obtain ⟨s, a, o, hs, _, _, rfl⟩ := objRec_shape hr
    exact ⟨s, hs, rfl, rfl⟩
  · intro i hi j hj hlt et es r r' hr hr' hk
    obtain ⟨t, s, a, o, x, sx, ax, ox, ht, hs, ha, ho, rfl⟩ := ((C54_walk_mem m hm i).2.2.2.1).mp hi
    obtain ⟨t', s', a', o', x', sx', ax', ox', ht', hs', ha', ho', rfl⟩ :=
      ((C54_walk_mem m hm j).2.2.2.1).mp hj
    simp only [objRec, Option.some.injEq] at hr hr'
    subst hr; subst hr'
    simp only [Prod.mk.injEq, Option.some.injEq] at et es hk
    obtain ⟨rfl, rfl⟩ := et
    obtain ⟨rfl, rfl⟩ := es
    obtain ⟨rfl, rfl⟩ := hinj _ _ _ _ _ _ _ _ ho ho' hk
    rcases hlt with hb | ⟨_, s1, s2, e1, e2, hrest⟩
    · exact not_before_self hm.1 _ hb
    · cases e1; cases e2
      rcases hrest with hb | ⟨_, a1, a2, e1, e2, hrest⟩
      · exact not_before_self (hm.getType ht).1 _ hb
      · cases e1; cases e2
        rcases hrest with hb | ⟨_, o1, o2, e1, e2, hrest⟩
        · exact not_before_self (hm.getSec hs).1 _ hb
        · cases e1; cases e2
          rcases hrest with hb | ⟨_, y1, y2, e1, _⟩
          · exact not_before_self (hm.getArch ha).1 _ hb
          · cases e1

/-- **C12** (all but the per-section sizes under colliding names) the file report. -/
theorem C12_files_summary_partial (m : MemMap) (hm : m.WF) (args : Args) :
    ∃ E R, getObjectFilesSummary m args = .ok R ∧ KeysNodup E ∧
      (∀ k e, dget R k = some e ↔ dget E k = some e ∧
        (truthy args.diff = true → args.showUnchanged = false → e.sizeDiff ≠ 0)) ∧
      (∀ k, (dget E k).isSome = true ↔ ∃ t s a o ox, getObj m t s a o = some ox ∧
        k = if args.unify then ox.abb else join (str ":") [a, o]) ∧
      (∀ k e, dget E k = some e → Consistent m e ∧ (ObjKeysInj args.unify m → SecConsistent m e)) ∧
      sumBy (fun p => p.2.size) E = sumBy (fun t => sumBy (fun s => sumBy (fun a => sumBy (fun o =>
        o.2.size) a.2.kids) s.2.kids) t.2.sections) m.memoryTypes ∧
      sumBy (fun p => p.2.sizeDiff) E = sumBy (fun t => sumBy (fun s => sumBy (fun a => sumBy (fun o =>
        o.2.sizeDiff) a.2.kids) s.2.kids) t.2.sections) m.memoryTypes := by
  have hok := objRecs_ok hm args.unify
  obtain ⟨E, hE, inv⟩ := summarize_inv (mtWF_summaryTypes hm) _ hok
  refine ⟨E, remSummaryUnchanged E args, ?_, inv.nodup, ?_, ?_, ?_, ?_, ?_⟩
  · unfold getObjectFilesSummary
    simp [hE, bind, Except.bind]
  · exact fun a e => remSummaryUnchanged_spec args E inv.nodup a e
  · intro k
    rw [inv.look k]
    have : ((walk m (str "objects")).filterMap (objRec args.unify)).any (onK k) = true ↔
        ∃ t s a o ox, getObj m t s a o = some ox ∧
          k = if args.unify then ox.abb else join (str ":") [a, o] := by
      simp only [List.any_eq_true, List.mem_filterMap]
      constructor
      · rintro ⟨r, ⟨i, hi, hr⟩, hk⟩
        obtain ⟨t, s, a, o, x, sx, ax, ox, _, _, _, ho, rfl⟩ := ((C54_walk_mem m hm i).2.2.2.1).mp hi
        simp only [objRec, Option.some.injEq] at hr
        subst hr
        simp only [onK, decide_eq_true_eq] at hk
        exact ⟨t, s, a, o, ox, ho, hk.symm⟩
      · rintro ⟨t, s, a, o, ox, ho, rfl⟩
        obtain ⟨ax, ha, hox⟩ := Option.bind_eq_some_iff.mp ho
        obtain ⟨sx, hs, hax⟩ := Option.bind_eq_some_iff.mp ha
        obtain ⟨x, hx, hsx⟩ := Option.bind_eq_some_iff.mp hs
        exact ⟨_, ⟨_, ((C54_walk_mem m hm _).2.2.2.1).mpr
          ⟨t, s, a, o, x, sx, ax, ox, hx, hs, ha, ho, rfl⟩, rfl⟩, by simp [onK]⟩
    by_cases hh : ((walk m (str "objects")).filterMap (objRec args.unify)).any (onK k) = true
    · rw [if_pos hh]; simp only [Option.isSome_some, true_iff]; exact this.mp hh
    · rw [if_neg hh]
      rw [this] at hh
      simp only [Option.isSome_none, Bool.false_eq_true, false_iff]
      exact hh
  · intro k e he
    rw [inv.look k] at he
    split at he
    · cases he
      exact ⟨consistent_entryOf hm k _ hok,
        fun hinj => secConsistent_entryOf hm k _ hok (objRecs_noClash hm hinj)⟩
    · cases he
  · rw [inv.total]; exact objRecs_sum m _ _ _ fun _ _ _ _ _ => rfl
  · rw [inv.totalDiff]; exact objRecs_sum m _ _ _ fun _ _ _ _ _ => rfl

/-- Two archives that contain an object file of the same name, in one section. -/
def exSameObj : MemMap :=
  { exMapA with memoryTypes := [
      (str "DRAM", { size := 64, sizeDiff := 0, used := 12, usedDiff := 0, sections := [
        (str ".bss", { abb := str ".bss", size := 12, sizeDiff := 0, kids := [
          (str "liba.a", { abb := str "liba.a", size := 5, sizeDiff := 0, kids := [
            (str "main.c.obj", { abb := str "main.c.obj", size := 5, sizeDiff := 0, kids := [
              (str "s", { abb := str "s", size := 5, sizeDiff := 0 })] }),
            (str "z.obj", { abb := str "z.obj", size := 0, sizeDiff := 0, kids := [
              (str "s", { abb := str "s", size := 0, sizeDiff := 0 })] })] }),
          (str "libb.a", { abb := str "libb.a", size := 7, sizeDiff := 0, kids := [
            (str "main.c.obj", { abb := str "main.c.obj", size := 7, sizeDiff := 0, kids := [
              ] })] })] })] })] }

/-- **C12** (violated part) with `--unify`, object files of the same name in different archives share
an entry whose section size is only the last one's: 7 instead of 12. -/
theorem C12_unify_section_lost :
    exSameObj.WF ∧ unify exSameObj = unify (unify exSameObj) ∧
    (getObjectFilesSummary (unify exSameObj) { unify := true }).map (fun E =>
      (dget E (str "main.c.obj")).bind fun e => (dget e.types (str "DRAM")).bind fun t =>
        (dget t.sections (str ".bss")).map fun s => (e.size, t.size, s.size)) =
      .ok (some (12, 12, 7)) := by decide

example : ObjKeysInj false exMapA := by
  apply objKeysInj_of_noColon
  intro t s a o ox h
  obtain ⟨ax, ha, h⟩ := Option.bind_eq_some_iff.mp h
  obtain ⟨sx, hs, ha⟩ := Option.bind_eq_some_iff.mp ha
  obtain ⟨x, ht, hs⟩ := Option.bind_eq_some_iff.mp hs
  have key : ∀ t ∈ exMapA.memoryTypes, ∀ s ∈ t.2.sections, ∀ a ∈ s.2.kids, ∀ o ∈ a.2.kids, ':' ∉ o.1 := by
    decide
  exact key _ (mem_of_dget ht) _ (mem_of_dget hs) _ (mem_of_dget ha) _ (mem_of_dget h)

end EspSize
