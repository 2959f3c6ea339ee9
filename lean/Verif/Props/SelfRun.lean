import Verif.Spec.SelfRun
import Verif.Props.Run
import Verif.Props.TableRun
import Verif.Props.DiffTotals
import Verif.Props.Walk
import Verif.Props.Frame
import Verif.Props.UnifyDiff
import Verif.Props.Percent
/-! # C63: comparing a project with itself, all formats -/
namespace EspSize

theorem mem_dset {κ α : Type} [DecidableEq κ] {d : Dict κ α} {k : κ} {v : α} {p : κ × α} (h : p ∈ dset d k v) : p ∈ d ∨ p = (k, v) := by
  induction d with
  | nil => exact .inr (by simpa [dset] using h)
  | cons q t ih =>
    simp only [dset] at h
    split at h
    · rcases List.mem_cons.mp h with h | h
      · exact .inr h
      · exact .inl (by simp [h])
    · rcases List.mem_cons.mp h with h | h
      · exact .inl (by simp [h])
      · rcases ih h with h | h
        · exact .inl (by simp [h])
        · exact .inr h

/-! ### Maps without differences -/

theorem noDiffs_of_get {d : MemMap} (hd : d.WF) (h0 : ∀ t x, getType d t = some x → x.usedDiff = 0 ∧ (x.size ≠ 0 → x.sizeDiff = 0))
    (h1 : ∀ t s, orZero Node.sizeDiff (getSec d t s) = 0) (h2 : ∀ t s a, orZero Node.sizeDiff (getArch d t s a) = 0)
    (h3 : ∀ t s a o, orZero Node.sizeDiff (getObj d t s a o) = 0) (h4 : ∀ t s a o y, orZero Sym.sizeDiff (getSym d t s a o y) = 0) :
    NoDiffs d := by
  rintro ⟨t, x⟩ ht
  have gt : getType d t = some x := dget_of_mem hd.1 ht
  refine ⟨h0 t x gt, ?_⟩
  rintro ⟨s, sx⟩ hs
  have gs : getSec d t s = some sx := by unfold getSec; rw [gt]; exact dget_of_mem (hd.getType gt).1 hs
  refine ⟨by have := h1 t s; rwa [gs] at this, ?_⟩
  rintro ⟨a, ax⟩ ha
  have ga : getArch d t s a = some ax := by unfold getArch; rw [gs]; exact dget_of_mem (hd.getSec gs).1 ha
  refine ⟨by have := h2 t s a; rwa [ga] at this, ?_⟩
  rintro ⟨o, ox⟩ ho
  have go : getObj d t s a o = some ox := by unfold getObj; rw [ga]; exact dget_of_mem (hd.getArch ga).1 ho
  refine ⟨by have := h3 t s a o; rwa [go] at this, ?_⟩
  rintro ⟨y, yx⟩ hy
  have gy : getSym d t s a o y = some yx := by unfold getSym; rw [go]; exact dget_of_mem (hd.getObj go).1 hy
  have := h4 t s a o y
  rwa [gy] at this

theorem mem_named {α : Type} {abb : α → Str} {k : Str} {d : Dict Str α} {x : α} (h : x ∈ named abb k d) : ∃ p ∈ d, p.2 = x := by
  obtain ⟨p, hp, rfl⟩ := List.mem_map.mp h
  exact ⟨p, (List.mem_filter.mp hp).1, rfl⟩

theorem noDiffs_unify {d : MemMap} (hd : d.WF) (h : NoDiffs d) : NoDiffs (unify d) := by
  obtain ⟨_, h1, _, h2, h3, h4, h5⟩ := C04_unify_aggregates d
  have cs : ∀ t s, ∀ n ∈ chainSecs d t s, n.sizeDiff = 0 ∧ ∀ a ∈ n.kids, a.2.sizeDiff = 0 ∧ ∀ o ∈ a.2.kids, o.2.sizeDiff = 0 ∧
      ∀ y ∈ o.2.kids, y.2.sizeDiff = 0 := by
    intro t s n hn
    unfold chainSecs at hn
    split at hn
    · cases hn
    · rename_i x hx
      obtain ⟨p, hp, rfl⟩ := mem_named hn
      exact (h _ (mem_of_dget hx)).2 p hp
  have ca : ∀ t s a, ∀ n ∈ chainArchs d t s a, n.sizeDiff = 0 ∧ ∀ o ∈ n.kids, o.2.sizeDiff = 0 ∧ ∀ y ∈ o.2.kids, y.2.sizeDiff = 0 := by
    intro t s a n hn
    obtain ⟨x, hx, hn⟩ := List.mem_flatMap.mp hn
    obtain ⟨p, hp, rfl⟩ := mem_named hn
    exact (cs t s x hx).2 p hp
  have co : ∀ t s a o, ∀ n ∈ chainObjs d t s a o, n.sizeDiff = 0 ∧ ∀ y ∈ n.kids, y.2.sizeDiff = 0 := by
    intro t s a o n hn
    obtain ⟨x, hx, hn⟩ := List.mem_flatMap.mp hn
    obtain ⟨p, hp, rfl⟩ := mem_named hn
    exact (ca t s a x hx).2 p hp
  have cy : ∀ t s a o y, ∀ n ∈ chainSyms d t s a o y, n.sizeDiff = 0 := by
    intro t s a o y n hn
    obtain ⟨x, hx, hn⟩ := List.mem_flatMap.mp hn
    obtain ⟨p, hp, rfl⟩ := mem_named hn
    exact (co t s a o x hx).2 p hp
  refine noDiffs_of_get (wf_unify hd) ?_ (fun t s => ?_) (fun t s a => ?_) (fun t s a o => ?_) fun t s a o y => ?_
  · intro t x hx
    have e := h1 t
    rw [hx] at e
    cases hy : getType d t with
    | none => rw [hy] at e; cases e
    | some y =>
      rw [hy] at e
      simp only [Option.map_some, Option.some.injEq, MType.mk.injEq] at e
      have := (h _ (mem_of_dget hy)).1
      rw [e.1, e.2.1, e.2.2.2.1]
      exact this
  · rw [(h2 t s).diffEq]; exact sumBy_zero fun n hn => (cs t s n hn).1
  · rw [(h3 t s a).diffEq]; exact sumBy_zero fun n hn => (ca t s a n hn).1
  · rw [(h4 t s a o).diffEq]; exact sumBy_zero fun n hn => (co t s a o n hn).1
  · rw [(h5 t s a o y).diffEq]; exact sumBy_zero fun n hn => cy t s a o y n hn

theorem noDiffs_self {n : MemMap} (hn : n.WF) : NoDiffs (outMap (ignoreFlashSize n) n) ∧ NoDiffs (outMap n n) := by
  have hfl := C09_ignore_flash_size n
  have hS := getSec_ignoreFlash n
  have hA : ∀ t s a, getArch (ignoreFlashSize n) t s a = getArch n t s a := by
    intro t s a; unfold getArch; rw [hS]
  have hO : ∀ t s a o, getObj (ignoreFlashSize n) t s a o = getObj n t s a o := by
    intro t s a o; unfold getObj; rw [hA]
  have hY : ∀ t s a o y, getSym (ignoreFlashSize n) t s a o y = getSym n t s a o y := by
    intro t s a o y; unfold getSym; rw [hO]
  have sec : ∀ c : MemMap, (∀ t s, getSec c t s = getSec n t s) → ∀ t s, orZero Node.sizeDiff (getSec (outMap c n) t s) = 0 := by
    intro c hc t s
    rw [getSec_outMap hn, hc]
    cases getSec n t s <;> first | rfl | exact Int.sub_self _
  refine ⟨noDiffs_of_get (wf_outMap (wf_ignoreFlash hn) hn) ?_ (sec _ hS) ?_ ?_ ?_, noDiffs_of_get (wf_outMap hn hn) ?_ (sec _ fun _ _ => rfl) ?_ ?_ ?_⟩
  · intro t x hx
    rw [getType_outMap hn] at hx
    by_cases ht : IsFlash t
    · rw [hfl.2.2.1 t ht] at hx
      cases hy : getType n t with
      | none => rw [hy] at hx; cases hx
      | some y =>
        rw [hy] at hx
        simp only [Option.map_some, comb, Option.some.injEq] at hx
        subst hx
        simp [outMType, orZero]
    · rw [hfl.2.2.2 t ht] at hx
      cases hy : getType n t with
      | none => rw [hy] at hx; cases hx
      | some y =>
        rw [hy] at hx
        simp only [comb, Option.some.injEq] at hx
        subst hx
        simp [outMType, orZero]
  · intro t s a
    rw [getArch_outMap hn, hA]
    cases getArch n t s a <;> first | rfl | exact Int.sub_self _
  · intro t s a o
    rw [getObj_outMap hn, hO]
    cases getObj n t s a o <;> first | rfl | exact Int.sub_self _
  · intro t s a o y
    rw [getSym_outMap hn, hY]
    cases getSym n t s a o y <;> first | rfl | exact Int.sub_self _
  · intro t x hx
    rw [getType_outMap hn] at hx
    cases hy : getType n t with
    | none => rw [hy] at hx; cases hx
    | some y =>
      rw [hy] at hx
      simp only [comb, Option.some.injEq] at hx
      subst hx
      simp [outMType, orZero]
  · intro t s a
    rw [getArch_outMap hn]
    cases getArch n t s a <;> first | rfl | exact Int.sub_self _
  · intro t s a o
    rw [getObj_outMap hn]
    cases getObj n t s a o <;> first | rfl | exact Int.sub_self _
  · intro t s a o y
    rw [getSym_outMap hn]
    cases getSym n t s a o y <;> first | rfl | exact Int.sub_self _

theorem noDiffs_prepare {args : Args} {m d : MemMap} (hm : m.WF) (hd : truthy args.diff = true) (h : prepare args m m = .ok d) :
    NoDiffs d ∧ d.WF ∧ SameProject d := by
  have hn : (if args.showUnused = true then m else removeUnused m).WF := by
    split
    · exact hm
    · exact wf_removeUnused hm
  unfold prepare at h
  simp only [hd, if_true, bind, Except.bind] at h
  generalize (if args.showUnused = true then m else removeUnused m) = n at hn h
  have key : ∃ e : MemMap, NoDiffs e ∧ e.WF ∧ SameProject e ∧ d = if args.unify = true then unify e else e := by
    cases hf : args.useFlashSize with
    | true =>
      simp only [hf, if_true] at h
      rw [diff_eq hn hn] at h
      cases h
      exact ⟨_, (noDiffs_self hn).2, wf_outMap hn hn, ⟨rfl, rfl, Int.sub_self _⟩, rfl⟩
    | false =>
      simp only [hf, Bool.false_eq_true, if_false] at h
      rw [ignoreFlash_idem, diff_eq (wf_ignoreFlash hn) hn] at h
      cases h
      exact ⟨_, (noDiffs_self hn).1, wf_outMap (wf_ignoreFlash hn) hn, ⟨rfl, rfl, Int.sub_self _⟩, rfl⟩
  obtain ⟨e, h1, h2, h3, rfl⟩ := key
  split
  · exact ⟨noDiffs_unify h2 h1, wf_unify h2, h3⟩
  · exact ⟨h1, h2, h3⟩

/-! ### Listings -/

theorem noDiffs_bump {e e' : Entry} {r : Rec} (he : e.NoDiffs) (hr : r.sizeDiff = 0) (h : bump e r = .ok e') : e'.NoDiffs := by
  unfold bump at h
  split at h
  · cases h
  · rename_i st hst
    split at h
    · cases h
    · rename_i ss hss
      cases h
      have h1 := he.2 _ (mem_of_dget hst)
      refine ⟨by simp [he.1, hr], ?_⟩
      intro t ht
      rcases mem_dset ht with ht | rfl
      · exact he.2 t ht
      · refine ⟨by show st.sizeDiff + r.sizeDiff = 0; rw [hr, show st.sizeDiff = 0 from h1.1]; rfl, ?_⟩
        intro s hs
        rcases mem_dset hs with hs | rfl
        · exact h1.2 s hs
        · exact hr

theorem noDiffs_summarize {mt : Dict Str SType} (hmt : ∀ t ∈ mt, t.2.sizeDiff = 0 ∧ ∀ s ∈ t.2.sections, s.2.sizeDiff = 0) (recs : List Rec)
    (hr : ∀ r ∈ recs, r.sizeDiff = 0) (acc E : Dict Str Entry) (ha : ∀ p ∈ acc, p.2.NoDiffs) (h : recs.foldlM (addRec mt) acc = .ok E) :
    ∀ p ∈ E, p.2.NoDiffs := by
  induction recs generalizing acc with
  | nil => cases h; exact ha
  | cons r t ih =>
    rw [List.foldlM_cons] at h
    obtain ⟨acc', h1, h2⟩ := bind_ok h
    refine ih (fun x hx => hr x (by simp [hx])) acc' ?_ h2
    unfold addRec at h1
    obtain ⟨e', h3, h4⟩ := bind_ok h1
    cases h4
    intro p hp
    rcases mem_dset hp with hp | rfl
    · exact ha p hp
    · refine noDiffs_bump ?_ (hr r (by simp)) h3
      split
      · exact ⟨rfl, hmt⟩
      · rename_i e he
        exact ha _ (mem_of_dget he)

theorem noDiffs_types (m : MemMap) : ∀ t ∈ summaryTypes m, t.2.sizeDiff = 0 ∧ ∀ s ∈ t.2.sections, s.2.sizeDiff = 0 := by
  intro t ht
  obtain ⟨x, _, rfl⟩ := List.mem_map.mp ht
  refine ⟨rfl, ?_⟩
  intro s hs
  obtain ⟨y, _, rfl⟩ := List.mem_map.mp hs
  rfl

theorem unchanged_kept {E : Dict Str Entry} {args : Args} (hd : truthy args.diff = true) (h : ∀ p ∈ E, p.2.NoDiffs) :
    (∀ p ∈ remSummaryUnchanged E args, p.2.NoDiffs) ∧ (args.showUnchanged = false → remSummaryUnchanged E args = []) := by
  unfold remSummaryUnchanged
  rw [hd]
  cases args.showUnchanged with
  | true => exact ⟨h, fun hx => by cases hx⟩
  | false =>
    refine ⟨fun p hp => h p (List.mem_filter.mp hp).1, fun _ => ?_⟩
    simp only [Bool.not_true, Bool.or_self, Bool.false_eq_true, if_false]
    refine List.filter_eq_nil_iff.mpr fun p hp => ?_
    simp [(h p hp).1]

/-- A summary of a map without differences. -/
def UnchangedEntries (args : Args) (E : Dict Str Entry) : Prop := (∀ p ∈ E, p.2.NoDiffs) ∧ (args.showUnchanged = false → E = [])

theorem unchanged_archives {m : MemMap} (hm : m.WF) (h : NoDiffs m) {args : Args} (hd : truthy args.diff = true) {E : Dict Str Entry}
    (hE : getArchivesSummary m args = .ok E) : UnchangedEntries args E := by
  unfold getArchivesSummary at hE
  obtain ⟨e, h1, h2⟩ := bind_ok hE
  cases h2
  refine unchanged_kept hd (noDiffs_summarize (noDiffs_types m) _ ?_ [] e (by simp) h1)
  intro r hr
  obtain ⟨i, hi, hr⟩ := List.mem_filterMap.mp hr
  obtain ⟨t, s, a, x, sx, ax, gt, gs, ga, rfl⟩ := ((C54_walk_mem m hm i).2.2.1).mp hi
  simp only [archRec, Option.some.injEq] at hr
  subst hr
  unfold getSec at gs; rw [gt] at gs
  unfold getArch getSec at ga; rw [gt] at ga
  simp only [Option.bind_some] at gs ga
  rw [gs] at ga
  exact (((h _ (mem_of_dget gt)).2 _ (mem_of_dget gs)).2 _ (mem_of_dget ga)).1

theorem get_nodiff {m : MemMap} (h : NoDiffs m) {t s a : Str} {ax : Arch} (ga : getArch m t s a = some ax) :
    ax.sizeDiff = 0 ∧ ∀ o ∈ ax.kids, o.2.sizeDiff = 0 ∧ ∀ y ∈ o.2.kids, y.2.sizeDiff = 0 := by
  unfold getArch getSec at ga
  obtain ⟨sx, gs, ga⟩ := Option.bind_eq_some_iff.mp ga
  obtain ⟨x, gt, gs⟩ := Option.bind_eq_some_iff.mp gs
  exact ((h _ (mem_of_dget gt)).2 _ (mem_of_dget gs)).2 _ (mem_of_dget ga)

theorem unchanged_files {m : MemMap} (hm : m.WF) (h : NoDiffs m) {args : Args} (hd : truthy args.diff = true) {E : Dict Str Entry}
    (hE : getObjectFilesSummary m args = .ok E) : UnchangedEntries args E := by
  unfold getObjectFilesSummary at hE
  obtain ⟨e, h1, h2⟩ := bind_ok hE
  cases h2
  refine unchanged_kept hd (noDiffs_summarize (noDiffs_types m) _ ?_ [] e (by simp) h1)
  intro r hr
  obtain ⟨i, hi, hr⟩ := List.mem_filterMap.mp hr
  obtain ⟨t, s, a, o, x, sx, ax, ox, gt, gs, ga, go, rfl⟩ := ((C54_walk_mem m hm i).2.2.2.1).mp hi
  simp only [objRec, Option.some.injEq] at hr
  subst hr
  unfold getObj at go
  rw [ga] at go
  exact ((get_nodiff h ga).2 _ (mem_of_dget go)).1

theorem unchanged_symbols {m : MemMap} (hm : m.WF) (h : NoDiffs m) {args : Args} (hd : truthy args.diff = true) {E : Dict Str Entry}
    (hE : getSymbolsSummary m args = .ok E) : UnchangedEntries args E := by
  unfold getSymbolsSummary at hE
  obtain ⟨e, h1, h2⟩ := bind_ok hE
  split at h2
  · cases h2
  · cases h2
    refine unchanged_kept hd (noDiffs_summarize (noDiffs_types m) _ ?_ [] e (by simp) h1)
    intro r hr
    obtain ⟨i, hi, hr⟩ := List.mem_filterMap.mp hr
    obtain ⟨t, s, a, o, y, x, sx, ax, ox, yx, gt, gs, ga, go, gy, rfl⟩ := ((C54_walk_mem m hm i).2.2.2.2 _ (by unfold FullDepth; decide)).mp hi
    simp only [symRec] at hr
    split at hr
    · cases hr
    · cases hr
      unfold getSym at gy
      rw [go] at gy
      unfold getObj at go
      rw [ga] at go
      exact ((get_nodiff h ga).2 _ (mem_of_dget go)).2 _ (mem_of_dget gy)

theorem unchanged_diff (F : FloatOps) {args : Args} (hd : truthy args.diff = true) (z : Int) : UnchangedCell F (colorDiff z 0 (truthy args.diff)) :=
  .inr (.inl ⟨z, by rw [hd]; rfl⟩)

theorem unchanged_size (F : FloatOps) {args : Args} (hd : truthy args.diff = true) (z : Int) : UnchangedCell F (colorSize z 0 (truthy args.diff)) :=
  .inr (.inl ⟨z, by rw [hd]; rfl⟩)

theorem unchanged_detail (F : FloatOps) {args : Args} (hd : truthy args.diff = true) {title : Str} {E : Dict Str Entry} {t : Table}
    (hE : UnchangedEntries args E) (h : detailTable title (getSummaryFiltered Entry.abb E args) args = .ok t) : UnchangedTable F args t := by
  have hsub : ∀ p ∈ getSummaryFiltered Entry.abb E args, p ∈ E := by
    intro p hp
    unfold getSummaryFiltered at hp
    split at hp
    · exact hp
    · exact (List.mem_filter.mp hp).1
  refine ⟨fun hs => ?_, ?_⟩
  · have : getSummaryFiltered Entry.abb E args = [] := by
      rw [List.eq_nil_iff_forall_not_mem]
      intro p hp
      have := hsub p hp
      rw [hE.2 hs] at this
      cases this
    rw [this] at h
    rcases detailTable_nil title args with h' | h' <;> rw [h] at h' <;> cases h'
    rfl
  · unfold detailTable at h
    obtain ⟨rows, h1, h2⟩ := bind_ok h
    cases h2
    unfold getTableSorted at h1
    obtain ⟨n, h3, h4⟩ := bind_ok h1
    obtain ⟨out, h5, h6⟩ := bind_ok h4
    cases h6
    intro r hr c hc
    refine ((fold_addRow (P := UnchangedCell F) (.inl rfl) _ ?_ _ (by simp)).1 r hr).2 c hc
    intro r hr
    obtain ⟨q, hq, rfl⟩ := List.mem_map.mp hr
    refine ⟨by simp, fun c hc => ?_⟩
    obtain ⟨p, hp, rfl⟩ := List.mem_map.mp (sortRows_mem h5 q hq)
    have hn := hE.1 p (hsub p hp)
    simp only [List.tail_cons, List.mem_map, entryRow, entryCols] at hc
    obtain ⟨k, hk, rfl⟩ := hc
    rcases List.mem_cons.mp hk with rfl | hk
    · unfold tcol; rw [hn.1]; exact unchanged_diff F hd _
    · obtain ⟨x, hx, hk⟩ := List.mem_flatMap.mp hk
      rcases List.mem_cons.mp hk with rfl | hk
      · unfold tcol; rw [(hn.2 x hx).1]; exact unchanged_diff F hd _
      · obtain ⟨s, hs, rfl⟩ := List.mem_map.mp hk
        unfold tcol; rw [(hn.2 x hx).2 s hs]; exact unchanged_diff F hd _

/-! ### Trimmed maps -/

theorem noDiffs_trim {m : MemMap} {args : Args} (h : NoDiffs m) : NoDiffs (trim m args) := by
  intro t ht
  obtain ⟨t', ht', rfl⟩ := List.mem_map.mp ht
  obtain ⟨h1, h2⟩ := h t' (List.mem_filter.mp ht').1
  refine ⟨h1, ?_⟩
  intro s hs
  obtain ⟨s', hs', rfl⟩ := List.mem_map.mp hs
  obtain ⟨h3, h4⟩ := h2 s' (List.mem_filter.mp hs').1
  refine ⟨h3, ?_⟩
  intro a ha
  obtain ⟨a', ha', rfl⟩ := List.mem_map.mp ha
  have ha'' : a' ∈ s'.2.kids := by
    split at ha' <;> exact (List.mem_filter.mp ha').1
  obtain ⟨h5, h6⟩ := h4 a' ha''
  refine ⟨by simp only [trimArch]; split <;> exact h5, ?_⟩
  intro o ho
  simp only [trimArch] at ho
  split at ho
  · cases ho
  · obtain ⟨o', ho', rfl⟩ := List.mem_map.mp ho
    obtain ⟨h7, h8⟩ := h6 o' (List.mem_filter.mp ho').1
    refine ⟨by simp only [trimObj]; split <;> exact h7, ?_⟩
    intro y hy
    simp only [trimObj] at hy
    split at hy
    · cases hy
    · exact h8 y (List.mem_filter.mp hy).1

theorem trim_unchanged {m : MemMap} {args : Args} (hd : truthy args.diff = true) (hs : args.showUnchanged = false) (h : NoDiffs m) :
    (trim m args).memoryTypes = [] := by
  unfold trim
  have : dfilter (fun _ v => changed args v.usedDiff) m.memoryTypes = [] := by
    refine List.filter_eq_nil_iff.mpr fun t ht => ?_
    simp [changed, hd, hs, (h t ht).1.1]
  rw [this]
  rfl

theorem mem_sortDict {α : Type} {key : α → Int} {rev : Bool} {d : Dict Str α} {p : Str × α} (h : p ∈ sortDict key rev d) : p ∈ d :=
  (sortedBy_stable _ rev d).perm.mem_iff.mp h

theorem noDiffs_sort {m : MemMap} {args : Args} (h : NoDiffs m) : NoDiffs (sort m args) := by
  intro t ht
  obtain ⟨t', ht', rfl⟩ := List.mem_map.mp ht
  obtain ⟨h1, h2⟩ := h t' (mem_sortDict ht')
  refine ⟨h1, ?_⟩
  intro s hs
  obtain ⟨s', hs', rfl⟩ := List.mem_map.mp hs
  obtain ⟨h3, h4⟩ := h2 s' (mem_sortDict hs')
  refine ⟨h3, ?_⟩
  intro a ha
  obtain ⟨a', ha', rfl⟩ := List.mem_map.mp ha
  obtain ⟨h5, h6⟩ := h4 a' (mem_sortDict ha')
  refine ⟨h5, ?_⟩
  intro o ho
  obtain ⟨o', ho', rfl⟩ := List.mem_map.mp ho
  obtain ⟨h7, h8⟩ := h6 o' (mem_sortDict ho')
  exact ⟨h7, fun y hy => h8 y (mem_sortDict hy)⟩

theorem unchanged_pct {F : FloatOps} (hF : F.rnd 0 = 0 ∧ F.round2 0 = 0) {args : Args} (hd : truthy args.diff = true) (used size sizeDiff : Int)
    (hz : size ≠ 0) (hs : sizeDiff = 0) : UnchangedCell F (colorPct F (pctOf F used size) (pctDiffOf F used 0 size sizeDiff) (truthy args.diff)) := by
  have : pctDiffOf F used 0 size sizeDiff = 0 := by
    unfold pctDiffOf
    subst hs
    rw [if_pos (by simpa using hz)]
    simp only [Int.sub_zero]
    unfold pctOf
    rw [if_pos hz, Rat.sub_self]
    exact hF.1
  refine .inr (.inr ⟨pctOf F used size, ?_⟩)
  rw [this, hd]
  unfold colorPct
  rw [hF.2]
  simp

theorem unchanged_summary {F : FloatOps} (hF : F.rnd 0 = 0 ∧ F.round2 0 = 0) {m : MemMap} {args : Args} (hd : truthy args.diff = true)
    (h : NoDiffs m) {t : Table} (ht : getSummaryTable F m args = .ok t) : UnchangedTable F args t := by
  unfold getSummaryTable at ht
  obtain ⟨n, _, ht⟩ := bind_ok ht
  split at ht
  · cases ht
  · rename_i k _
    cases ht
    have hm := noDiffs_trim (args := args) h
    refine ⟨fun hs => ?_, ?_⟩
    · have : summaryRows F args k (trim m args) = [] := by
        unfold summaryRows
        rw [trim_unchanged hd hs h]
        rfl
      rw [this]
      rfl
    · intro r hr c hc
      refine ((fold_addRow (P := UnchangedCell F) (.inl rfl) _ ?_ _ (by simp)).1 r hr).2 c hc
      intro r hr
      obtain ⟨p, hp, hr⟩ := List.mem_flatMap.mp hr
      obtain ⟨⟨h1, h2⟩, h3⟩ := hm p (mem_sortDict hp)
      rcases List.mem_cons.mp hr with rfl | hr
      · refine ⟨by simp [typeRow], fun c hc => ?_⟩
        simp only [typeRow, List.tail_cons] at hc
        rcases List.mem_cons.mp hc with rfl | hc
        · rw [h1]; exact unchanged_diff F hd _
        · split at hc
          · rename_i hz
            simp only [List.mem_cons, List.not_mem_nil, or_false] at hc
            rcases hc with rfl | rfl | rfl
            · rw [h1]; exact unchanged_pct hF hd _ _ _ hz (h2 hz)
            · rw [h1, h2 hz]; exact unchanged_size F hd _
            · rw [h2 hz]; exact unchanged_size F hd _
          · exact .inl (by simpa using hc)
      · obtain ⟨s, hs, rfl⟩ := List.mem_map.mp hr
        refine ⟨by simp [secRow], fun c hc => ?_⟩
        have h4 := (h3 s (mem_sortDict hs)).1
        simp only [secRow, List.tail_cons, List.mem_cons, List.not_mem_nil, or_false] at hc
        rcases hc with rfl | rfl | rfl | rfl
        · rw [h4]; exact unchanged_diff F hd _
        · split
          · rename_i hz
            rw [h4]; exact unchanged_pct hF hd _ _ _ hz (h2 hz)
          · exact .inl rfl
        · exact .inl rfl
        · exact .inl rfl

/-! ### Runs -/

theorem unchanged_select {R : RunIn} (hF : R.F.rnd 0 = 0 ∧ R.F.round2 0 = 0) {crt : Option Crt} {elf : Option (List ElfSym)} {args : Args} {m : MemMap}
    (hm : m.WF) (h : NoDiffs m) (hd : truthy args.diff = true) (hdep : args.archiveDependencies = false) {t : Table}
    (ht : selectTable R crt elf args m = .ok t) : UnchangedTable R.F args t := by
  unfold selectTable at ht
  rw [hdep] at ht
  split at ht
  · obtain ⟨E, h1, h2⟩ := bind_ok ht
    exact unchanged_detail R.F hd (unchanged_archives hm h hd h1) h2
  · split at ht
    · obtain ⟨E, h1, h2⟩ := bind_ok ht
      exact unchanged_detail R.F hd (unchanged_symbols hm h hd h1) h2
    · simp only [Bool.false_eq_true, if_false] at ht
      split at ht
      · obtain ⟨E, h1, h2⟩ := bind_ok ht
        exact unchanged_detail R.F hd (unchanged_files hm h hd h1) h2
      · exact unchanged_summary hF hd h ht

theorem noDiffs_sorted {E : Dict Str Entry} {args : Args} (h : UnchangedEntries args E) :
    (args.showUnchanged = false → getSummarySorted E args = []) ∧ ∀ p ∈ getSummarySorted E args, p.2.NoDiffs := by
  have hmem : ∀ p ∈ getSummarySorted E args, ∃ q ∈ E, p.2 = sortEntry args q.2 := by
    intro p hp
    obtain ⟨q, hq, rfl⟩ := List.mem_map.mp hp
    exact ⟨q, mem_sortDict hq, rfl⟩
  refine ⟨fun hs => ?_, fun p hp => ?_⟩
  · rw [List.eq_nil_iff_forall_not_mem]
    intro p hp
    obtain ⟨q, hq, _⟩ := hmem p hp
    rw [h.2 hs] at hq
    cases hq
  · obtain ⟨q, hq, e⟩ := hmem p hp
    rw [e]
    obtain ⟨h1, h2⟩ := h.1 q hq
    refine ⟨h1, ?_⟩
    intro t ht
    obtain ⟨t', ht', rfl⟩ := List.mem_map.mp ht
    obtain ⟨h3, h4⟩ := h2 t' (mem_sortDict ht')
    exact ⟨h3, fun s hs => h4 s (mem_sortDict hs)⟩

theorem unchanged_json {R : RunIn} {crt : Option Crt} {elf : Option (List ElfSym)} {args : Args} {m : MemMap} {rep : Report}
    (hm : m.WF) (h : NoDiffs m) (hd : truthy args.diff = true) (hdep : args.archiveDependencies = false)
    (ht : showJson R crt elf args m = .ok rep) : ShowsNoDiffs R.F args rep := by
  unfold showJson at ht
  rw [hdep] at ht
  split at ht
  · obtain ⟨E, h1, h2⟩ := bind_ok ht
    cases h2
    exact noDiffs_sorted (unchanged_archives hm h hd h1)
  · split at ht
    · obtain ⟨E, h1, h2⟩ := bind_ok ht
      cases h2
      exact noDiffs_sorted (unchanged_symbols hm h hd h1)
    · simp only [Bool.false_eq_true, if_false] at ht
      split at ht
      · obtain ⟨E, h1, h2⟩ := bind_ok ht
        cases h2
        exact noDiffs_sorted (unchanged_files hm h hd h1)
      · cases ht
        trivial

theorem unchanged_show {R : RunIn} (hF : R.F.rnd 0 = 0 ∧ R.F.round2 0 = 0) {crt : Option Crt} {elf : Option (List ElfSym)} {args : Args} {m : MemMap}
    {rep : Report} (hm : m.WF) (hp : SameProject m) (h : NoDiffs m) (hd : truthy args.diff = true) (hdep : args.archiveDependencies = false)
    (ht : showReport R crt elf args m = .ok rep) : ShowsNoDiffs R.F args rep := by
  unfold showReport at ht
  rw [hdep] at ht
  simp only [Bool.false_eq_true, if_false] at ht
  split at ht
  · obtain ⟨t, h1, h2⟩ := bind_ok ht
    cases h2
    exact unchanged_select hF hm h hd hdep h1
  · split at ht
    · exact unchanged_json hm h hd hdep ht
    · split at ht
      · cases ht
        exact ⟨hp, h⟩
      · split at ht
        · obtain ⟨t, h1, h2⟩ := bind_ok ht
          cases h2
          exact ⟨t, rfl, unchanged_select hF hm h hd hdep h1⟩
        · split at ht
          · cases ht
            refine ⟨hp, noDiffs_sort (noDiffs_trim h), fun hs => ?_⟩
            unfold sort
            rw [trim_unchanged hd hs h]
            rfl
          · split at ht
            · obtain ⟨l, _, h2⟩ := bind_ok ht
              cases h2
              trivial
            · cases ht
              trivial

/-- **C63** a run that compares a project with itself shows no difference, in any format and listing and with all options: a table, CSV
or JSON listing has no rows, or with `--show-unchanged` only differences that are zero. Missing: the difference of a total that is
ignored (C63_self_compare_nonzero). -/
theorem C63_no_differences_partial (R : RunIn) (hF : R.F.rnd 0 = 0 ∧ R.F.round2 0 = 0) (input : Str) (args : Args) (rep : Report)
    (hdiff : args.diff = some input) (hne : input ≠ []) (hdep : args.archiveDependencies = false)
    (h : makeReport R input args = some (.ok rep)) : ShowsNoDiffs R.F args rep := by
  obtain ⟨mf, elf, m, ref, d, h1, _, h3, h4, h5, h6⟩ := makeReport_ok h
  obtain ⟨nb, heff⟩ := eff_abbreviates args (.inl hdep)
  rw [heff] at h3 h4 h5 h6
  rw [← getMap_self (e := none) h1] at h3
  have hr : ref = m := by
    unfold referenceMap at h4
    cases input with
    | nil => exact absurd rfl hne
    | cons c t =>
      simp only [hdiff] at h3 h4
      rw [h3] at h4
      cases h4; rfl
  subst hr
  have hm : ref.WF := by
    obtain ⟨_, _, _, _, _, _, hw, _⟩ := C58_accounted _ _ _ _ _ _ _ _ h3
    exact hw
  have hd : truthy args.diff = true := by rw [hdiff]; exact truthy_some hne
  obtain ⟨hn, hw, hp⟩ := noDiffs_prepare (args := { args with noAbbrev := nb, abbrev_ := abbreviates args }) hm hd h5
  have := unchanged_show hF (args := { args with noAbbrev := nb, abbrev_ := abbreviates args }) hw hp hn hd hdep h6
  cases rep <;> exact this

/-- The hypothesis about rounding holds of Python's numbers. -/
example : pyFloat.rnd 0 = 0 ∧ pyFloat.round2 0 = 0 := by decide +kernel

/-- **C63** (violated) the comparison fails, other than the report of the project, if rows are sorted by the name of a section or of a
memory type: the columns are those of the first row, and there is none. -/
theorem C63_sort_fails :
    (exTable (makeReport (exRun exWorld) (str "/b/x.map") { archives := true, sort := str "IRAM" })).isSome = true ∧
    makeReport (exRun exWorld) (str "/b/x.map") { archives := true, sort := str "IRAM", diff := some (str "/b/x.map") } = some (.error .exit) := by
  decide +kernel

example : exTable (makeReport (exRun exWorld) (str "/b/x.map") { archives := true, unify := true, diff := some (str "/b/x.map") }) =
    some [[str "Archive File", str "Total Size"]] := by decide +kernel

example : ((exTable (makeReport (exRun exWorld) (str "/b/x.map") { files := true, showUnchanged := true, diff := some (str "/b/x.map") })).getD []).length > 1 := by
  decide +kernel

end EspSize
