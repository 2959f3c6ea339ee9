import Verif.Spec.SummaryCells
import Verif.Props.SymSummary
/-! # C11, C12, C13: the name and every cell of every entry of the three summaries -/
namespace EspSize

theorem find_onK {recs : List Rec} {k : Str} (h : recs.any (onK k) = true) :
    ∃ r ∈ recs, r.key = k ∧ ((recs.find? (onK k)).map Rec.abb).getD [] = r.abb := by
  cases hf : recs.find? (onK k) with
  | none =>
    rw [List.find?_eq_none] at hf
    obtain ⟨r, hr, hk⟩ := List.any_eq_true.mp h
    exact absurd hk (hf r hr)
  | some r =>
    exact ⟨r, List.mem_of_find?_eq_some hf, by simpa [onK] using List.find?_some hf, rfl⟩

/-- Everything about an entry, in terms of the records. -/
theorem entry_cells {m : MemMap} {recs : List Rec} {E : Dict Str Entry}
    (inv : SumInv (summaryTypes m) recs E) {k : Str} {e : Entry} (h : dget E k = some e) :
    (∃ r ∈ recs, r.key = k ∧ e.abb = r.abb) ∧
    e.size = sumIf (onK k) Rec.size recs ∧ e.sizeDiff = sumIf (onK k) Rec.sizeDiff recs ∧
    (∀ t st, dget e.types t = some st →
      st.size = sumIf (onKT k t) Rec.size recs ∧ st.sizeDiff = sumIf (onKT k t) Rec.sizeDiff recs ∧
      ∀ s ss, dget st.sections s = some ss → (getSec m t s).map Node.abb = some ss.abb ∧
        (NoClash recs → ss.size = sumIf (onKTS k t s) Rec.size recs ∧
          ss.sizeDiff = sumIf (onKTS k t s) Rec.sizeDiff recs)) := by
  rw [inv.look k] at h
  split at h
  · rename_i ha
    cases h
    refine ⟨find_onK ha, rfl, rfl, ?_⟩
    intro t st ht
    obtain ⟨x, hx, rfl⟩ := entryOf_type ht
    refine ⟨rfl, rfl, ?_⟩
    intro s ss hs
    simp only [dget_dmap] at hs
    cases hsx : dget x.sections s with
    | none => rw [hsx] at hs; cases hs
    | some sx =>
      rw [hsx] at hs
      cases hs
      refine ⟨by simp [getSec, hx, hsx], fun hc => ⟨?_, ?_⟩⟩ <;>
        exact lastOr_eq_sumIf _ _ _ (hc.pair k t s)
  · cases h

theorem sumIf_archs (m : MemMap) (P : Rec → Bool) (f : Rec → Int) :
    sumIf P f ((walk m (str "archives")).filterMap archRec) = sumArchs m fun t s a =>
      sumIf P f [{ key := a.1, abb := a.2.abb, type := t, sec := s, size := a.2.size, sizeDiff := a.2.sizeDiff }] := by
  rw [archRecs_eq]
  unfold sumIf sumArchs
  simp only [sumBy_flatMap, sumBy_map]
  simp [sumBy]

theorem sumIf_objs (m : MemMap) (u : Bool) (P : Rec → Bool) (f : Rec → Int) :
    sumIf P f ((walk m (str "objects")).filterMap (objRec u)) = sumObjs m fun t s a o =>
      sumIf P f [{ key := objKey u a o, abb := basename o.1, type := t, sec := s, size := o.2.size,
                   sizeDiff := o.2.sizeDiff }] := by
  have n1 : str "objects" ≠ str "types" := by decide
  have n2 : str "objects" ≠ str "sections" := by decide
  have n3 : str "objects" ≠ str "archives" := by decide
  unfold walk walkType walkSec walkArch walkObj sumIf sumObjs sumArchs
  simp only [if_neg n1, if_neg n2, if_neg n3, if_true, List.filterMap_flatMap, sumBy_flatMap]
  simp [objRec, sumBy, objKey, join]

theorem sumIf_syms (m : MemMap) (u : Bool) (d : Option Str) (P : Rec → Bool) (f : Rec → Int) :
    sumIf P f ((walk m (str "all")).filterMap (symRec u d)) = sumSyms m fun t s a o y =>
      if some a.2.abb = d then
        sumIf P f [{ key := symKey u a o y, abb := y.1, type := t, sec := s, size := y.2.size,
                     sizeDiff := y.2.sizeDiff }]
      else 0 := by
  have n1 : str "all" ≠ str "types" := by decide
  have n2 : str "all" ≠ str "sections" := by decide
  have n3 : str "all" ≠ str "archives" := by decide
  have n4 : str "all" ≠ str "objects" := by decide
  unfold walk walkType walkSec walkArch walkObj sumIf sumSyms sumObjs sumArchs
  simp only [if_neg n1, if_neg n2, if_neg n3, if_neg n4, List.filterMap_flatMap, sumBy_flatMap]
  congr 1; funext t; congr 1; funext s; congr 1; funext a; congr 1; funext o
  induction o.2.kids with
  | nil => rfl
  | cons y ys ih =>
    by_cases e : some a.2.abb = d
    · simp only [List.map_cons, List.filterMap_cons, symRec, e, ne_eq, not_true_eq_false, if_false, sumBy,
        if_true, symKey, join] at ih ⊢
      rw [ih]
      simp [List.append_assoc]
    · simp only [List.map_cons, List.filterMap_cons, symRec, e, ne_eq, not_false_eq_true, if_true, sumBy,
        if_false] at ih ⊢
      rw [ih]; simp

theorem onKT_iff (k t : Str) (r : Rec) : (onKT k t r = true) = (r.key = k ∧ r.type = t) := by
  simp [onKT]

theorem onKTS_iff (k t s : Str) (r : Rec) : (onKTS k t s r = true) = (r.key = k ∧ r.type = t ∧ r.sec = s) := by
  simp [onKTS, and_assoc]

theorem onK_iff (k : Str) (r : Rec) : (onK k r = true) = (r.key = k) := by
  simp [onK]

/-- **C11** the abbreviated names in the archive report. -/
theorem C11_names (m : MemMap) (hm : m.WF) (args : Args) {R : Dict Str Entry}
    (h : getArchivesSummary m args = .ok R) {k : Str} {e : Entry} (he : dget R k = some e) :
    (∃ t s ax, getArch m t s k = some ax ∧ e.abb = ax.abb) ∧
    ∀ tn st sn ss, dget e.types tn = some st → dget st.sections sn = some ss →
      (getSec m tn sn).map Node.abb = some ss.abb := by
  obtain ⟨E, hE, inv⟩ := summarize_inv (mtWF_summaryTypes hm) _ (archRecs_ok hm)
  have hR : R = remSummaryUnchanged E args := by
    unfold getArchivesSummary at h
    simp only [hE, bind, Except.bind, Except.ok.injEq] at h
    exact h.symm
  subst hR
  have he := ((remSummaryUnchanged_spec args E inv.nodup k e).mp he).1
  obtain ⟨⟨r, hr, hk, ha⟩, _, _, hT⟩ := entry_cells inv he
  refine ⟨?_, fun tn st sn ss h1 h2 => ((hT tn st h1).2.2 sn ss h2).1⟩
  obtain ⟨i, hi, hr⟩ := List.mem_filterMap.mp hr
  obtain ⟨t, s, a, x, sx, ax, _, _, hax, rfl⟩ := ((C54_walk_mem m hm i).2.2.1).mp hi
  simp only [archRec, Option.some.injEq] at hr
  subst hr
  subst hk
  exact ⟨t, s, ax, hax, ha⟩

/-- **C12** every entry of the file report: its name, its size, its size per memory type and, when no
two files of one section share a key, its size per section. -/
theorem C12_entries (m : MemMap) (hm : m.WF) (args : Args) {R : Dict Str Entry}
    (h : getObjectFilesSummary m args = .ok R) {k : Str} {e : Entry} (he : dget R k = some e) :
    (∃ t s a o ax ox, getArch m t s a = some ax ∧ getObj m t s a o = some ox ∧
      objKey args.unify (a, ax) (o, ox) = k ∧ e.abb = basename o) ∧
    e.size = sumObjs m (fun _ _ a o => if objKey args.unify a o = k then o.2.size else 0) ∧
    e.sizeDiff = sumObjs m (fun _ _ a o => if objKey args.unify a o = k then o.2.sizeDiff else 0) ∧
    ∀ tn st, dget e.types tn = some st →
      st.size = sumObjs m (fun t _ a o => if objKey args.unify a o = k ∧ t = tn then o.2.size else 0) ∧
      st.sizeDiff = sumObjs m (fun t _ a o => if objKey args.unify a o = k ∧ t = tn then o.2.sizeDiff else 0) ∧
      ∀ sn ss, dget st.sections sn = some ss → (getSec m tn sn).map Node.abb = some ss.abb ∧
        (ObjKeysInj args.unify m →
          ss.size = sumObjs m (fun t s a o => if objKey args.unify a o = k ∧ t = tn ∧ s = sn then o.2.size else 0) ∧
          ss.sizeDiff = sumObjs m
            (fun t s a o => if objKey args.unify a o = k ∧ t = tn ∧ s = sn then o.2.sizeDiff else 0)) := by
  obtain ⟨E, hE, inv⟩ := summarize_inv (mtWF_summaryTypes hm) _ (objRecs_ok hm args.unify)
  have hR : R = remSummaryUnchanged E args := by
    unfold getObjectFilesSummary at h
    simp only [hE, bind, Except.bind, Except.ok.injEq] at h
    exact h.symm
  subst hR
  have he := ((remSummaryUnchanged_spec args E inv.nodup k e).mp he).1
  obtain ⟨⟨r, hr, hk, ha⟩, h1, h2, hT⟩ := entry_cells inv he
  simp only [sumIf_objs, sumIf_singleton, onK_iff, onKT_iff, onKTS_iff] at h1 h2 hT
  refine ⟨?_, h1, h2, fun tn st hst => ⟨(hT tn st hst).1, (hT tn st hst).2.1, fun sn ss hss =>
    ⟨((hT tn st hst).2.2 sn ss hss).1, fun hinj => ((hT tn st hst).2.2 sn ss hss).2 (objRecs_noClash hm hinj)⟩⟩⟩
  obtain ⟨i, hi, hr⟩ := List.mem_filterMap.mp hr
  obtain ⟨t, s, a, o, x, sx, ax, ox, _, _, hax, hox, rfl⟩ := ((C54_walk_mem m hm i).2.2.2.1).mp hi
  simp only [objRec, Option.some.injEq] at hr
  subst hr
  subst hk
  exact ⟨t, s, a, o, ax, ox, hax, hox, by simp [objKey, join], ha⟩

/-- **C13** every entry of the symbol report: its name, its size, its size per memory type and, when no
two symbols of one section share a key, its size per section. -/
theorem C13_entries (m : MemMap) (hm : m.WF) (args : Args) {R : Dict Str Entry}
    (h : getSymbolsSummary m args = .ok R) {k : Str} {e : Entry} (he : dget R k = some e) :
    (∃ t s a o y ax ox yx, getArch m t s a = some ax ∧ getObj m t s a o = some ox ∧
      getSym m t s a o y = some yx ∧ some ax.abb = args.archiveDetails ∧
      symKey args.unify (a, ax) (o, ox) (y, yx) = k ∧ e.abb = y) ∧
    e.size = sumSyms m (fun _ _ a o y => if some a.2.abb = args.archiveDetails then
      (if symKey args.unify a o y = k then y.2.size else 0) else 0) ∧
    e.sizeDiff = sumSyms m (fun _ _ a o y => if some a.2.abb = args.archiveDetails then
      (if symKey args.unify a o y = k then y.2.sizeDiff else 0) else 0) ∧
    ∀ tn st, dget e.types tn = some st →
      st.size = sumSyms m (fun t _ a o y => if some a.2.abb = args.archiveDetails then
        (if symKey args.unify a o y = k ∧ t = tn then y.2.size else 0) else 0) ∧
      st.sizeDiff = sumSyms m (fun t _ a o y => if some a.2.abb = args.archiveDetails then
        (if symKey args.unify a o y = k ∧ t = tn then y.2.sizeDiff else 0) else 0) ∧
      ∀ sn ss, dget st.sections sn = some ss → (getSec m tn sn).map Node.abb = some ss.abb ∧
        (SymKeysInj args.unify args.archiveDetails m →
          ss.size = sumSyms m (fun t s a o y => if some a.2.abb = args.archiveDetails then
            (if symKey args.unify a o y = k ∧ t = tn ∧ s = sn then y.2.size else 0) else 0) ∧
          ss.sizeDiff = sumSyms m (fun t s a o y => if some a.2.abb = args.archiveDetails then
            (if symKey args.unify a o y = k ∧ t = tn ∧ s = sn then y.2.sizeDiff else 0) else 0)) := by
  obtain ⟨E, hE, inv⟩ := summarize_inv (mtWF_summaryTypes hm) _ (symRecs_ok hm args.unify args.archiveDetails)
  have hR : R = remSummaryUnchanged E args := by
    unfold getSymbolsSummary at h
    simp only [hE, bind, Except.bind] at h
    split at h
    · cases h
    · cases h; rfl
  subst hR
  have he := ((remSummaryUnchanged_spec args E inv.nodup k e).mp he).1
  obtain ⟨⟨r, hr, hk, ha⟩, h1, h2, hT⟩ := entry_cells inv he
  simp only [sumIf_syms, sumIf_singleton, onK_iff, onKT_iff, onKTS_iff] at h1 h2 hT
  refine ⟨?_, h1, h2, fun tn st hst => ⟨(hT tn st hst).1, (hT tn st hst).2.1, fun sn ss hss =>
    ⟨((hT tn st hst).2.2 sn ss hss).1, fun hinj => ((hT tn st hst).2.2 sn ss hss).2 (symRecs_noClash hm hinj)⟩⟩⟩
  obtain ⟨i, hi, hr⟩ := List.mem_filterMap.mp hr
  obtain ⟨t, s, a, o, y, x, sx, ax, ox, yx, _, _, hax, hox, hyx, rfl⟩ :=
    ((C54_walk_mem m hm i).2.2.2.2 _ fullAll).mp hi
  obtain ⟨_, _, _, _, e1, e2, e3, e4, hd, rfl⟩ := symRec_shape hr
  cases e1; cases e2; cases e3; cases e4
  subst hk
  exact ⟨t, s, a, o, y, ax, ox, yx, hax, hox, hyx, hd, by simp [symKey, join], ha⟩

example : (getObjectFilesSummary exSameObj {}).map (fun R => R.map fun p => (p.1, p.2.abb, p.2.size)) =
    .ok [(str "liba.a:main.c.obj", str "main.c.obj", 5), (str "liba.a:z.obj", str "z.obj", 0),
      (str "libb.a:main.c.obj", str "main.c.obj", 7)] := by
  decide

end EspSize
