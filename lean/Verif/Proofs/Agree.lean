import Verif.Spec.Agree
import Verif.Props.TableRun
import Verif.Props.Options
/-! # Archives and files of one map -/
namespace EspSize

/-- An archive has the size of its files. -/
def AddsUp (a : Arch) : Prop :=
  a.WF ∧ a.size = sumBy (fun o : Str × Obj => o.2.size) a.kids ∧ a.sizeDiff = sumBy (fun o : Str × Obj => o.2.sizeDiff) a.kids

theorem keeps_addsUp : Keeps (fun _ => AddsUp) outArch := by
  have l1 := diffLaw_size Obj.WF outSym fun _ => true
  have l2 := diffLaw_diff Obj.WF outSym fun _ => true
  simp only [if_true] at l1 l2
  have hnil : DictWF Obj.WF [] := ⟨KeysNodup.nil, by simp⟩
  have hw : Keeps (fun _ => Arch.WF) outArch :=
    Keeps.nodeWF (Keeps.nodeWF (W := Sym.WF) ⟨fun _ _ _ _ _ => trivial, fun _ _ _ => trivial, fun _ _ _ => trivial⟩)
  refine ⟨fun k c r hc hr => ⟨hw.1 k c r hc.1 hr.1, ?_, ?_⟩, fun k c hc => ⟨hw.2.1 k c hc.1, ?_, ?_⟩, fun k r hr => ⟨hw.2.2 k r hr.1, ?_, ?_⟩⟩
  · refine hc.2.1.trans (Eq.trans ?_ (l1.sum hc.1 hr.1).symm)
    rw [sumBy_zero (l := r.kids) fun _ _ => rfl]; exact (Int.sub_zero _).symm
  · refine Eq.trans ?_ (l2.sum hc.1 hr.1).symm
    show c.size - r.size = _
    rw [hc.2.1, hr.2.1]
  · refine hc.2.1.trans (Eq.trans ?_ (l1.sum hc.1 hnil).symm)
    exact (Int.sub_zero _).symm
  · refine Eq.trans ?_ (l2.sum hc.1 hnil).symm
    show c.size - 0 = _
    rw [hc.2.1]; rfl
  · refine Eq.trans ?_ (l1.sum hnil hr.1).symm
    rw [sumBy_zero (l := r.kids) fun _ _ => rfl]; rfl
  · refine Eq.trans ?_ (l2.sum hnil hr.1).symm
    show 0 - r.size = _
    rw [hr.2.1]; rfl

theorem eachArch_unify {d : MemMap} (hd : d.WF) (h : EachArch (fun _ => AddsUp) d) : EachArch (fun _ => AddsUp) (unify d) := by
  have hw := wf_unify hd
  intro t ht s hs a ha
  have hwf : a.2.WF := ((hw.2 t ht).2 s hs).2 a ha
  have hg : getArch (unify d) t.1 s.1 a.1 = some a.2 := Option.bind_eq_some_iff.mpr ⟨s.2,
    Option.bind_eq_some_iff.mpr ⟨t.2, dget_of_mem hw.1 ht, dget_of_mem (hw.2 t ht).1 hs⟩, dget_of_mem ((hw.2 t ht).2 s hs).1 ha⟩
  rw [getArch_unify] at hg
  have hc : ∀ x ∈ chainArchs d t.1 s.1 a.1, AddsUp x := by
    intro x hx
    obtain ⟨n, hn, hx⟩ := List.mem_flatMap.mp hx
    simp only [named, List.mem_map, List.mem_filter] at hx
    obtain ⟨p, ⟨hp, _⟩, rfl⟩ := hx
    unfold chainSecs at hn
    cases htt : getType d t.1 with
    | none => rw [htt] at hn; cases hn
    | some x =>
      rw [htt] at hn
      simp only [named, List.mem_map, List.mem_filter] at hn
      obtain ⟨q, ⟨hq, _⟩, rfl⟩ := hn
      exact h _ (mem_of_dget htt) q hq p hp
  refine ⟨hwf, ?_⟩
  revert hg
  generalize chainArchs d t.1 s.1 a.1 = g at hc
  intro hg
  cases g with
  | nil => cases hg
  | cons n g =>
    simp only [collapse, Option.some.injEq] at hg
    rw [← hg]
    simp only [unifyObjs, sumBy_size_unifyNodes, sumBy_sizeDiff_unifyNodes, sumBy_flatMap]
    refine ⟨Eq.trans (sumBy_congr fun x hx => (hc x hx).2.1) ?_, Eq.trans (sumBy_congr fun x hx => (hc x hx).2.2) ?_⟩ <;> simp [sumBy]

theorem get_addsUp {n : Nat} {w : World} {fn : Str} {ls : Bool} {ud : Option Bool} {mf : Option MapFile} {m : MemMap} {e : Option ElfData}
    (h : getMap n w fn ls ud mf e = some (.ok m)) : m.WF ∧ EachArch (fun _ => AddsUp) m := by
  obtain ⟨l, regions, parts, goes, hl, hp, hg, hwf, hsec, _, _⟩ := get_keyed h
  refine ⟨hwf, fun t ht s hs a ha => ?_⟩
  have hg' : getSec m t.1 s.1 = some s.2 :=
    Option.bind_eq_some_iff.mpr ⟨t.2, dget_of_mem hwf.1 ht, dget_of_mem (hwf.2 t ht).1 hs⟩
  obtain ⟨p, hpp, hx, _⟩ := hsec _ _ _ hg'
  obtain ⟨q, hok⟩ := parts_archives hp hpp
  rw [hx] at ha
  obtain ⟨_, h2, _, h4, _, h6⟩ := hok.arch a.1 a.2 (dget_of_mem hok.wf.1 ha)
  refine ⟨hok.wf.2 a ha, h4, h2.trans (Eq.symm (sumBy_zero fun o ho => ?_))⟩
  exact (h6 o.1 o.2 (dget_of_mem (hok.wf.2 a ha).1 ho)).2.1

theorem prepared_addsUp {R : RunIn} {input : Str} {args : Args} {crt : Option Crt} {elf : Option (List ElfSym)} {d : MemMap}
    (h : prepared R input args = some (.ok (crt, elf, d))) : EachArch (fun _ => AddsUp) d := by
  unfold prepared at h
  split at h
  · cases h
  split at h
  · cases h
  split at h
  · cases h
  · cases h
  rename_i m hm
  split at h
  · cases h
  · cases h
  rename_i ref href
  split at h
  · cases h
  rename_i d' hd
  cases h
  obtain ⟨wm, am⟩ := get_addsUp hm
  have hr : ref.WF ∧ EachArch (fun _ => AddsUp) ref := by
    unfold referenceMap at href
    split at href
    · exact get_addsUp href
    · cases href; exact ⟨wm, am⟩
  have w1 : ∀ {m : MemMap} (b : Bool), m.WF ∧ EachArch (fun _ => AddsUp) m →
      (if b = true then m else removeUnused m).WF ∧ EachArch (fun _ => AddsUp) (if b = true then m else removeUnused m) := by
    intro m b h; split
    · exact h
    · exact ⟨wf_removeUnused h.1, eachArch_removeUnused h.2⟩
  have w2 : ∀ {m : MemMap} (b : Bool), m.WF ∧ EachArch (fun _ => AddsUp) m →
      (if b = true then m else ignoreFlashSize m).WF ∧ EachArch (fun _ => AddsUp) (if b = true then m else ignoreFlashSize m) := by
    intro m b h; split
    · exact h
    · exact ⟨wf_ignoreFlash h.1, eachArch_ignoreFlash h.2⟩
  have w3 : ∀ {m : MemMap} (b : Bool), m.WF → EachArch (fun _ => AddsUp) m → EachArch (fun _ => AddsUp) (if b = true then unify m else m) := by
    intro m b h h'; split
    · exact eachArch_unify h h'
    · exact h'
  unfold prepare at hd
  have f1 := w2 args.useFlashSize (w1 args.showUnused ⟨wm, am⟩)
  cases ht : truthy args.diff with
  | false =>
    simp only [ht, Bool.false_eq_true, if_false, bind, Except.bind] at hd
    cases hd
    exact w3 args.unify f1.1 f1.2
  | true =>
    have f2 := w2 args.useFlashSize f1
    have f3 := w1 args.showUnused hr
    simp only [ht, if_true, bind, Except.bind] at hd
    rw [diff_eq f2.1 f3.1] at hd
    simp only [Except.ok.injEq] at hd
    subst hd
    exact w3 args.unify (wf_outMap f2.1 f3.1) (eachArch_outMap keeps_addsUp f2.2 f3.2)

/-- Archives and their files in a column. -/
theorem archs_files {d : MemMap} (h : EachArch (fun _ => AddsUp) d) {u : Bool} {PA PF : Str → Bool} (c : Col)
    (hp : ∀ t ∈ d.memoryTypes, ∀ s ∈ t.2.sections, ∀ a ∈ s.2.kids, ∀ o ∈ a.2.kids, PF (objKey u a o) = PA a.1) :
    sumArchs d (fun t s a => if PA a.1 && c.has t s then a.2.size else 0) =
      sumObjs d (fun t s a o => if PF (objKey u a o) && c.has t s then o.2.size else 0) ∧
    sumArchs d (fun t s a => if PA a.1 && c.has t s then a.2.sizeDiff else 0) =
      sumObjs d (fun t s a o => if PF (objKey u a o) && c.has t s then o.2.sizeDiff else 0) := by
  unfold sumObjs
  refine ⟨sumArchs_congr ?_, sumArchs_congr ?_⟩
  all_goals
    intro t ht s hs a ha
    obtain ⟨_, h1, h2⟩ := h t ht s hs a ha
    by_cases hx : (PA a.1 && c.has t.1 s.1) = true
    · first
      | rw [if_pos hx, h1]
      | rw [if_pos hx, h2]
      apply sumBy_congr
      intro o ho
      simp only [hp t ht s hs a ha o ho, if_pos hx]
    · rw [if_neg hx]
      refine Eq.symm (sumBy_zero fun o ho => ?_)
      simp only [hp t ht s hs a ha o ho, if_neg hx]

/-! ### Sums over the entries of a summary -/

/-- What is summed for one entry. -/
def entryCol (dif : Bool) (c : Col) (e : Entry) : Int := ((cellOf e c).map fun z => if dif then z.2 else z.1).getD 0

theorem entryCol_rec {d : MemMap} (hd : d.WF) {recs : List Rec} {E : Dict Str Entry} (inv : SumInv (summaryTypes d) recs E)
    (hrecs : ∀ r ∈ recs, RecOk (summaryTypes d) r) {k : Str} {e : Entry} (h : dget E k = some e) {c : Col} (hc : Summed recs c) (dif : Bool) :
    entryCol dif c e = recCell recs (if dif then Rec.sizeDiff else Rec.size) k c := by
  unfold entryCol
  cases hz : cellOf e c with
  | some z =>
    obtain ⟨h1, h2⟩ := entry_cell inv h hc hz
    cases dif
    · exact h1
    · exact h2
  | none =>
    refine Eq.symm (Classical.byContradiction fun hne => ?_)
    obtain ⟨r, hr, hp⟩ := sumIf_ne_zero hne
    simp only [Bool.and_eq_true] at hp
    have hcol := mem_reportCols hp.2 (getSec_of_recOk (hrecs r hr))
    obtain ⟨i, hi, hci⟩ := List.mem_iff_getElem.mp hcol
    obtain ⟨_, _, z, x, hz', _⟩ := (skeleton_cols hd (sumInv_skeleton inv _ (mem_of_dget h)) {}).get (i := i) (x := c)
      (by rw [List.getElem?_eq_getElem hi, hci])
    rw [hz] at hz'; cases hz'

theorem sum_recs {mt : Dict Str SType} {recs : List Rec} {E : Dict Str Entry} (inv : SumInv mt recs E) (P : Str → Bool) (f : Rec → Int) (c : Col) :
    sumBy (fun p => if P p.1 then recCell recs f p.1 c else 0) E = sumIf (fun r => P r.key && c.has r.type r.sec) f recs := by
  have h1 : ∀ p : Str × Entry, (if P p.1 then recCell recs f p.1 c else 0) =
      sumBy (fun r => if p.1 = r.key then (if (P r.key && c.has r.type r.sec) = true then f r else 0) else 0) recs := by
    intro p
    by_cases hp : P p.1 = true
    · rw [if_pos hp]
      unfold recCell sumIf
      apply sumBy_congr
      intro r _
      by_cases e : p.1 = r.key
      · rw [if_pos e]; simp [← e, hp]
      · rw [if_neg e, if_neg]; simp [Ne.symm e]
    · rw [if_neg hp]
      refine Eq.symm (sumBy_zero fun r _ => ?_)
      by_cases e : p.1 = r.key
      · rw [if_pos e, ← e]; simp [hp]
      · rw [if_neg e]
  rw [sumBy_congr fun p _ => h1 p, sumBy_comm]
  unfold sumIf
  apply sumBy_congr
  intro r hr
  rw [sumBy_ite_key E inv.nodup, if_pos]
  apply dget_isSome.mp
  rw [inv.look, if_pos (List.any_eq_true.mpr ⟨r, hr, by simp [onK]⟩)]
  rfl

theorem shownIn_sorted {d : MemMap} (hd : d.WF) {S : Dict Str Entry} (hS : KeysNodup S) (hsk : ∀ p ∈ S, Skeleton d p.2) (args : Args)
    (dif : Bool) (P : Str → Bool) (c : Col) : shownIn dif P c (getSummarySorted S args) = shownIn dif P c S := by
  obtain ⟨h1, h2, h3, _⟩ := entries_sorted (C07_summary_sorted S args) hS
  have key : ∀ {E : Dict Str Entry}, KeysNodup E → (∀ k e', dget E k = some e' → ∃ e, dget S k = some e ∧ ∀ c, cellOf e' c = cellOf e c) →
      shownIn dif P c E = sumBy (fun k => if P k then ((dget S k).elim 0 (entryCol dif c)) else 0) (dkeys E) := by
    intro E hE h
    unfold shownIn dkeys
    rw [sumBy_map]
    apply sumBy_congr
    intro p hp
    obtain ⟨e, he, hc⟩ := h p.1 p.2 (dget_of_mem hE hp)
    rw [he, hc c]
    rfl
  rw [key hS fun k e' he => ⟨e', he, fun _ => rfl⟩, key h1 fun k e' he' => ?_]
  · apply sumBy_perm
    refine (List.perm_ext_iff_of_nodup h1 hS).mpr fun k => ?_
    rw [← dget_isSome, ← dget_isSome, h2 k]
  · obtain ⟨e, he, hr⟩ := h3 k e' he'
    have hn := skeleton_nodup hd (hsk _ (mem_of_dget he))
    exact ⟨e, he, cellOf_sorted hn.1 hn.2 hr⟩

theorem shownIn_summary {d : MemMap} (hd : d.WF) {recs : List Rec} {E : Dict Str Entry} (inv : SumInv (summaryTypes d) recs E)
    (hrecs : ∀ r ∈ recs, RecOk (summaryTypes d) r) (args : Args) {c : Col} (hc : Summed recs c) {dif : Bool} (hcomp : Complete args dif c)
    (P : Str → Bool) :
    shownIn dif P c (getSummarySorted (remSummaryUnchanged E args) args) =
      sumIf (fun r => P r.key && c.has r.type r.sec) (if dif then Rec.sizeDiff else Rec.size) recs := by
  have hmem : ∀ p ∈ remSummaryUnchanged E args, p ∈ E := by
    intro p hp
    unfold remSummaryUnchanged at hp
    split at hp
    · exact hp
    · exact (List.mem_filter.mp hp).1
  have hnd : KeysNodup (remSummaryUnchanged E args) := by
    unfold remSummaryUnchanged
    split
    · exact inv.nodup
    · exact List.Nodup.sublist (List.Sublist.map _ List.filter_sublist) inv.nodup
  rw [shownIn_sorted hd hnd (fun p hp => sumInv_skeleton inv p (hmem p hp)), ← sum_recs inv]
  have h1 : shownIn dif P c (remSummaryUnchanged E args) = shownIn dif P c E := by
    unfold remSummaryUnchanged
    split
    · rfl
    · rename_i hx
      rcases hcomp with hcomp | hcomp | ⟨rfl, rfl⟩
      · simp [hcomp] at hx
      · simp [hcomp] at hx
      · unfold shownIn dfilter
        rw [sumBy_filter]
        apply sumBy_congr
        intro p _
        by_cases hz : p.2.sizeDiff = 0
        · simp [hz, cellOf]
        · simp [hz]
  rw [h1]
  apply sumBy_congr
  intro p hp
  exact congrArg (fun z => if P p.1 then z else 0) (entryCol_rec hd inv hrecs (dget_of_mem inv.nodup hp) hc dif)

end EspSize
