import Verif.Proofs.MapRun
import Verif.Props.TableRun
import Verif.Props.Cells
import Verif.Props.Sort
/-! # C85: the memory map of a whole run, and the reports that show it -/
namespace EspSize

/-- The build of a project that was read: the parts its output sections were cut into and where they go. -/
structure BuildOf (R : RunIn) (args : Args) (l : GetIn) (b : Build) : Prop where
  types : b.types = l.types
  parts : PartsOf R.n (loadSymbolsOf args) l b.regions b.parts
  goes : ∀ s, Goes l.types b.regions s (b.goes s)

theorem trimmed_of {m : MemMap} (hm : m.WF) (args : Args) : TrimmedTo args m (trim m args) := by
  obtain ⟨h1, h2, h3, h4, h5, h6, h7, h8, h9, h10, h11⟩ := C10_trim_partial m hm args
  have hs : ∀ {α : Type} {x y : Option (Node α)}, SameNode x y → ∀ n', y = some n' → ∃ n, x = some n ∧ n'.abb = n.abb ∧ n'.size = n.size ∧
      n'.sizeDiff = n.sizeDiff := by
    intro α x y h n' hn'
    obtain ⟨n, hn, h1, h2, h3⟩ := h.same n' hn'
    exact ⟨n, hn, h1, h2, h3.1⟩
  refine ⟨h1, h2, h3, h4, h5, ?_, fun t s => hs (h7 t s), fun t s a => hs (h8 t s a), fun t s a o => hs (h9 t s a o), h10, h11, ?_⟩
  · intro t x' hx'
    obtain ⟨x, hx, he, _⟩ := h6 t x' hx'
    rw [he]
    exact ⟨x, hx, rfl, rfl, rfl, rfl⟩
  · intro t x' x hx' hx
    obtain ⟨y, hy, _, hsub⟩ := h6 t x' hx'
    rw [hx] at hy
    cases hy
    exact hsub

/-- The report of a map. -/
theorem reports_map {R : RunIn} (hF : R.F.Plain) {crt : Option Crt} {elf : Option (List ElfSym)} {args : Args} {nb : Bool} {d : MemMap}
    {rep : Report} (hd : d.WF) (h : showReport R crt elf { args with noAbbrev := nb, abbrev_ := abbreviates args } d = .ok rep) :
    ReportsMap R.F args d rep := by
  have htab : NoListing args → ∀ tab, selectTable R crt elf { args with noAbbrev := nb, abbrev_ := abbreviates args } d = .ok tab →
      ∃ k, TrimmedTo args d k ∧ SummaryRows R.F args k tab := by
    rintro ⟨h1, h2, h3, h4⟩ tab ht
    unfold selectTable at ht
    rw [if_neg (by simp [h1]), if_neg (by simp [h2]), if_neg (by simp [h4]), if_neg (by simp [h3])] at ht
    refine ⟨trim d args, trimmed_of hd args, ?_⟩
    have hx : ∃ i, Selects (str "Memory Type/Section") sumColTitles args.sort i := by
      apply Classical.byContradiction
      intro hn
      rw [(C40_summary_table_partial R.F d { args with noAbbrev := nb, abbrev_ := abbreviates args }).2 hn] at ht
      cases ht
    obtain ⟨i, hi⟩ := hx
    obtain ⟨ts, blocks, h5, h6, h7⟩ := C40_rows R.F hF d { args with noAbbrev := nb, abbrev_ := abbreviates args } i hi
    rw [h5] at ht
    cases ht
    exact ⟨i, ts, blocks, hi, rfl, h6, h7⟩
  unfold showReport at h
  refine ⟨?_, ?_, ?_, ?_, ?_⟩
  · intro hf hdep
    simp only [hf, hdep] at h
    rw [if_neg (by decide), if_neg (by decide), if_pos trivial, if_neg (by decide)] at h
    cases h
    rfl
  · intro hf hdep
    simp only [hf, hdep] at h
    rw [if_neg (by decide), if_neg (by decide), if_neg (by decide), if_neg (by decide), if_pos trivial, if_neg (by decide)] at h
    cases h
    exact ⟨_, _, trimmed_of hd args, C07_sort_stable (trim d args) args, rfl⟩
  · intro hf hn
    rw [if_pos hf] at h
    obtain ⟨tab, ht, h⟩ := bind_ok h
    cases h
    obtain ⟨k, h1, h2⟩ := htab hn tab ht
    exact ⟨k, tab, h1, rfl, h2⟩
  · intro hf hn
    simp only [hf] at h
    rw [if_neg (by decide), if_neg (by decide), if_neg (by decide), if_pos trivial] at h
    obtain ⟨tab, ht, h⟩ := bind_ok h
    cases h
    have e : selectTable R crt elf { args with noAbbrev := nb, abbrev_ := abbreviates args } d = .ok tab := by
      rw [← ht, ← hf]
    obtain ⟨k, h1, h2⟩ := htab hn tab e
    exact ⟨k, tab, h1, rfl, h2⟩
  · rintro hf ⟨h1, h2, h3, h4⟩
    simp only [hf] at h
    rw [if_neg (by decide), if_pos trivial] at h
    unfold showJson at h
    rw [if_neg (by simp [h1]), if_neg (by simp [h2]), if_neg (by simp [h4]), if_neg (by simp [h3])] at h
    cases h
    refine ⟨_, rfl, rfl, fun hn => ?_⟩
    obtain ⟨_, ts, h5, h6⟩ := C42_json_summary_partial d { args with noAbbrev := nb, abbrev_ := abbreviates args } hn
    refine ⟨ts, h5, ?_⟩
    refine All2.imp h6 ?_
    rintro t _ y ⟨a, b, c, e, f, _⟩
    exact ⟨a, b, c, e, f⟩

/-- **C85** the memory map of a run without `--diff`, and the reports that show it. -/
theorem C85_map_plain (R : RunIn) (hF : R.F.Plain) (input : Str) (args : Args) (rep : Report) {l : GetIn} (hr : Readable R args input l)
    (hdiff : truthy args.diff = false) (h : makeReport R input args = some (.ok rep)) :
    ∃ b d, BuildOf R args l b ∧ MapOf args b none d ∧ ReportsMap R.F args d rep := by
  obtain ⟨mf, elf, m, ref, d, h1, _, h3, h4, h5, h6⟩ := makeReport_ok h
  obtain ⟨nb, heff⟩ := eff_abbreviates args (.inr hdiff)
  rw [heff] at h3 h4 h5 h6
  obtain ⟨parts, goes, regions, hp, hg, hm, ht⟩ := cell_map_types hr.loads hr.sizes (fun f hf => by cases hf; exact h1) h3
  have hmap := prepare_map (cur := ⟨l.types, regions, parts, goes⟩) (ref := none) hm ht (by rw [show truthy args.diff = false from hdiff]; rfl)
    (by intro b hb; cases hb) h5
  have hmap' : MapOf args ⟨l.types, regions, parts, goes⟩ none d :=
    ⟨hmap.wf, hmap.types, hmap.used, hmap.size, hmap.sections, hmap.section_, hmap.archive, hmap.archives, hmap.content⟩
  exact ⟨_, d, ⟨rfl, hp, hg⟩, hmap', reports_map hF hmap.wf h6⟩

/-- **C85** the memory map of a run with `--diff`, and the reports that show it. -/
theorem C85_map_diff (R : RunIn) (hF : R.F.Plain) (input reference : Str) (args : Args) (rep : Report) {l l' : GetIn}
    (hr : Readable R args input l) (hr' : Readable R args reference l') (hdiff : args.diff = some reference) (hne : reference ≠ [])
    (hdep : args.archiveDependencies = false) (h : makeReport R input args = some (.ok rep)) :
    ∃ b b' d, BuildOf R args l b ∧ BuildOf R args l' b' ∧ MapOf args b (some b') d ∧ ReportsMap R.F args d rep := by
  obtain ⟨mf, elf, m, ref, d, h1, _, h3, h4, h5, h6⟩ := makeReport_ok h
  obtain ⟨nb, heff⟩ := eff_abbreviates args (.inl hdep)
  rw [heff] at h3 h4 h5 h6
  have h3' : getMap R.n R.w reference (loadSymbolsOf args) (useDwarfOf args) none none = some (.ok ref) := by
    unfold referenceMap at h4
    cases reference with
    | nil => exact absurd rfl hne
    | cons x y =>
      simp only [hdiff] at h4
      exact h4
  obtain ⟨parts, goes, regions, hp, hg, hm, ht⟩ := cell_map_types hr.loads hr.sizes (fun f hf => by cases hf; exact h1) h3
  obtain ⟨parts', goes', regions', hp', hg', hm', ht'⟩ := cell_map_types hr'.loads hr'.sizes (fun f hf => by cases hf) h3'
  have hmap := prepare_map (cur := ⟨l.types, regions, parts, goes⟩) (ref := some ⟨l'.types, regions', parts', goes'⟩) hm ht
    (by rw [show truthy args.diff = true by rw [hdiff]; exact truthy_some hne]; rfl)
    (by intro b hb; cases hb; exact ⟨hm', ht'⟩) h5
  have hmap' : MapOf args ⟨l.types, regions, parts, goes⟩ (some ⟨l'.types, regions', parts', goes'⟩) d :=
    ⟨hmap.wf, hmap.types, hmap.used, hmap.size, hmap.sections, hmap.section_, hmap.archive, hmap.archives, hmap.content⟩
  exact ⟨_, _, d, ⟨rfl, hp, hg⟩, ⟨rfl, hp', hg'⟩, hmap', reports_map hF hmap.wf h6⟩

/-- Where the parts go, each is counted once: what is used of the memory types of a list without duplicates is the size
of the parts that go there. -/
theorem C85_used_total (b : Build) (unused : Bool) {ts : List Str} (hts : ts.Nodup) :
    sumBy (fun t => b.used unused t) ts =
      sumBy (fun p => p.size) ((if unused then b.parts else b.sections false).filter fun p => (b.goes p).any fun x => decide (x.1 ∈ ts)) := by
  unfold Build.used
  generalize (if unused then b.parts else b.sections false) = ps
  induction ts with
  | nil => rw [List.filter_eq_nil_iff.mpr]; · rfl
           · intro p _; cases b.goes p <;> simp
  | cons t ts ih =>
    obtain ⟨h1, h2⟩ := List.nodup_cons.mp hts
    rw [sumBy_cons, ih h2, sumBy_filter, sumBy_filter, sumBy_filter, ← sumBy_add]
    apply sumBy_congr
    intro p _
    unfold Build.sends
    cases b.goes p with
    | none => simp
    | some x =>
      by_cases e : x.1 = t
      · have : x.1 ∉ ts := e ▸ h1
        simp [e, h1]
      · simp [e]

/-- The sections shown for a memory type add up to what is used of it, unless unused ones are shown. -/
theorem C85_sections_add_up (b : Build) (t : Str) {ss : List Str} (hss : ss.Nodup) (unify : Bool)
    (hall : ∀ s, b.HasSection false unify t s → s ∈ ss) :
    sumBy (fun s => b.sectionSize false unify t s) ss = b.used false t := by
  unfold Build.used Build.sectionSize
  simp only [Bool.false_eq_true, if_false]
  have h : ∀ (ps : List MSec), (∀ p ∈ ps, ∀ s, b.sends t (fun x => decide (secKey unify x = s)) p = true → s ∈ ss) →
      sumBy (fun s => sumBy (fun p => p.size) (ps.filter (b.sends t fun x => decide (secKey unify x = s)))) ss =
        sumBy (fun p => p.size) (ps.filter (b.sends t fun _ => true)) := by
    intro ps
    induction ps with
    | nil => intro _; exact sumBy_zero fun _ _ => rfl
    | cons p ps ih =>
      intro hp
      have e : ∀ s, sumBy (fun p => p.size) ((p :: ps).filter (b.sends t fun x => decide (secKey unify x = s))) =
          (if b.sends t (fun x => decide (secKey unify x = s)) p = true then p.size else 0) +
            sumBy (fun p => p.size) (ps.filter (b.sends t fun x => decide (secKey unify x = s))) := by
        intro s
        by_cases hs : b.sends t (fun x => decide (secKey unify x = s)) p = true
        · rw [List.filter_cons_of_pos hs, sumBy_cons, if_pos hs]
        · rw [List.filter_cons_of_neg hs, if_neg hs]; omega
      rw [sumBy_congr fun s _ => e s, sumBy_add, ih fun q hq => hp q (List.mem_cons_of_mem _ hq)]
      by_cases ht : b.sends t (fun _ => true) p = true
      · rw [List.filter_cons_of_pos ht, sumBy_cons]
        congr 1
        obtain ⟨k, hk, _⟩ := sends_iff.mp ht
        have hk' : ∀ s, (b.sends t (fun x => decide (secKey unify x = s)) p = true) ↔ secKey unify k = s := by
          intro s
          rw [sends_iff, hk]
          simp
        have := sumBy_pick hss (x := secKey unify k) (fun _ => p.size)
          (hp p (List.mem_cons_self ..) _ ((hk' _).mpr rfl))
        refine Eq.trans ?_ this
        apply sumBy_congr
        intro s _
        by_cases hs : secKey unify k = s
        · rw [if_pos ((hk' s).mpr hs), if_pos hs]
        · rw [if_neg fun x => hs ((hk' s).mp x), if_neg hs]
      · rw [List.filter_cons_of_neg ht, sumBy_zero]
        · omega
        · intro s _
          refine if_neg fun hs => ht ?_
          obtain ⟨k, hk, _⟩ := sends_iff.mp hs
          exact sends_iff.mpr ⟨k, hk, rfl⟩
  exact h _ fun p hp s hs => hall s ⟨p, hp, hs⟩

/-- Number formats without markup. -/
theorem exFloat_plain : exFloat.Plain := ⟨fun _ => intStr_neutral _, fun _ => intStr_neutral _, fun _ => intStr_neutral _⟩

/-- The hypotheses of the theorems can be fulfilled, and the summary is not empty. -/
example : (∃ l, Readable (exRun exTwoWorld) { format := str "text" } (str "/b/x.map") l) ∧ (exRun exTwoWorld).F.Plain ∧
    exTable (makeReport (exRun exTwoWorld) (str "/b/x.map") { format := str "text" }) =
      some [[str "Memory Type/Section", str "Used \\[bytes]", str "Used \\[%]", str "Remain \\[bytes]", str "Total \\[bytes]"],
        [str "IRAM", str "36", str "14", str "220", str "256"], [str "   .text", str "32", str "12", [], []],
        [str "   .data", str "4", str "1", [], []]] :=
  ⟨readable_of (by decide +kernel), exFloat_plain, by decide +kernel⟩

example : exTable (makeReport (exRun exTwoWorld) (str "/b/x.map")
      { format := str "text", diff := some (str "/o/x.map"), showUnchanged := true, unify := true }) =
    some [[str "Memory Type/Section", str "Used \\[bytes]", str "Used \\[%]", str "Remain \\[bytes]", str "Total \\[bytes]"],
      [str "IRAM", str "36[red]    +12[/red]", str "14[red] 4[/red]", str "220[red]    -12[/red]", str "256      0"],
      [str "   .text", str "32[red]     +8[/red]", str "12[red] 3[/red]", [], []],
      [str "   .data", str "4[red]     +4[/red]", str "1[red] 1[/red]", [], []]] := by decide +kernel

end EspSize
