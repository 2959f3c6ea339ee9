import Verif.Spec.Compare
import Verif.Props.TableRun
/-! # C106: comparisons in both directions, and over several versions -/
namespace EspSize

/-! ### Lists with given sizes -/

section
variable {args : Args} {named : Str → Str → Prop} {exact : Col → Prop} {cur dif : Str → Col → Int} {E : Dict Str Entry}

theorem EntriesOf.cell (h : EntriesOf args named exact cur dif E) {k : Str} {e : Entry} (he : (k, e) ∈ E) {c : Col} (hc : exact c) :
    sizeCell e c = cur k c ∧ diffCell e c = dif k c := by
  have hx := h.cells k e (dget_of_mem h.distinct he) c hc
  unfold sizeCell diffCell
  cases hz : cellOf e c with
  | none =>
    have := hx.2 hz k
    simp [this.1, this.2]
  | some p =>
    have := hx.1 p.1 p.2 hz
    simp [this.1, this.2]

theorem EntriesOf.listed (h : EntriesOf args named exact cur dif E) (ht : exact .total) {k : Str} (hk : k ∈ E.map Prod.fst) :
    totalIn E k = cur k .total ∧ diffIn E k = dif k .total := by
  obtain ⟨p, hp, rfl⟩ := List.mem_map.mp hk
  have := h.cell (k := p.1) (e := p.2) hp ht
  unfold totalIn diffIn
  rw [dget_of_mem h.distinct (show (p.1, p.2) ∈ E from hp)]
  exact this

theorem EntriesOf.unlisted {k : Str} (hk : k ∉ E.map Prod.fst) : totalIn E k = 0 ∧ diffIn E k = 0 := by
  have : dget E k = none := by
    cases hg : dget E k with
    | none => rfl
    | some e => exact absurd (List.mem_map.mpr ⟨(k, e), mem_of_dget hg, rfl⟩) hk
  simp [totalIn, diffIn, this]

theorem EntriesOf.must (h : EntriesOf args named exact cur dif E) {k : Str} (hk : MustShow args cur dif k) : k ∈ E.map Prod.fst := by
  have := h.all k hk
  cases hg : dget E k with
  | none => rw [hg] at this; cases this
  | some e => exact List.mem_map.mpr ⟨(k, e), mem_of_dget hg, rfl⟩

theorem EntriesOf.diff (h : EntriesOf args named exact cur dif E) (ht : exact .total) (k : Str) : diffIn E k = dif k .total := by
  by_cases hk : k ∈ E.map Prod.fst
  · exact (h.listed ht hk).2
  · rw [(EntriesOf.unlisted hk).2]
    by_cases hz : dif k .total = 0
    · exact hz.symm
    · exact absurd (h.must (.inl hz)) hk

theorem EntriesOf.total (h : EntriesOf args named exact cur dif E) (ht : exact .total)
    (hs : truthy args.diff = true → args.showUnchanged = true) (k : Str) : totalIn E k = cur k .total := by
  by_cases hk : k ∈ E.map Prod.fst
  · exact (h.listed ht hk).1
  · rw [(EntriesOf.unlisted hk).1]
    by_cases hz : cur k .total = 0
    · exact hz.symm
    · exact absurd (h.must (.inr ⟨hs, hz⟩)) hk

theorem EntriesOf.changed (h : EntriesOf args named exact cur dif E) (hd : truthy args.diff = true) (hs : args.showUnchanged = false)
    {k : Str} : k ∈ E.map Prod.fst ↔ dif k .total ≠ 0 := by
  constructor
  · intro hk hz
    obtain ⟨p, hp, rfl⟩ := List.mem_map.mp hk
    exact h.wanted p.1 p.2 (dget_of_mem h.distinct hp) ⟨hd, hs, hz⟩
  · intro hz
    exact h.must (.inl hz)

end

/-- A sum over names does not depend on names of value zero. -/
theorem sumBy_support {f : Str → Int} {a b : List Str} (ha : a.Nodup) (hb : b.Nodup) (h : ∀ k, f k ≠ 0 → (k ∈ a ↔ k ∈ b)) :
    sumBy f a = sumBy f b := by
  have e : ∀ l : List Str, sumBy f l = sumBy f (l.filter fun k => decide (f k ≠ 0)) := by
    intro l
    rw [sumBy_filter]
    apply sumBy_congr
    intro k _
    by_cases hk : f k = 0 <;> simp [hk]
  rw [e a, e b]
  apply sumBy_perm
  rw [List.perm_ext_iff_of_nodup (ha.filter _) (hb.filter _)]
  intro k
  simp only [List.mem_filter, decide_eq_true_eq]
  constructor
  · rintro ⟨h1, h2⟩; exact ⟨(h k h2).mp h1, h2⟩
  · rintro ⟨h1, h2⟩; exact ⟨(h k h2).mpr h1, h2⟩

/-! ### Runs -/

/-- The map of a project. -/
def GivesMap (R : RunIn) (args : Args) (fn : Str) (m : MemMap) : Prop :=
  getMap R.n R.w fn (loadSymbolsOf args) (useDwarfOf args) none none = some (.ok m)

theorem GivesMap.unique {R : RunIn} {args : Args} {fn : Str} {m m' : MemMap} (h : GivesMap R args fn m) (h' : GivesMap R args fn m') : m = m' := by
  unfold GivesMap at h h'
  rw [h] at h'
  cases h'; rfl

theorem run_maps {R : RunIn} {input reference : Str} {args : Args} {rep : Report} (hdep : args.archiveDependencies = false)
    (h : makeReport R input { args with diff := some reference } = some (.ok rep)) (hne : reference ≠ []) :
    ∃ m ref, GivesMap R args input m ∧ GivesMap R args reference ref := by
  obtain ⟨mf, elf, m, ref, d, h1, _, h3, h4, h5, h6⟩ := makeReport_ok h
  obtain ⟨nb, heff⟩ := eff_abbreviates { args with diff := some reference } (.inl hdep)
  rw [heff] at h3 h4
  refine ⟨m, ref, ?_, ?_⟩
  · unfold GivesMap
    rw [getMap_self (e' := elf) h1]
    exact h3
  · unfold referenceMap at h4
    cases reference with
    | nil => exact absurd rfl hne
    | cons x y => exact h4

theorem run_map_plain {R : RunIn} {input : Str} {args : Args} {rep : Report} (h : makeReport R input { args with diff := none } = some (.ok rep)) :
    ∃ m, GivesMap R args input m := by
  obtain ⟨mf, elf, m, ref, d, h1, _, h3, h4, h5, h6⟩ := makeReport_ok h
  obtain ⟨nb, heff⟩ := eff_abbreviates { args with diff := none } (.inr rfl)
  rw [heff] at h3
  refine ⟨m, ?_⟩
  unfold GivesMap
  rw [getMap_self (e' := elf) h1]
  exact h3

theorem run_cells_maps {R : RunIn} {input reference : Str} {args : Args} {rep : Report} {m ref : MemMap} {parts parts' : List MSec}
    {goes goes' : MSec → Option (Str × Str)} (hm : GivesMap R args input m) (hr : GivesMap R args reference ref)
    (hc : CellMap goes parts m) (hc' : CellMap goes' parts' ref) (hne : reference ≠ []) (hdep : args.archiveDependencies = false)
    (h : makeReport R input { args with diff := some reference } = some (.ok rep)) :
    ∃ d, RunCells R { args with diff := some reference } m ref d (parts ++ parts') rep := by
  obtain ⟨mf, elf, m₀, ref₀, d, h1, _, h3, h4, h5, h6⟩ := makeReport_ok h
  obtain ⟨nb, heff⟩ := eff_abbreviates { args with diff := some reference } (.inl hdep)
  rw [heff] at h3 h4 h5 h6
  have e1 : m₀ = m := by
    refine GivesMap.unique (R := R) (args := args) (fn := input) ?_ hm
    unfold GivesMap
    rw [getMap_self (e' := elf) h1]
    exact h3
  have e2 : ref₀ = ref := by
    refine GivesMap.unique (R := R) (args := args) (fn := reference) ?_ hr
    unfold referenceMap at h4
    cases reference with
    | nil => exact absurd rfl hne
    | cons x y => exact h4
  subst e1 e2
  obtain ⟨d', rfl, hmid, hN⟩ := prepare_mid hc.wf hc.named hc.empty (fun _ => ⟨hc'.wf, hc'.named, hc'.empty⟩) h5
  refine ⟨d', hmid, ?_, ?_, _, _, nb, h6⟩
  · exact hN _ (keeps_files (HasFile (parts ++ parts'))) (fun t ht s hs a ha o ho => hasFile_append.mpr (.inl (hc.hasFiles t ht s hs a ha o ho)))
      fun _ t ht s hs a ha o ho => hasFile_append.mpr (.inr (hc'.hasFiles t ht s hs a ha o ho))
  · exact hN _ (keeps_syms (HasSym (parts ++ parts')))
      (fun t ht s hs a ha o ho y hy => hasSym_append.mpr (.inl (hc.hasSyms t ht s hs a ha o ho y hy)))
      fun _ t ht s hs a ha o ho y hy => hasSym_append.mpr (.inr (hc'.hasSyms t ht s hs a ha o ho y hy))

theorem run_cells_map {R : RunIn} {input : Str} {args : Args} {rep : Report} {m : MemMap} {parts : List MSec}
    {goes : MSec → Option (Str × Str)} (hm : GivesMap R args input m) (hc : CellMap goes parts m)
    (h : makeReport R input { args with diff := none } = some (.ok rep)) :
    ∃ ref d, RunCells R { args with diff := none } m ref d parts rep := by
  obtain ⟨mf, elf, m₀, ref, d, h1, _, h3, h4, h5, h6⟩ := makeReport_ok h
  obtain ⟨nb, heff⟩ := eff_abbreviates { args with diff := none } (.inr rfl)
  rw [heff] at h3 h4 h5 h6
  have e1 : m₀ = m := by
    refine GivesMap.unique (R := R) (args := args) (fn := input) ?_ hm
    unfold GivesMap
    rw [getMap_self (e' := elf) h1]
    exact h3
  subst e1
  obtain ⟨d', rfl, hmid, hN⟩ := prepare_mid hc.wf hc.named hc.empty (by intro hx; cases hx) h5
  exact ⟨ref, d', hmid, hN _ (keeps_files _) hc.hasFiles (by intro hx; cases hx),
    hN _ (keeps_syms _) hc.hasSyms (by intro hx; cases hx), _, _, nb, h6⟩

/-- Size of an entry in a map. -/
def ListKind.size (args : Args) (m : MemMap) : ListKind → Str → Col → Int
  | .archives => curOf fun w => archCell args.unify Node.size w m
  | .files => curOf fun w => fileCell args.unify Node.size w m
  | .symbols => curOfSym args.archiveDetails fun w => symCell args.unify Sym.size w m

theorem ListKind.total (args : Args) (parts : List MSec) (l : ListKind) : l.Exact args parts .total := by
  cases l with
  | archives => trivial
  | files => rintro ⟨_, _, hx⟩; cases hx
  | symbols => rintro ⟨_, _, hx⟩; cases hx

theorem ListKind.sub {args : Args} {ps qs : List MSec} (h : ∀ p ∈ qs, p ∈ ps) (l : ListKind) {c : Col} (hx : l.Exact args ps c) :
    l.Exact args qs c := by
  have hf : ∀ {a o}, HasFile qs a o → HasFile ps a o := fun ⟨p, hp, h1⟩ => ⟨p, h p hp, h1⟩
  have hs : ∀ {a o y}, HasSym qs a o y → HasSym ps a o y := fun ⟨p, hp, h1⟩ => ⟨p, h p hp, h1⟩
  cases l with
  | archives => trivial
  | files => intro hc a o a' o' h1 h2; exact hx hc a o a' o' (hf h1) (hf h2)
  | symbols => intro hc a o y a' o' y' h1 h2; exact hx hc a o y a' o' y' (hs h1) (hs h2)

theorem entries_diff {R : RunIn} {input reference : Str} {args : Args} {E : Dict Str Entry} {m ref : MemMap} {parts parts' : List MSec}
    {goes goes' : MSec → Option (Str × Str)} (hm : GivesMap R args input m) (hr : GivesMap R args reference ref)
    (hc : CellMap goes parts m) (hc' : CellMap goes' parts' ref) (hne : reference ≠ []) (hdep : args.archiveDependencies = false)
    (l : ListKind) (hl : l.Asked args) (hf : args.format = str "json2")
    (h : makeReport R input { args with diff := some reference } = some (.ok (.entries E))) :
    ∃ named, EntriesOf { args with diff := some reference } named (l.Exact args (parts ++ parts')) (l.size args m)
      (fun k c => l.size args m k c - l.size args ref k c) E := by
  obtain ⟨d, hrun⟩ := run_cells_maps hm hr hc hc' hne hdep h
  have ht : truthy (some reference) = true := truthy_some hne
  cases l with
  | archives =>
    obtain ⟨E', hE, hx⟩ := (archives_report hrun hl).json hf
    cases hE
    simp only [ht, if_true] at hx
    exact ⟨_, hx⟩
  | files =>
    obtain ⟨E', hE, hx⟩ := (files_report hrun hl.1 hl.2.1 hdep hl.2.2).json hf
    cases hE
    simp only [ht, if_true] at hx
    exact ⟨_, hx⟩
  | symbols =>
    obtain ⟨E', hE, hx⟩ := (symbols_report hrun hl.1 hl.2).json hf
    cases hE
    simp only [ht, if_true] at hx
    exact ⟨_, hx⟩

theorem entries_plain {R : RunIn} {input : Str} {args : Args} {E : Dict Str Entry} {m : MemMap} {parts : List MSec}
    {goes : MSec → Option (Str × Str)} (hm : GivesMap R args input m) (hc : CellMap goes parts m) (hdep : args.archiveDependencies = false)
    (l : ListKind) (hl : l.Asked args) (hf : args.format = str "json2")
    (h : makeReport R input { args with diff := none } = some (.ok (.entries E))) :
    ∃ named dif, EntriesOf { args with diff := none } named (l.Exact args parts) (l.size args m) dif E := by
  obtain ⟨ref, d, hrun⟩ := run_cells_map hm hc h
  cases l with
  | archives =>
    obtain ⟨E', hE, hx⟩ := (archives_report hrun hl).json hf
    cases hE
    exact ⟨_, _, hx⟩
  | files =>
    obtain ⟨E', hE, hx⟩ := (files_report hrun hl.1 hl.2.1 hdep hl.2.2).json hf
    cases hE
    exact ⟨_, _, hx⟩
  | symbols =>
    obtain ⟨E', hE, hx⟩ := (symbols_report hrun hl.1 hl.2).json hf
    cases hE
    exact ⟨_, _, hx⟩

theorem cell_map_of {R : RunIn} {args : Args} {fn : Str} {l : GetIn} {m : MemMap} (hr : Readable R args fn l) (hm : GivesMap R args fn m) :
    ∃ parts goes, CutInto R args l parts goes ∧ CellMap goes parts m :=
  cell_map hr.loads hr.sizes (fun f hf => by cases hf) hm

/-! ### The theorems -/

/-- **C106** the comparison of a project `A` with `B` and that of `B` with `A` show opposite differences. -/
theorem C106_opposite (R : RunIn) (A B : Str) (args : Args) {a b : GetIn} (ra : Readable R args A a) (rb : Readable R args B b)
    (hA : A ≠ []) (hB : B ≠ []) (hdep : args.archiveDependencies = false) (l : ListKind) (hl : l.Asked args)
    (hf : args.format = str "json2") {E E' : Dict Str Entry} (h : makeReport R A { args with diff := some B } = some (.ok (.entries E)))
    (h' : makeReport R B { args with diff := some A } = some (.ok (.entries E'))) :
    ∃ parts goes parts' goes', CutInto R args a parts goes ∧ CutInto R args b parts' goes' ∧
      Opposite args.showUnchanged (l.Exact args (parts ++ parts')) E E' := by
  obtain ⟨m, ref, hm, hr⟩ := run_maps hdep h hB
  obtain ⟨parts, goes, k1, c1⟩ := cell_map_of ra hm
  obtain ⟨parts', goes', k2, c2⟩ := cell_map_of rb hr
  refine ⟨parts, goes, parts', goes', k1, k2, ?_⟩
  obtain ⟨_, x⟩ := entries_diff hm hr c1 c2 hB hdep l hl hf h
  obtain ⟨_, y⟩ := entries_diff hr hm c2 c1 hA hdep l hl hf h'
  have t1 := l.total args (parts ++ parts')
  have t2 := l.total args (parts' ++ parts)
  refine ⟨?_, ?_, ?_, ?_⟩
  · intro k
    rw [x.diff t1 k, y.diff t2 k]
    omega
  · intro hs k
    rw [x.changed (truthy_some hB) hs, y.changed (truthy_some hA) hs]
    omega
  · intro hs k
    rw [x.diff t1 k, x.total t1 (fun _ => hs) k, y.total t2 (fun _ => hs) k]
    omega
  · intro k e e' he he' c hc
    have p := x.cell he hc
    have q := y.cell he' (l.sub (fun z hz => by simp only [List.mem_append] at hz ⊢; exact hz.symm) hc)
    rw [p.1, p.2, q.1, q.2]
    omega

/-- **C106** the differences between `A` and `B` and between `B` and `C` add up to those between `A` and `C`. -/
theorem C106_chain (R : RunIn) (A B C : Str) (args : Args) {a b c : GetIn} (ra : Readable R args A a) (rb : Readable R args B b)
    (rc : Readable R args C c) (hB : B ≠ []) (hC : C ≠ []) (hdep : args.archiveDependencies = false) (l : ListKind) (hl : l.Asked args)
    (hf : args.format = str "json2") {E E' E'' : Dict Str Entry} (h : makeReport R A { args with diff := some B } = some (.ok (.entries E)))
    (h' : makeReport R B { args with diff := some C } = some (.ok (.entries E')))
    (h'' : makeReport R A { args with diff := some C } = some (.ok (.entries E''))) :
    ∃ parts goes parts' goes' parts'' goes'', CutInto R args a parts goes ∧ CutInto R args b parts' goes' ∧ CutInto R args c parts'' goes'' ∧
      Chain (l.Exact args (parts ++ parts' ++ parts'')) E E' E'' := by
  obtain ⟨m, ref, hm, hr⟩ := run_maps hdep h hB
  obtain ⟨_, ref', _, hr'⟩ := run_maps hdep h' hC
  obtain ⟨parts, goes, k1, c1⟩ := cell_map_of ra hm
  obtain ⟨parts', goes', k2, c2⟩ := cell_map_of rb hr
  obtain ⟨parts'', goes'', k3, c3⟩ := cell_map_of rc hr'
  refine ⟨parts, goes, parts', goes', parts'', goes'', k1, k2, k3, ?_⟩
  obtain ⟨_, x⟩ := entries_diff hm hr c1 c2 hB hdep l hl hf h
  obtain ⟨_, y⟩ := entries_diff hr hr' c2 c3 hC hdep l hl hf h'
  obtain ⟨_, z⟩ := entries_diff hm hr' c1 c3 hC hdep l hl hf h''
  refine ⟨?_, ?_⟩
  · intro k
    rw [x.diff (l.total _ _) k, y.diff (l.total _ _) k, z.diff (l.total _ _) k]
    omega
  · intro k e e' e'' he he' he'' c hc
    rw [(x.cell he (l.sub (fun p hp => by simp only [List.mem_append] at hp ⊢; exact .inl hp) hc)).2,
      (y.cell he' (l.sub (fun p hp => by
        simp only [List.mem_append] at hp ⊢
        rcases hp with hp | hp
        · exact .inl (.inr hp)
        · exact .inr hp) hc)).2,
      (z.cell he'' (l.sub (fun p hp => by
        simp only [List.mem_append] at hp ⊢
        rcases hp with hp | hp
        · exact .inl (.inl hp)
        · exact .inr hp) hc)).2]
    omega

/-- **C106** the comparison of `A` with `B` shows what the lists of `A` and `B` on their own show, and its differences
add up to the difference of their sums. -/
theorem C106_compares (R : RunIn) (A B : Str) (args : Args) {a b : GetIn} (ra : Readable R args A a) (rb : Readable R args B b)
    (hB : B ≠ []) (hdep : args.archiveDependencies = false) (l : ListKind) (hl : l.Asked args) (hf : args.format = str "json2")
    {E P Q : Dict Str Entry} (h : makeReport R A { args with diff := some B } = some (.ok (.entries E)))
    (hp : makeReport R A { args with diff := none } = some (.ok (.entries P)))
    (hq : makeReport R B { args with diff := none } = some (.ok (.entries Q))) :
    ∃ parts goes parts' goes', CutInto R args a parts goes ∧ CutInto R args b parts' goes' ∧
      Compares args.showUnchanged (l.Exact args (parts ++ parts')) E P Q := by
  obtain ⟨m, ref, hm, hr⟩ := run_maps hdep h hB
  obtain ⟨parts, goes, k1, c1⟩ := cell_map_of ra hm
  obtain ⟨parts', goes', k2, c2⟩ := cell_map_of rb hr
  refine ⟨parts, goes, parts', goes', k1, k2, ?_⟩
  obtain ⟨_, x⟩ := entries_diff hm hr c1 c2 hB hdep l hl hf h
  obtain ⟨_, _, y⟩ := entries_plain hm c1 hdep l hl hf hp
  obtain ⟨_, _, z⟩ := entries_plain hr c2 hdep l hl hf hq
  have t1 := l.total args (parts ++ parts')
  have yt := fun k => y.total (l.total args parts) (by intro hx; cases hx) k
  have zt := fun k => z.total (l.total args parts') (by intro hx; cases hx) k
  have ht : truthy (some B) = true := truthy_some hB
  refine ⟨?_, ?_, ?_, ?_, ?_, ?_⟩
  · intro k
    rw [x.diff t1 k, yt, zt]
  · intro k hk
    rw [(x.listed t1 hk).1, yt]
  · intro k hk hs
    have := (x.changed ht hs).mp hk
    rw [yt, zt]
    omega
  · intro k hk hs
    rw [yt, zt] at hk hs
    apply x.must
    by_cases hz : l.size args m k .total = l.size args ref k .total
    · have hs := hs.resolve_left (fun hx => hx hz)
      exact .inr ⟨fun _ => hs, by omega⟩
    · refine .inl ?_
      show l.size args m k .total - l.size args ref k .total ≠ 0
      omega
  · intro k e p q he hp hq c hc
    have h1 := x.cell he hc
    have h2 := y.cell hp (l.sub (fun p hp => List.mem_append.mpr (.inl hp)) hc)
    have h3 := z.cell hq (l.sub (fun p hp => List.mem_append.mpr (.inr hp)) hc)
    rw [h1.1, h1.2, h2.1, h3.1]
    exact ⟨rfl, rfl⟩
  · have ex : sumBy (fun e : Str × Entry => e.2.sizeDiff) E =
        sumBy (fun k => l.size args m k .total - l.size args ref k .total) (E.map Prod.fst) := by
      rw [sumBy_map]
      apply sumBy_congr
      intro e he
      exact (x.cell (k := e.1) (e := e.2) he t1).2
    have ey : sumBy (fun e : Str × Entry => e.2.size) P = sumBy (fun k => l.size args m k .total) (P.map Prod.fst) := by
      rw [sumBy_map]
      apply sumBy_congr
      intro e he
      exact (y.cell (k := e.1) (e := e.2) he (l.total args parts)).1
    have ez : sumBy (fun e : Str × Entry => e.2.size) Q = sumBy (fun k => l.size args ref k .total) (Q.map Prod.fst) := by
      rw [sumBy_map]
      apply sumBy_congr
      intro e he
      exact (z.cell (k := e.1) (e := e.2) he (l.total args parts')).1
    have inP : ∀ k, l.size args m k .total ≠ 0 → k ∈ P.map Prod.fst := fun k hk => y.must (.inr ⟨(by intro hx; cases hx), hk⟩)
    have inQ : ∀ k, l.size args ref k .total ≠ 0 → k ∈ Q.map Prod.fst := fun k hk => z.must (.inr ⟨(by intro hx; cases hx), hk⟩)
    -- all the names there are
    obtain ⟨K, nd, hK⟩ : ∃ K : List Str, K.Nodup ∧ ∀ k, k ∈ K ↔ k ∈ P.map Prod.fst ∨ k ∈ Q.map Prod.fst := by
      refine ⟨P.map Prod.fst ++ (Q.map Prod.fst).filter fun k => decide (k ∉ P.map Prod.fst), ?_, ?_⟩
      · refine List.nodup_append.mpr ⟨y.distinct, (show (Q.map Prod.fst).Nodup from z.distinct).filter _, ?_⟩
        intro i hi j hj e
        subst e
        exact (of_decide_eq_true (List.mem_filter.mp hj).2) hi
      · intro k
        rw [List.mem_append, List.mem_filter]
        constructor
        · rintro (h1 | h1)
          · exact .inl h1
          · exact .inr h1.1
        · rintro (h1 | h1)
          · exact .inl h1
          · by_cases h2 : k ∈ P.map Prod.fst
            · exact .inl h2
            · exact .inr ⟨h1, decide_eq_true h2⟩
    rw [ex, ey, ez, sumBy_support (a := E.map Prod.fst) (b := K) x.distinct nd, sumBy_support (a := P.map Prod.fst) (b := K) y.distinct nd,
      sumBy_support (a := Q.map Prod.fst) (b := K) z.distinct nd, sumBy_sub]
    · intro k hk
      simp only [hK]
      exact ⟨.inr, fun _ => inQ k hk⟩
    · intro k hk
      simp only [hK]
      exact ⟨.inl, fun _ => inP k hk⟩
    · intro k hk
      simp only [hK]
      constructor
      · intro _
        by_cases hz : l.size args m k .total = 0
        · exact .inr (inQ k (by omega))
        · exact .inl (inP k hz)
      · intro _
        exact x.must (.inl hk)

/-! ### Examples -/

/-- The same archives compared in both directions. -/
theorem ex_opposite :
    exDiffs (makeReport (exRun exTwoWorld) (str "/b/x.map") { format := str "json2", archives := true, unify := true, diff := some (str "/o/x.map"), showUnchanged := true }) =
      some [(str "liba.a", 28, 12), (str "libb.a", 8, 0)] ∧
    exDiffs (makeReport (exRun exTwoWorld) (str "/o/x.map") { format := str "json2", archives := true, unify := true, diff := some (str "/b/x.map"), showUnchanged := true }) =
      some [(str "liba.a", 16, -12), (str "libb.a", 8, 0)] ∧
    exDiffs (makeReport (exRun exTwoWorld) (str "/b/x.map") { format := str "json2", archives := true, unify := true }) =
      some [(str "liba.a", 28, 0), (str "libb.a", 8, 0)] ∧
    exDiffs (makeReport (exRun exTwoWorld) (str "/o/x.map") { format := str "json2", archives := true, unify := true }) =
      some [(str "liba.a", 16, 0), (str "libb.a", 8, 0)] :=
  ⟨by decide +kernel, by decide +kernel, by decide +kernel, by decide +kernel⟩

/-- The hypotheses of the theorems can be fulfilled. -/
example : (∃ l, Readable (exRun exTwoWorld) { format := str "json2", archives := true, unify := true } (str "/b/x.map") l) ∧
    (∃ l, Readable (exRun exTwoWorld) { format := str "json2", archives := true, unify := true } (str "/o/x.map") l) ∧
    ListKind.archives.Asked { format := str "json2", archives := true, unify := true } :=
  ⟨readable_of (by decide +kernel), readable_of (by decide +kernel), rfl⟩

/-- **C106** fails for the totals of memory types in the raw report: with the flash memory, comparing in either direction
shows that it became smaller. -/
theorem C106_flash_not_opposite :
    rawSizeDiff (str "Flash Code") (makeReport (exRun exFlashWorld) (str "/b/x.map") { diff := some (str "/b/x.map"), format := str "raw" }) =
      some (-256) ∧ (-256 : Int) ≠ - (-256) :=
  ⟨C63_self_compare_nonzero.2, by decide⟩

end EspSize
