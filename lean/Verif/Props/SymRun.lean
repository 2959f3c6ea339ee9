import Verif.Proofs.LinearSyms
import Verif.Props.DiffRun
import Verif.Props.SymOrigin
/-! # C79: the symbol report of whole runs -/
namespace EspSize

/-! ### Names of symbols -/

def NamedSyms (m : MemMap) : Prop :=
  ∀ t ∈ m.memoryTypes, ∀ s ∈ t.2.sections, ∀ a ∈ s.2.kids, ∀ o ∈ a.2.kids, ∀ y ∈ o.2.kids, y.2.abb = y.1

theorem Keeps.below {α : Type} {N : α → Prop} {out : Option α → Option α → α} (h : Keeps (fun _ => N) out) :
    Keeps (fun _ (n : Node α) => ∀ p ∈ n.kids, N p.2) (outNode out) := by
  refine ⟨fun _ c r hc hr => ?_, fun _ c hc => ?_, fun _ r hr => ?_⟩
  · exact h.level hc hr
  · exact h.level hc (by simp [kidsOf])
  · exact h.level (by simp) hr

theorem namedSyms_outMap {c r : MemMap} (hc : NamedSyms c) (hr : NamedSyms r) : NamedSyms (outMap c r) := by
  have hsym : Keeps (fun y (n : Sym) => n.abb = y) outSym := ⟨fun _ _ _ h _ => h, fun _ _ h => h, fun _ _ h => h⟩
  have hobj : Keeps (fun _ (n : Obj) => ∀ y ∈ n.kids, y.2.abb = y.1) outObj := by
    refine ⟨fun _ c r hc hr => ?_, fun _ c hc => ?_, fun _ r hr => ?_⟩
    · exact hsym.level hc hr
    · exact hsym.level hc (by simp [kidsOf])
    · exact hsym.level (by simp) hr
  have hsec : Keeps (fun _ (s : Sec) => ∀ a ∈ s.kids, ∀ o ∈ a.2.kids, ∀ y ∈ o.2.kids, y.2.abb = y.1) outSec := hobj.below.below
  have hmt : Keeps (fun _ (t : MType) => ∀ s ∈ t.sections, ∀ a ∈ s.2.kids, ∀ o ∈ a.2.kids, ∀ y ∈ o.2.kids, y.2.abb = y.1) outMType := by
    refine ⟨fun _ c r hc hr => ?_, fun _ c hc => ?_, fun _ r hr => ?_⟩
    · exact hsec.level hc hr
    · exact hsec.level hc (by simp [sectionsOf])
    · exact hsec.level (by simp) hr
  exact hmt.level hc hr

theorem namedSyms_removeUnused {m : MemMap} (h : NamedSyms m) : NamedSyms (removeUnused m) := by
  intro t ht s hs
  simp only [removeUnused, dmap, dfilter, List.mem_map, List.mem_filter] at ht
  obtain ⟨q, ⟨q1, ⟨hq1, _⟩, rfl⟩, rfl⟩ := ht
  exact h q1 hq1 s (List.mem_filter.mp hs).1

theorem namedSyms_ignoreFlash {m : MemMap} (h : NamedSyms m) : NamedSyms (ignoreFlashSize m) := by
  intro t ht s hs
  simp only [ignoreFlashSize, dmap, List.mem_map] at ht
  obtain ⟨q, hq, rfl⟩ := ht
  simp only [] at hs
  split at hs
  · exact h q hq s hs
  · exact h q hq s hs

theorem sumSyms_congr {m : MemMap} {F G : Str → Str → Str × Arch → Str × Obj → Str × Sym → Int}
    (h : ∀ t ∈ m.memoryTypes, ∀ s ∈ t.2.sections, ∀ a ∈ s.2.kids, ∀ o ∈ a.2.kids, ∀ y ∈ o.2.kids, F t.1 s.1 a o y = G t.1 s.1 a o y) :
    sumSyms m F = sumSyms m G :=
  sumObjs_congr fun t ht s hs a ha o ho => sumBy_congr fun y hy => h t ht s hs a ha o ho y hy

/-! ### `prepare` -/

/-- The selection of the symbols of the requested archive that are reported as `k`. -/
def selSym (args : Args) (k : Str) : Str → Str → Str → Bool :=
  fun a o y => decide (some (basename a) = args.archiveDetails ∧ reportedSym args.unify a o y = k)

/-- The entry for `k` of a map that is shown. -/
def shownSyms (args : Args) (d : MemMap) (f : Sym → Int) (k : Str) : Int :=
  sumSyms d fun _ _ a o y => if some a.2.abb = args.archiveDetails then (if symKey args.unify a o y = k then f y.2 else 0) else 0

/-- The selected total of a map. -/
def selTotal (args : Args) (m : MemMap) (f : Sym → Int) (k : Str) : Int :=
  sumSyms m fun _ _ a o y => if selSym args k a.1 o.1 y.1 then f y.2 else 0

theorem shownSyms_named {args : Args} {d : MemMap} (hn : NamedMap d) (hu : args.unify = false) (f : Sym → Int) (k : Str) :
    shownSyms args d f k = selTotal args d f k := by
  unfold shownSyms selTotal
  apply sumSyms_congr
  intro t ht s hs' a ha o ho y hy
  rw [(hn t ht s hs' a ha).1]
  unfold selSym symKey reportedSym
  simp only [hu, Bool.false_eq_true, if_false, decide_eq_true_eq]
  by_cases h1 : some (basename a.1) = args.archiveDetails <;> simp [h1]

/-- The same for a map after `unify`. -/
theorem shownSyms_unified {args : Args} {d : MemMap} (hu : args.unify = true) (f : Sym → Int) (k : Str) :
    shownSyms args (unify d) f k = sumSyms (unify d) fun _ _ a _ y =>
      if (decide (some a.1 = args.archiveDetails ∧ y.1 = k)) = true then f y.2 else 0 := by
  unfold shownSyms
  apply sumSyms_congr
  intro t ht s hs a ha o ho y hy
  have h1 := ((C05_unify_keys d t ht).2 s hs).2.2 a ha
  have h2 := h1.2.2 o ho
  have h3 := h2.2.2 y hy
  rw [← h1.1]
  unfold symKey
  rw [← h3.1]
  simp only [hu, if_true, decide_eq_true_eq]
  by_cases h : some a.1 = args.archiveDetails <;> simp [h]

theorem selTotal_unify {args : Args} {d : MemMap} (hn : NamedMap d) (hs : NamedSyms d) (hu : args.unify = true) (f : Sym → Int) (k : Str) :
    (sumSyms d fun _ _ a _ y => if (decide (some a.2.abb = args.archiveDetails ∧ y.2.abb = k)) = true then f y.2 else 0) =
      selTotal args d f k := by
  unfold selTotal
  apply sumSyms_congr
  intro t ht s hs' a ha o ho y hy
  rw [(hn t ht s hs' a ha).1, hs t ht s hs' a ha o ho y hy]
  simp [selSym, reportedSym, hu]

/-- The entries of what is shown are the totals of the maps of the projects, or their difference. -/
theorem prepare_syms {args : Args} {m ref d : MemMap} (hm : m.WF) (hmn : NamedMap m) (hms : NamedSyms m) (hmu : UnusedEmpty m)
    (hr : truthy args.diff = true → ref.WF ∧ NamedMap ref ∧ NamedSyms ref ∧ UnusedEmpty ref) (h : prepare args m ref = .ok d) :
    d.WF ∧ ∀ k, shownSyms args d Sym.size k = selTotal args m Sym.size k ∧
      shownSyms args d Sym.sizeDiff k = if truthy args.diff then selTotal args m Sym.size k - selTotal args ref Sym.size k
        else selTotal args m Sym.sizeDiff k := by
  have uni : ∀ d' : MemMap, NamedMap d' → NamedSyms d' → ∀ k,
      shownSyms args (if args.unify then unify d' else d') Sym.size k = selTotal args d' Sym.size k ∧
      shownSyms args (if args.unify then unify d' else d') Sym.sizeDiff k = selTotal args d' Sym.sizeDiff k := by
    intro d' h1 h2 k
    cases hu : args.unify with
    | false =>
      simp only [Bool.false_eq_true, if_false]
      exact ⟨shownSyms_named h1 hu _ k, shownSyms_named h1 hu _ k⟩
    | true =>
      simp only [if_true]
      rw [shownSyms_unified hu, shownSyms_unified hu, ← selTotal_unify h1 h2 hu, ← selTotal_unify h1 h2 hu]
      exact ⟨sumSyms_unify_size d' fun a _ y => decide (some a = args.archiveDetails ∧ y = k),
        sumSyms_unify_diff d' fun a _ y => decide (some a = args.archiveDetails ∧ y = k)⟩
  have hsel : ∀ {m m' : MemMap}, Fine m m' → ∀ f k, selTotal args m' f k = selTotal args m f k := fun hf f k => hf.sums (fun _ _ a => sumBy (fun o : Str × Obj => sumBy (fun y : Str × Sym =>
      if selSym args k a.1 o.1 y.1 then f y.2 else 0) o.2.kids) a.2.kids)
  have hns : ∀ {m : MemMap} (b : Bool), NamedSyms m → NamedSyms (if b then m else removeUnused m) := by
    intro m b h; split
    · exact h
    · exact namedSyms_removeUnused h
  have hni : ∀ {m : MemMap} (b : Bool), NamedSyms m → NamedSyms (if b then m else ignoreFlashSize m) := by
    intro m b h; split
    · exact h
    · exact namedSyms_ignoreFlash h
  have hwf : ∀ d' : MemMap, d'.WF → (if args.unify then unify d' else d').WF := by
    intro d' h'; split
    · exact wf_unify h'
    · exact h'
  unfold prepare at h
  have f1 := fine_ignoreFlash (fine_removeUnused hm hmn hmu args.showUnused) args.useFlashSize
  have s1 := hni args.useFlashSize (hns args.showUnused hms)
  cases hd : truthy args.diff with
  | false =>
    simp only [hd, Bool.false_eq_true, if_false, bind, Except.bind, Except.ok.injEq] at h
    subst h
    refine ⟨hwf _ f1.wf, fun k => ?_⟩
    have := uni _ f1.named s1 k
    rw [hsel f1, hsel f1] at this
    simpa using this
  | true =>
    obtain ⟨h1, h2, h3, h4⟩ := hr hd
    have f2 := fine_ignoreFlash f1 args.useFlashSize
    have s2 := hni args.useFlashSize s1
    have f3 := fine_removeUnused h1 h2 h4 args.showUnused
    have s3 := hns args.showUnused h3
    simp only [hd, if_true, bind, Except.bind] at h
    rw [diff_eq f2.wf f3.wf] at h
    simp only [Except.ok.injEq] at h
    subst h
    refine ⟨hwf _ (wf_outMap f2.wf f3.wf), fun k => ?_⟩
    have := uni _ (named_outMap f2.named f3.named) (namedSyms_outMap s2 s3) k
    rw [this.1, this.2, if_pos rfl, ← hsel f2 Sym.size k, ← hsel f3 Sym.size k]
    exact ⟨sumSyms_diff_size f2.wf f3.wf (selSym args k), sumSyms_diff_diff f2.wf f3.wf (selSym args k)⟩

/-! ### Projects -/

/-- What was read for a project: its output sections with symbols, of which no two of an object file have one name. -/
structure SymProject (R : RunIn) (args : Args) (fn : Str) (l : GetIn) (osecs : List OSec) : Prop where
  loads : load R.w fn (useDwarfOf args) none = .ok l
  symbols : withSymbols (loadSymbolsOf args) l = .ok osecs
  sizes : ∀ s ∈ l.sections, 0 ≤ s.size
  unique : ∀ q ∈ osecs, (symKeys q.inputs).Nodup

/-- How the output sections are cut into parts, and where the parts go. -/
def CutInto (R : RunIn) (args : Args) (l : GetIn) (parts : List MSec) (goes : MSec → Option (Str × Str)) : Prop :=
  ∃ regions, PartsOf R.n (loadSymbolsOf args) l regions parts ∧ ∀ s, Goes l.types regions s (goes s)

/-- What is shown of the symbols selected by `P`: those of the input sections, except in the parts that go nowhere. -/
noncomputable def symbolsShown (osecs : List OSec) (goes : MSec → Option (Str × Str)) (parts : List MSec)
    (P : Str → Str → Str → Bool) : Int := sumBy (symbolSum P) osecs - partsSyms P (lostParts goes parts)

theorem sym_map {R : RunIn} {args : Args} {fn : Str} {l : GetIn} {osecs : List OSec} (hp : SymProject R args fn l osecs)
    {mf : Option MapFile} (hmf : ∀ f, mf = some f → loadMap R.w fn = .ok f) {m : MemMap} {e : Option ElfData}
    (h : getMap R.n R.w fn (loadSymbolsOf args) (useDwarfOf args) mf e = some (.ok m)) :
    ∃ parts goes, CutInto R args l parts goes ∧ m.WF ∧ NamedMap m ∧ NamedSyms m ∧ UnusedEmpty m ∧
      (∀ k, selTotal args m Sym.size k = symbolsShown osecs goes parts (selSym args k)) ∧
      ∀ k, selTotal args m Sym.sizeDiff k = 0 := by
  have hl : load R.w fn (useDwarfOf args) mf = .ok l := by
    rw [← hp.loads]
    cases mf with
    | none => rfl
    | some f =>
      have : useMap R.w fn none = useMap R.w fn (some f) := by simp [useMap, hmf f rfl, wrapMap]
      unfold load
      rw [this]
  obtain ⟨l', regions, parts, goes, hl', hpo, hg, hwf, hsec, hold, _, _⟩ := get_shown h
  rw [hl] at hl'
  cases hl'
  obtain ⟨regs2, parts2, goes2, hp2, hg2, htot⟩ :=
    C78_totals_partial R.n R.w fn _ _ mf e m l h hl osecs hp.symbols hp.unique
  obtain ⟨_, _, hkey⟩ := sym_key h hl
  have hget : ∀ t ∈ m.memoryTypes, ∀ s ∈ t.2.sections, ∀ a ∈ s.2.kids, ∀ o ∈ a.2.kids, ∀ y ∈ o.2.kids,
      getSym m t.1 s.1 a.1 o.1 y.1 = some y.2 := by
    intro t ht s hs a ha o ho y hy
    have h1 := hwf.2 t ht
    have h2 := h1.2 s hs
    have h3 := h2.2 a ha
    have h4 := h3.2 o ho
    exact Option.bind_eq_some_iff.mpr ⟨o.2, Option.bind_eq_some_iff.mpr ⟨a.2, Option.bind_eq_some_iff.mpr ⟨s.2,
      Option.bind_eq_some_iff.mpr ⟨t.2, dget_of_mem hwf.1 ht, dget_of_mem h1.1 hs⟩, dget_of_mem h2.1 ha⟩,
      dget_of_mem h3.1 ho⟩, dget_of_mem h4.1 hy⟩
  have hpos : ∀ s ∈ keptOf l, 0 < s.size := by
    intro s hs
    have hk : s.size ≠ 0 := by
      have hk := (List.mem_filter.mp hs).2
      simp only [decide_eq_true_eq] at hk
      exact hk.1
    have := hp.sizes s (List.mem_filter.mp hs).1
    omega
  refine ⟨parts2, goes2, ⟨regs2, hp2, hg2⟩, hwf, ?_, ?_, ?_, ?_, ?_⟩
  · intro t ht s hs a ha
    have hg' : getSec m t.1 s.1 = some s.2 :=
      Option.bind_eq_some_iff.mpr ⟨t.2, dget_of_mem hwf.1 ht, dget_of_mem (hwf.2 t ht).1 hs⟩
    obtain ⟨_, p, hpp, hx, _⟩ := hsec _ _ _ hg'
    obtain ⟨q, hok⟩ := parts_archives hpo hpp
    have hk : s.2.kids = p.archives := by rw [hx]; rfl
    rw [hk] at ha
    obtain ⟨h1, _, _, _, _, h6⟩ := hok.arch a.1 a.2 (dget_of_mem hok.wf.1 ha)
    exact ⟨h1, fun o ho => (h6 o.1 o.2 (dget_of_mem (hok.wf.2 a ha).1 ho)).1⟩
  · intro t ht s hs a ha o ho y hy
    exact (hkey _ _ _ _ _ _ (hget t ht s hs a ha o ho y hy)).1
  · intro t ht hu
    refine empty_of_unused (hold t.1 t.2 (dget_of_mem hwf.1 ht)).2 ?_ hu
    intro p hpp
    obtain ⟨s, hs, _, h2, _⟩ := parts_from hpo hpp
    exact h2 (hpos s hs)
  · intro k
    have := htot (selSym args k)
    unfold symbolsShown
    rw [← this]
    unfold selTotal
    omega
  · intro k
    refine (sumSyms_congr (G := fun _ _ _ _ _ => 0) ?_).trans (sumSyms_zero m)
    intro t ht s hs a ha o ho y hy
    simp [(hkey _ _ _ _ _ _ (hget t ht s hs a ha o ho y hy)).2.1]

/-! ### Entries -/

theorem symbols_nodup {d : MemMap} (hd : d.WF) {args : Args} {S : Dict Str Entry} (h : getSymbolsSummary d args = .ok S) :
    KeysNodup S := by
  obtain ⟨E', hE', inv⟩ := summarize_inv (mtWF_summaryTypes hd) _ (symRecs_ok hd args.unify args.archiveDetails)
  unfold getSymbolsSummary at h
  simp only [hE', bind, Except.bind] at h
  split at h
  · cases h
  · simp only [Except.ok.injEq] at h
    subst h
    unfold remSummaryUnchanged
    split
    · exact inv.nodup
    · exact inv.nodup.dfilter _

/-- The JSON report of the symbols of a map. -/
theorem json_symbols {R : RunIn} {crt : Option Crt} {elf : Option (List ElfSym)} {args : Args} {d : MemMap} {rep : Report}
    (hwf : d.WF) (hform : args.format = str "json2") (harch : args.archives = false) (hdet : truthy args.archiveDetails = true)
    (h : showReport R crt elf args d = .ok rep) :
    ∃ E, rep = .entries E ∧ KeysNodup E ∧ InOrder args E ∧
      (∀ k e, dget E k = some e → e.size = shownSyms args d Sym.size k ∧ e.sizeDiff = shownSyms args d Sym.sizeDiff k ∧
        (truthy args.diff = true → args.showUnchanged = false → e.sizeDiff ≠ 0)) ∧
      ∀ k, (shownSyms args d Sym.sizeDiff k ≠ 0 ∨
          ((truthy args.diff = true → args.showUnchanged = true) ∧ shownSyms args d Sym.size k ≠ 0)) → (dget E k).isSome = true := by
  simp only [showReport, hform, showJson, harch, hdet, if_true, Bool.false_eq_true, if_false] at h
  rw [if_neg (by decide)] at h
  obtain ⟨hexit, hsome⟩ := C13_symbols_summary_partial d hwf args
  by_cases hhas : HasSymbol d args.archiveDetails
  · obtain ⟨E, S, hS, hnd, hES, hkeys, _⟩ := hsome hhas
    obtain ⟨E', S', hS', _, hES', hkeys', _⟩ := (C13_symbols_summary_partial d hwf { args with showUnchanged := true }).2 hhas
    -- the same entries before unchanged ones are removed
    obtain ⟨E0, hE0, inv⟩ := summarize_inv (mtWF_summaryTypes hwf) _ (symRecs_ok hwf args.unify args.archiveDetails)
    have hne : ((walk d (str "all")).filterMap (symRec args.unify args.archiveDetails)).isEmpty = false := by
      cases hx : ((walk d (str "all")).filterMap (symRec args.unify args.archiveDetails)).isEmpty with
      | false => rfl
      | true =>
        exfalso
        refine hexit.mp ?_ hhas
        unfold getSymbolsSummary
        simp [hE0, bind, Except.bind, hx]
    have hS0 : S = remSummaryUnchanged E0 args := by
      unfold getSymbolsSummary at hS
      simp only [hE0, bind, Except.bind, hne, Bool.false_eq_true, if_false, Except.ok.injEq] at hS
      exact hS.symm
    have hS0' : S' = remSummaryUnchanged E0 { args with showUnchanged := true } := by
      unfold getSymbolsSummary at hS'
      simp only [hE0, bind, Except.bind, hne, Bool.false_eq_true, if_false, Except.ok.injEq] at hS'
      exact hS'.symm
    have hEA : ∀ k e, dget S' k = some e ↔ dget E0 k = some e := by
      intro k e
      rw [hS0', remSummaryUnchanged_spec _ E0 inv.nodup]
      simp
    have hE1 : ∀ k e, dget S k = some e ↔ dget E0 k = some e ∧
        (truthy args.diff = true → args.showUnchanged = false → e.sizeDiff ≠ 0) := by
      intro k e
      rw [hS0, remSummaryUnchanged_spec _ E0 inv.nodup]
    have hval : ∀ k e, dget E0 k = some e → e.size = shownSyms args d Sym.size k ∧ e.sizeDiff = shownSyms args d Sym.sizeDiff k := by
      intro k e he
      have := C13_entries d hwf { args with showUnchanged := true } hS' ((hEA k e).mpr he)
      exact ⟨this.2.1, this.2.2.1⟩
    simp only [hS, bind, Except.bind, Except.ok.injEq] at h
    have hsort := entries_sorted (C07_summary_sorted S args) (symbols_nodup hwf hS)
    refine ⟨_, h.symm, hsort.1, hsort.2.2.2, ?_, ?_⟩
    · intro k e' he'
      obtain ⟨e, he, hr⟩ := hsort.2.2.1 k e' he'
      have h1 := (hE1 k e).mp he
      have h2 := hval k e h1.1
      rw [hr.2.1, hr.2.2.1]
      exact ⟨h2.1, h2.2, h1.2⟩
    · intro k hk
      rw [hsort.2.1 k]
      have hex : (dget E' k).isSome = true := by
        rw [hkeys' k]
        refine Classical.byContradiction fun hno => ?_
        have hz : ∀ f : Sym → Int, shownSyms args d f k = 0 := by
          intro f
          refine (sumSyms_congr (G := fun _ _ _ _ _ => 0) ?_).trans (sumSyms_zero d)
          intro t ht s hs a ha o ho y hy
          split
          · refine if_neg ?_
            intro hk'
            have h1 := hwf.2 t ht
            have h2 := h1.2 s hs
            have h3 := h2.2 a ha
            have h4 := h3.2 o ho
            have ga : getArch d t.1 s.1 a.1 = some a.2 := Option.bind_eq_some_iff.mpr ⟨s.2,
              Option.bind_eq_some_iff.mpr ⟨t.2, dget_of_mem hwf.1 ht, dget_of_mem h1.1 hs⟩, dget_of_mem h2.1 ha⟩
            refine hno ⟨t.1, s.1, a.1, o.1, y.1, a.2, y.2, ga, by assumption,
              Option.bind_eq_some_iff.mpr ⟨o.2, Option.bind_eq_some_iff.mpr ⟨a.2, ga, dget_of_mem h3.1 ho⟩, dget_of_mem h4.1 hy⟩, ?_⟩
            rw [← hk']
            simp [symKey, join]
          · rfl
        rcases hk with hk | ⟨_, hk⟩
        · exact hk (hz Sym.sizeDiff)
        · exact hk (hz Sym.size)
      obtain ⟨e, he⟩ := Option.isSome_iff_exists.mp hex
      have he0 : dget E0 k = some e := (hEA k e).mp ((hES' k e).mpr ⟨he, fun _ hx => by cases hx⟩)
      have : dget S k = some e := (hE1 k e).mpr ⟨he0, fun h1 h2 => by
        rw [(hval k e he0).2]
        rcases hk with hk | ⟨hk, _⟩
        · exact hk
        · rw [hk h1] at h2; cases h2⟩
      rw [this]; rfl
  · rw [hexit.mpr hhas] at h
    cases h

/-! ### The theorems -/

/-- **C79** (if no two symbols of an object file in an output section have one name) the run with
`--archive-details A --format json2`, with or without `--unify`: one entry per symbol of `A`. -/
theorem C79_symbols_partial (R : RunIn) (input : Str) (args : Args) (rep : Report) {l : GetIn} {osecs : List OSec}
    (hp : SymProject R args input l osecs) (hform : args.format = str "json2") (harch : args.archives = false)
    (hdet : truthy args.archiveDetails = true) (hdiff : truthy args.diff = false)
    (h : makeReport R input args = some (.ok rep)) :
    ∃ parts goes E, CutInto R args l parts goes ∧ rep = .entries E ∧
      PlainReport args (fun k => symbolsShown osecs goes parts (selSym args k)) E := by
  obtain ⟨mf, elf, m, ref, d, h1, _, h3, h4, h5, h6⟩ := makeReport_ok h
  obtain ⟨b, c, heff⟩ := eff_names args (.inr hdiff)
  rw [heff] at h3 h4 h5 h6
  obtain ⟨parts, goes, hcut, hwf, hn, hs, hu, hsz, hdf⟩ := sym_map hp (fun f hf => by cases hf; exact h1) h3
  obtain ⟨hdw, ht⟩ := prepare_syms (args := { args with noAbbrev := b, abbrev_ := c }) hwf hn hs hu
    (by intro hx; rw [hdiff] at hx; cases hx) h5
  obtain ⟨E, hE, hnd, hord, hval, hall⟩ := json_symbols (args := { args with noAbbrev := b, abbrev_ := c }) hdw hform harch hdet h6
  have e1 : ∀ k, shownSyms { args with noAbbrev := b, abbrev_ := c } d Sym.size k = symbolsShown osecs goes parts (selSym args k) :=
    fun k => (ht k).1.trans (hsz k)
  have e2 : ∀ k, shownSyms { args with noAbbrev := b, abbrev_ := c } d Sym.sizeDiff k = 0 := by
    intro k
    have := (ht k).2
    rw [if_neg (by simp [hdiff])] at this
    exact this.trans (hdf k)
  refine ⟨parts, goes, E, hcut, hE, hnd, hord, ?_, ?_⟩
  · intro k e he
    obtain ⟨g1, g2, _⟩ := hval k e he
    exact ⟨g1.trans (e1 k), g2.trans (e2 k)⟩
  · intro k hk
    exact hall k (.inr ⟨fun hx => (by rw [hdiff] at hx; cases hx), by rw [e1 k]; exact hk⟩)

/-- **C79** (as above, for both projects) the run with `--archive-details A --format json2 --diff reference`. -/
theorem C79_symbols_diff_partial (R : RunIn) (input reference : Str) (args : Args) (rep : Report) {l l' : GetIn} {osecs osecs' : List OSec}
    (hp : SymProject R args input l osecs) (hp' : SymProject R args reference l' osecs')
    (hform : args.format = str "json2") (harch : args.archives = false) (hdet : truthy args.archiveDetails = true)
    (hdiff : args.diff = some reference) (hne : reference ≠ []) (hdep : args.archiveDependencies = false)
    (h : makeReport R input args = some (.ok rep)) :
    ∃ parts goes parts' goes' E, CutInto R args l parts goes ∧ CutInto R args l' parts' goes' ∧ rep = .entries E ∧
      DiffReport args (fun k => symbolsShown osecs goes parts (selSym args k))
        (fun k => symbolsShown osecs' goes' parts' (selSym args k)) E := by
  obtain ⟨mf, elf, m, ref, d, h1, _, h3, h4, h5, h6⟩ := makeReport_ok h
  obtain ⟨b, c, heff⟩ := eff_names args (.inl hdep)
  rw [heff] at h3 h4 h5 h6
  have htr : truthy args.diff = true := by rw [hdiff]; exact truthy_some hne
  obtain ⟨parts, goes, hcut, hwf, hn, hs, hu, hsz, _⟩ := sym_map hp (fun f hf => by cases hf; exact h1) h3
  have h3' : getMap R.n R.w reference (loadSymbolsOf args) (useDwarfOf args) none none = some (.ok ref) := by
    unfold referenceMap at h4
    cases reference with
    | nil => exact absurd rfl hne
    | cons x y =>
      simp only [hdiff] at h4
      exact h4
  obtain ⟨parts', goes', hcut', hwf', hn', hs', hu', hsz', _⟩ := sym_map hp' (fun f hf => by cases hf) h3'
  obtain ⟨hdw, ht⟩ := prepare_syms (args := { args with noAbbrev := b, abbrev_ := c }) hwf hn hs hu
    (fun _ => ⟨hwf', hn', hs', hu'⟩) h5
  obtain ⟨E, hE, hnd, hord, hval, hall⟩ := json_symbols (args := { args with noAbbrev := b, abbrev_ := c }) hdw hform harch hdet h6
  have e1 : ∀ k, shownSyms { args with noAbbrev := b, abbrev_ := c } d Sym.size k = symbolsShown osecs goes parts (selSym args k) :=
    fun k => (ht k).1.trans (hsz k)
  have e2 : ∀ k, shownSyms { args with noAbbrev := b, abbrev_ := c } d Sym.sizeDiff k =
      symbolsShown osecs goes parts (selSym args k) - symbolsShown osecs' goes' parts' (selSym args k) := by
    intro k
    have := (ht k).2
    rw [if_pos (by simpa using htr)] at this
    rw [← hsz k, ← hsz' k]
    exact this
  refine ⟨parts, goes, parts', goes', E, hcut, hcut', hE, diffReport_of hnd hord ?_ ?_⟩
  · intro k e he
    obtain ⟨g1, g2, g3⟩ := hval k e he
    exact ⟨g1.trans (e1 k), g2.trans (e2 k), g3 htr⟩
  · intro k hk
    refine hall k ?_
    rw [e1 k, e2 k]
    rcases hk with hk | ⟨g1, g2⟩
    · exact .inl hk
    · exact .inr ⟨fun _ => g1, g2⟩

/-! ### Example -/

def exSymRun : RunIn := exRun (exSymWorld [exFunc "f" 0x100 0x10, exFunc "g" 0x110 4])

def exSymArgs (u : Bool) : Args := { format := str "json2", archiveDetails := some (str "liba.a"), unify := u }

example : exDiffs (makeReport exSymRun (str "/b/x.map") (exSymArgs false)) =
    some [(str "lib/liba.a:a.o:f()", 16, 0), (str "lib/liba.a:a.o:g()", 4, 0)] := by decide +kernel

example : exDiffs (makeReport exSymRun (str "/b/x.map") (exSymArgs true)) = some [(str "f()", 16, 0), (str "g()", 4, 0)] := by
  decide +kernel

/-- What was read fulfils the assumptions. -/
example : ∃ l osecs, SymProject exSymRun (exSymArgs true) (str "/b/x.map") l osecs := by
  have h : ∃ l, load exSymRun.w (str "/b/x.map") none none = .ok l ∧ (∀ s ∈ l.sections, 0 ≤ s.size) ∧
      ∃ os, withSymbols true l = .ok os ∧ ∀ q ∈ os, (symKeys q.inputs).Nodup := by
    cases hl : load exSymRun.w (str "/b/x.map") none none with
    | error e =>
      have : (load exSymRun.w (str "/b/x.map") none none).toOption.isSome = true := by decide +kernel
      rw [hl] at this; cases this
    | ok l =>
      have h1 : (load exSymRun.w (str "/b/x.map") none none).toOption.all (fun l => l.sections.all fun s => decide (0 ≤ s.size)) = true := by
        decide +kernel
      have h2 : (load exSymRun.w (str "/b/x.map") none none).toOption.all (fun l =>
          (withSymbols true l).toOption.any fun os => os.all fun q => decide (symKeys q.inputs).Nodup) = true := by
        decide +kernel
      rw [hl] at h1 h2
      simp only [Except.toOption, Option.all_some, List.all_eq_true, decide_eq_true_eq] at h1 h2
      refine ⟨l, rfl, h1, ?_⟩
      cases ho : withSymbols true l with
      | error e => rw [ho] at h2; simp at h2
      | ok os =>
        rw [ho] at h2
        simp only [Option.any_some, List.all_eq_true, decide_eq_true_eq] at h2
        exact ⟨os, rfl, h2⟩
  obtain ⟨l, h1, h2, os, h3, h4⟩ := h
  exact ⟨l, os, h1, h3, h2, h4⟩

/-- And with the reference being a build with another function. -/
def exSymTwoRun : RunIn := exRun
  { exSymWorld [exFunc "f" 0x100 0x10, exFunc "g" 0x110 4] with
    lines := fun fn => if fn = str "/b/x.map" ∨ fn = str "/o/x.map" then .ok exMapLines else .error .osError
    json := fun p => if p = str "/b/project_description.json" ∨ p = str "/o/project_description.json" then
      some { appElf := some (str "x.elf"), target := some (str "espx"), build := none, comps := none } else none
    elf := fun p =>
      if p = str "/b/x.elf" then
        some (.ok { shdrs := [{ name := str ".iram0.text", type := 1, size := 32, flags := 2 }]
                    syms := [exFunc "f" 0x100 0x10, exFunc "g" 0x110 4], cuSyms := .ok [] })
      else if p = str "/o/x.elf" then
        some (.ok { shdrs := [{ name := str ".iram0.text", type := 1, size := 32, flags := 2 }]
                    syms := [exFunc "f" 0x100 0xc], cuSyms := .ok [] })
      else none }

example : exDiffs (makeReport exSymTwoRun (str "/b/x.map") { exSymArgs true with diff := some (str "/o/x.map") }) =
    some [(str "f()", 16, 4), (str "g()", 4, 4)] := by decide +kernel

end EspSize
