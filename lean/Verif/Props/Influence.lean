import Verif.Spec.Influence
import Verif.Props.Options
/-! # C103: options that do not concern a report -/
namespace EspSize

/-- The names of the memory types, with their sections. -/
def secsView (m : MemMap) : Dict Str (Dict Str Sec) := m.memoryTypes.map fun p => (p.1, p.2.sections)

theorem secsView_ignoreFlash (m : MemMap) : secsView (ignoreFlashSize m) = secsView m := by
  unfold secsView ignoreFlashSize dmap
  simp only [List.map_map]
  apply List.map_congr_left
  intro p _
  simp only [Function.comp]
  split <;> rfl

theorem secsView_unify {m m' : MemMap} (h : secsView m = secsView m') : secsView (unify m) = secsView (unify m') := by
  have key : ∀ m : MemMap, secsView (unify m) = (secsView m).map fun p => (p.1, unifySecs p.2 []) := by
    intro m
    unfold secsView unify dmap
    simp only [List.map_map]
    rfl
  rw [key, key, h]

theorem dhas_secsView (m : MemMap) (k : Str) : dhas m.memoryTypes k = dhas (secsView m) k := by
  unfold secsView
  generalize m.memoryTypes = l
  induction l with
  | nil => rfl
  | cons p l ih =>
    unfold dhas at ih ⊢
    simp only [List.map_cons, dget]
    split
    · rfl
    · exact ih

theorem secsView_outMap {c c' : MemMap} (r : MemMap) (h : secsView c = secsView c') :
    secsView (outMap c r) = secsView (outMap c' r) := by
  have key : ∀ c : MemMap, secsView (outMap c r) =
      (secsView c).map (fun p => (p.1, outLevel outSec p.2 (sectionsOf (dget r.memoryTypes p.1)))) ++
        (r.memoryTypes.filter fun p => !dhas (secsView c) p.1).map fun p => (p.1, outLevel outSec [] p.2.sections) := by
    intro c
    unfold outMap
    simp only [← dhas_secsView]
    simp only [secsView, outLevel, List.map_append, List.map_map]
    rfl
  rw [key, key, h]

theorem prepare_flash (args : Args) (f : Bool) {cur ref : MemMap} (hc : cur.WF) (hr : ref.WF) :
    ∃ d d', prepare args cur ref = .ok d ∧ prepare { args with useFlashSize := f } cur ref = .ok d' ∧ secsView d = secsView d' := by
  have w1 : ∀ {m : MemMap} (b : Bool), m.WF → (if b = true then m else removeUnused m).WF := by
    intro m b h; split
    · exact h
    · exact wf_removeUnused h
  have w2 : ∀ {m : MemMap} (b : Bool), m.WF → (if b = true then m else ignoreFlashSize m).WF := by
    intro m b h; split
    · exact h
    · exact wf_ignoreFlash h
  have v2 : ∀ {m : MemMap} (b : Bool), secsView (if b = true then m else ignoreFlashSize m) = secsView m := by
    intro m b; split
    · rfl
    · exact secsView_ignoreFlash m
  have v3 : ∀ {m m' : MemMap} (b : Bool), secsView m = secsView m' →
      secsView (if b = true then unify m else m) = secsView (if b = true then unify m' else m') := by
    intro m m' b h; split
    · exact secsView_unify h
    · exact h
  unfold prepare
  cases ht : truthy args.diff with
  | false =>
    simp only [Bool.false_eq_true, if_false, bind, Except.bind]
    exact ⟨_, _, rfl, rfl, v3 _ (by rw [v2, v2])⟩
  | true =>
    simp only [if_true, bind, Except.bind]
    rw [diff_eq (w2 _ (w2 _ (w1 _ hc))) (w1 _ hr), diff_eq (w2 _ (w2 _ (w1 _ hc))) (w1 _ hr)]
    exact ⟨_, _, rfl, rfl, v3 _ (secsView_outMap _ (by rw [v2, v2, v2, v2]))⟩

/-- `prepare` of two maps without the totals of the types. -/
theorem prepared_flash (R : RunIn) (input : Str) (args : Args) (f : Bool) :
    (prepared R input { args with useFlashSize := f } = prepared R input args ∧ ∀ x, prepared R input args ≠ some (.ok x)) ∨
    ∃ crt elf d d', prepared R input args = some (.ok (crt, elf, d)) ∧
      prepared R input { args with useFlashSize := f } = some (.ok (crt, elf, d')) ∧ secsView d = secsView d' := by
  have e1 : loadSymbolsOf { args with useFlashSize := f } = loadSymbolsOf args := rfl
  have e2 : useDwarfOf { args with useFlashSize := f } = useDwarfOf args := rfl
  have e3 : ∀ m g, referenceMap { args with useFlashSize := f } m g = referenceMap args m g := fun _ _ => rfl
  unfold prepared
  simp only [e1, e2, e3]
  cases loadMap R.w input with
  | error x => exact .inl ⟨rfl, fun _ h => by cases h⟩
  | ok mf =>
    simp only []
    cases getElf R.w input none with
    | error x => exact .inl ⟨rfl, fun _ h => by cases h⟩
    | ok elf =>
      simp only []
      cases hm : getMap R.n R.w input (loadSymbolsOf args) (useDwarfOf args) (some mf) elf with
      | none => exact .inl ⟨rfl, fun _ h => by cases h⟩
      | some r =>
        cases r with
        | error x => exact .inl ⟨rfl, fun _ h => by cases h⟩
        | ok m =>
          simp only []
          cases href : referenceMap args m fun fn => getMap R.n R.w fn (loadSymbolsOf args) (useDwarfOf args) none none with
          | none => exact .inl ⟨rfl, fun _ h => by cases h⟩
          | some r =>
            cases r with
            | error x => exact .inl ⟨rfl, fun _ h => by cases h⟩
            | ok ref =>
              simp only []
              have wm : m.WF := by
                obtain ⟨_, _, _, _, _, _, hw, _⟩ := C58_accounted _ _ _ _ _ _ _ _ hm
                exact hw
              have wr : ref.WF := by
                unfold referenceMap at href
                split at href
                · obtain ⟨_, _, _, _, _, _, hw, _⟩ := C58_accounted _ _ _ _ _ _ _ _ href
                  exact hw
                · cases href; exact wm
              obtain ⟨d, d', h1, h2, h3⟩ := prepare_flash args f wm wr
              rw [h1, h2]
              exact .inr ⟨_, _, d, d', rfl, rfl, h3⟩

/-! ### What a listing is made of -/

/-- Records that do not look at the contents of the memory type. -/
theorem walk_secsView {β : Type} (depth : Str) (g : Item → Option β) (hd : depth ≠ str "types")
    (hg : ∀ (i : Item) (t : Str × MType), t.1 = i.type.1 → g { i with type := t } = g i) {m m' : MemMap}
    (h : secsView m = secsView m') : (walk m depth).filterMap g = (walk m' depth).filterMap g := by
  have hw : ∀ (s : Str × Sec) (t t' : Str × MType), t.1 = t'.1 → (walkSec depth t s).filterMap g = (walkSec depth t' s).filterMap g := by
    intro s t t' ht
    have ho : ∀ (a : Str × Arch) (o : Str × Obj), (walkObj depth t s a o).filterMap g = (walkObj depth t' s a o).filterMap g := by
      intro a o
      unfold walkObj
      split
      · simp only [List.filterMap_cons, List.filterMap_nil]
        rw [hg { type := t', sec := some s, arch := some a, obj := some o } t ht]
      · simp only [List.filterMap_map]
        congr 1
        funext y
        exact hg { type := t', sec := some s, arch := some a, obj := some o, sym := some y } t ht
    have ha : ∀ (a : Str × Arch), (walkArch depth t s a).filterMap g = (walkArch depth t' s a).filterMap g := by
      intro a
      unfold walkArch
      split
      · simp only [List.filterMap_cons, List.filterMap_nil]
        rw [hg { type := t', sec := some s, arch := some a } t ht]
      · simp only [List.filterMap_flatMap, ho]
    unfold walkSec
    split
    · simp only [List.filterMap_cons, List.filterMap_nil]
      rw [hg { type := t', sec := some s } t ht]
    · simp only [List.filterMap_flatMap, ha]
  have key : ∀ m : MemMap, (walk m depth).filterMap g = (secsView m).flatMap fun p =>
      (p.2.flatMap fun s => (walkSec depth (p.1, { size := 0, sizeDiff := 0, used := 0, usedDiff := 0, sections := p.2 }) s).filterMap g) := by
    intro m
    unfold walk secsView walkType
    simp only [List.filterMap_flatMap, if_neg hd, List.flatMap_map]
    congr 1
    funext p
    congr 1
    funext s
    exact hw s _ _ rfl
  rw [key, key, h]

theorem summaryTypes_secsView {m m' : MemMap} (h : secsView m = secsView m') : summaryTypes m = summaryTypes m' := by
  have key : ∀ m : MemMap, summaryTypes m = (secsView m).map fun p =>
      (p.1, { size := 0, sizeDiff := 0, sections := dmap (fun _ s => { abb := s.abb, size := 0, sizeDiff := 0 }) p.2 }) := by
    intro m
    unfold summaryTypes secsView dmap
    simp only [List.map_map]
    rfl
  rw [key, key, h]

theorem archivesSummary_secsView {m m' : MemMap} (args : Args) (h : secsView m = secsView m') :
    getArchivesSummary m args = getArchivesSummary m' args := by
  unfold getArchivesSummary
  rw [summaryTypes_secsView h, walk_secsView (str "archives") archRec (by decide) (fun i t ht => by simp only [archRec, ht]) h]

theorem objectFilesSummary_secsView {m m' : MemMap} (args : Args) (h : secsView m = secsView m') :
    getObjectFilesSummary m args = getObjectFilesSummary m' args := by
  unfold getObjectFilesSummary
  rw [summaryTypes_secsView h, walk_secsView (str "objects") (objRec args.unify) (by decide) (fun i t ht => by simp only [objRec, ht]) h]

theorem symbolsSummary_secsView {m m' : MemMap} (args : Args) (h : secsView m = secsView m') :
    getSymbolsSummary m args = getSymbolsSummary m' args := by
  unfold getSymbolsSummary
  rw [summaryTypes_secsView h,
    walk_secsView (str "all") (symRec args.unify args.archiveDetails) (by decide) (fun i t ht => by simp only [symRec, ht]) h]

theorem deps_secsView (ord : List Str → List Str) (crt : Option Crt) (elf : Option (List ElfSym)) {m m' : MemMap} (args : Args)
    (h : secsView m = secsView m') : getArchivesDependencies ord crt m elf args = getArchivesDependencies ord crt m' elf args := by
  unfold getArchivesDependencies
  rw [archivesSummary_secsView args h]

/-! ### The reports -/

/-- A run whose options differ in `--use-flash-size` only until the report is made. -/
theorem run_flash {R : RunIn} {input : Str} {a b : Args} (f : Bool)
    (hb : prepared R input (effectiveArgs b) = prepared R input { effectiveArgs a with useFlashSize := f })
    (h : ∀ crt elf d d', secsView d = secsView d' →
      showReport R crt elf (effectiveArgs b) d' = showReport R crt elf (effectiveArgs a) d) :
    makeReport R input b = makeReport R input a := by
  rw [makeReport_presented, makeReport_presented, hb]
  rcases prepared_flash R input (effectiveArgs a) f with ⟨he, hn⟩ | ⟨crt, elf, d, d', h1, h2, h3⟩
  · rw [he]
    cases hp : prepared R input (effectiveArgs a) with
    | none => rfl
    | some r =>
      cases r with
      | error x => rfl
      | ok x => exact absurd hp (hn x)
  · rw [h1, h2]
    simp only [presented]
    rw [h crt elf d d' h3]

/-- A run whose options differ only in what makes the report. -/
theorem run_same {R : RunIn} {input : Str} {a b : Args} (hs : SamePrep (effectiveArgs b) (effectiveArgs a))
    (h : ∀ crt elf d, showReport R crt elf (effectiveArgs b) d = showReport R crt elf (effectiveArgs a) d) :
    makeReport R input b = makeReport R input a := by
  rw [makeReport_presented, makeReport_presented, prepared_same hs]
  cases prepared R input (effectiveArgs a) with
  | none => rfl
  | some r =>
    cases r with
    | error x => rfl
    | ok x => simp only [presented, h]

theorem formats_ne : str "json2" ≠ str "table" ∧ str "json2" ≠ str "text" ∧ str "raw" ≠ str "table" ∧ str "raw" ≠ str "text" ∧
    str "raw" ≠ str "json2" ∧ str "csv" ≠ str "table" ∧ str "csv" ≠ str "text" ∧ str "csv" ≠ str "json2" ∧ str "csv" ≠ str "raw" ∧
    str "tree" ≠ str "table" ∧ str "tree" ≠ str "text" ∧ str "tree" ≠ str "json2" ∧ str "tree" ≠ str "raw" ∧ str "tree" ≠ str "csv" := by
  decide

/-- The table of a listing. -/
theorem selectTable_secsView {R : RunIn} {crt : Option Crt} {elf : Option (List ElfSym)} {args : Args} {d d' : MemMap}
    (hl : Listing args) (h : secsView d = secsView d') : selectTable R crt elf args d' = selectTable R crt elf args d := by
  rw [selectTable_listing hl, selectTable_listing hl]
  unfold summaryFor
  rw [archivesSummary_secsView args h, symbolsSummary_secsView args h, objectFilesSummary_secsView args h]

theorem eff_update (args : Args) (f s r : Bool) (o : Option Str) :
    effectiveArgs { args with useFlashSize := f, depSymbols := s, depReverse := r, outputFile := o } =
      { effectiveArgs args with useFlashSize := f, depSymbols := s, depReverse := r, outputFile := o } := by
  rw [eff_eq, eff_eq]

theorem selectTable_update {R : RunIn} {crt : Option Crt} {elf : Option (List ElfSym)} {args : Args} {d : MemMap} (f s r : Bool) (o : Option Str)
    (hl : Listing args) : selectTable R crt elf { args with useFlashSize := f, depSymbols := s, depReverse := r, outputFile := o } d =
      selectTable R crt elf args d := by
  rw [selectTable_listing (args := { args with useFlashSize := f, depSymbols := s, depReverse := r, outputFile := o }) hl, selectTable_listing hl]
  rfl

/-- **C103** the total size of the flash and the options about dependencies do not concern the listings of archives, files and
symbols. -/
theorem C103_listing (R : RunIn) (input : Str) (args : Args) (flash syms rev : Bool) (out : Option Str) (hl : Listing args)
    (hf : InTable args) :
    makeReport R input { args with useFlashSize := flash, depSymbols := syms, depReverse := rev, outputFile := out } =
      makeReport R input args := by
  have hl' : Listing (effectiveArgs args) := by rw [eff_eq]; exact hl
  have hf' : (effectiveArgs args).format ∈ [str "table", str "text", str "csv"] := by rw [eff_eq]; exact hf
  refine run_flash (a := args) flash ?_ ?_
  · rw [eff_update]
    exact prepared_same ⟨rfl, rfl, rfl, rfl, rfl, rfl⟩
  · intro crt elf d d' h
    rw [eff_update]
    unfold showReport
    simp only [selectTable_update _ _ _ _ hl', selectTable_secsView hl' h]
    simp only [List.mem_cons, List.not_mem_nil, or_false] at hf'
    rcases hf' with e | e | e
    · rw [if_pos (.inl e), if_pos (.inl e)]
    · rw [if_pos (.inr e), if_pos (.inr e)]
    · simp only [e, formats_ne, or_self, if_false, if_true]

theorem showJson_listing {R : RunIn} {crt : Option Crt} {elf : Option (List ElfSym)} {args : Args} {d : MemMap} (h : Listing args) :
    showJson R crt elf args d =
      match summaryFor d args with
      | .error x => .error x
      | .ok S => .ok (.entries (getSummarySorted S args)) := by
  unfold showJson summaryFor
  by_cases ha : args.archives = true
  · rw [if_pos ha, if_pos ha]
    cases getArchivesSummary d args <;> rfl
  · rw [if_neg ha, if_neg ha]
    by_cases hd : truthy args.archiveDetails = true
    · rw [if_pos hd, if_pos hd]
      cases getSymbolsSummary d args <;> rfl
    · rw [if_neg hd, if_neg hd]
      rcases h with h | h | ⟨h1, h2⟩
      · exact absurd h ha
      · exact absurd h hd
      · rw [if_neg (by simp [h1]), if_pos h2]
        cases getObjectFilesSummary d args <;> rfl

theorem showReport_json2 {R : RunIn} {crt : Option Crt} {elf : Option (List ElfSym)} {a : Args} {d : MemMap} (h : a.format = str "json2") :
    showReport R crt elf a d = showJson R crt elf a d := by
  unfold showReport
  simp only [h, formats_ne, or_self, if_false, if_true]

/-- The options that no JSON listing depends on. -/
theorem eff_json (args : Args) (f s r n : Bool) (o : Option Str) (c : Str) (p : Option (List Str)) :
    ∃ n' b, effectiveArgs { args with useFlashSize := f, depSymbols := s, depReverse := r, outputFile := o, noAbbrev := n, sort := c, filter := p } =
      { effectiveArgs args with useFlashSize := f, depSymbols := s, depReverse := r, outputFile := o, noAbbrev := n', abbrev_ := b,
                                sort := c, filter := p } := by
  rw [eff_eq, eff_eq]
  exact ⟨_, _, rfl⟩

/-- **C103** neither do abbreviations, the sorting column and filters concern the JSON listings. -/
theorem C103_json_listing (R : RunIn) (input : Str) (args : Args) (flash syms rev noAbbrev : Bool) (out : Option Str) (column : Str)
    (pats : Option (List Str)) (hl : Listing args) (hf : args.format = str "json2") :
    makeReport R input { args with useFlashSize := flash, depSymbols := syms, depReverse := rev, outputFile := out,
                                   noAbbrev := noAbbrev, sort := column, filter := pats } =
      makeReport R input args := by
  have hl' : Listing (effectiveArgs args) := by rw [eff_eq]; exact hl
  have hf' : (effectiveArgs args).format = str "json2" := by rw [eff_eq]; exact hf
  obtain ⟨n', b, he⟩ := eff_json args flash syms rev noAbbrev out column pats
  refine run_flash (a := args) flash ?_ ?_
  · rw [he]
    exact prepared_same ⟨rfl, rfl, rfl, rfl, rfl, rfl⟩
  · intro crt elf d d' h
    have hb : Listing (effectiveArgs { args with useFlashSize := flash, depSymbols := syms, depReverse := rev, outputFile := out, noAbbrev := noAbbrev, sort := column, filter := pats }) := by
      rw [eff_eq]; exact hl
    rw [showReport_json2 (by rw [eff_eq]; exact hf), showReport_json2 hf', showJson_listing hl', showJson_listing hb, he]
    have : ∀ a : Args, summaryFor d' a = summaryFor d a := by
      intro a
      unfold summaryFor
      rw [archivesSummary_secsView a h, symbolsSummary_secsView a h, objectFilesSummary_secsView a h]
    rw [this]
    rfl

/-! ### Dependencies -/

theorem prepared_noDiff {R : RunIn} {input : Str} {args : Args} (d : Option Str) (h : truthy args.diff = false) (hd : truthy d = false) :
    prepared R input { args with diff := d } = prepared R input args := by
  have hr : ∀ (a : Args), truthy a.diff = false → ∀ m g, referenceMap a m g = some (.ok m) := by
    intro a ha m g
    unfold referenceMap
    split
    · rename_i c fn hc
      rw [hc] at ha
      cases ha
    · rfl
  have hp : ∀ m ref, prepare { args with diff := d } m ref = prepare args m ref := by
    intro m ref
    unfold prepare
    simp only [h, hd]
  unfold prepared
  have e1 : loadSymbolsOf { args with diff := d } = loadSymbolsOf args := rfl
  have e2 : useDwarfOf { args with diff := d } = useDwarfOf args := rfl
  simp only [e1, e2, hp, hr args h, hr { args with diff := d } hd]

/-- The options that no report of the dependencies depends on. -/
theorem eff_deps (args : Args) (h : args.archiveDependencies = true) (f u sd sr : Bool) (o d : Option Str) (c : Str) :
    ∃ d' , truthy d' = false ∧ effectiveArgs { args with useFlashSize := f, diff := d, showUnchanged := u, outputFile := o, sort := c, sortDiff := sd, sortReverse := sr } =
      { effectiveArgs args with useFlashSize := f, diff := d', showUnchanged := u, outputFile := o, sort := c, sortDiff := sd, sortReverse := sr } := by
  rw [eff_eq, eff_eq]
  refine ⟨_, ?_, rfl⟩
  simp only [h, Bool.true_and]
  split
  · rfl
  · rename_i h; simpa using h

theorem eff_noDiff (args : Args) (h : args.archiveDependencies = true) : truthy (effectiveArgs args).diff = false := by
  rw [eff_eq]
  simp only [h, Bool.true_and]
  split
  · rfl
  · rename_i h; simpa using h

/-- Without differences everything is shown. -/
theorem archivesSummary_noDiff {m : MemMap} {a b : Args} (ha : truthy a.diff = false) (hb : truthy b.diff = false) :
    getArchivesSummary m a = getArchivesSummary m b := by
  unfold getArchivesSummary remSummaryUnchanged
  simp only [ha, hb, Bool.not_false, Bool.true_or, if_true]

theorem deps_noDiff {ord : List Str → List Str} {crt : Option Crt} {elf : Option (List ElfSym)} {m : MemMap} {a b : Args}
    (ha : truthy a.diff = false) (hb : truthy b.diff = false) (hr : a.depReverse = b.depReverse) :
    getArchivesDependencies ord crt m elf a = getArchivesDependencies ord crt m elf b := by
  unfold getArchivesDependencies
  rw [archivesSummary_noDiff ha hb, hr]

theorem depRows_update {a b : Args} (h1 : a.abbrev_ = b.abbrev_) (h2 : a.depSymbols = b.depSymbols) (name : Str) (size : Int) (first : Bool)
    (l : List (Str × DepInfo)) : depRows a name size first l = depRows b name size first l := by
  induction l generalizing first with
  | nil => rfl
  | cons p l ih => simp only [depRows, h1, h2, ih]

theorem depsTable_update {a b : Args} (h1 : a.abbrev_ = b.abbrev_) (h2 : a.depSymbols = b.depSymbols) (h3 : a.depReverse = b.depReverse)
    (h4 : a.filter = b.filter) (d : Deps) : depsTable a d = depsTable b d := by
  unfold depsTable getSummaryFiltered
  simp only [h1, h2, h3, h4, depRows_update h1 h2]

theorem selectTable_deps {R : RunIn} {crt : Option Crt} {elf : Option (List ElfSym)} {a : Args} {m : MemMap} (h : AsksDeps a) (ht : InTable a) :
    selectTable R crt elf a m = (getArchivesDependencies R.ord crt m elf a).map (depsTable a) := by
  obtain ⟨h1, h2⟩ := h
  obtain ⟨h3, h4⟩ := h2 (by
    unfold InTable at ht
    simp only [List.mem_cons, List.not_mem_nil, or_false] at ht ⊢
    rcases ht with e | e | e <;> simp [e])
  unfold selectTable
  simp only [h1, h3, h4, Bool.false_eq_true, if_false, if_true]
  cases getArchivesDependencies R.ord crt m elf a <;> rfl

theorem showJson_deps {R : RunIn} {crt : Option Crt} {elf : Option (List ElfSym)} {a : Args} {m : MemMap} (h : AsksDeps a)
    (hf : a.format = str "json2") : showJson R crt elf a m = (getArchivesDependencies R.ord crt m elf a).map .deps := by
  obtain ⟨h1, h2⟩ := h
  obtain ⟨h3, h4⟩ := h2 (by simp [hf])
  unfold showJson
  simp only [h1, h3, h4, Bool.false_eq_true, if_false, if_true]
  cases getArchivesDependencies R.ord crt m elf a <;> rfl

/-- The reports of dependencies of two runs that agree in the options concerned. -/
theorem showReport_deps {R : RunIn} {crt : Option Crt} {elf : Option (List ElfSym)} {a b : Args} {m m' : MemMap} (ha : AsksDeps a) (hb : AsksDeps b)
    (hda : truthy a.diff = false) (hdb : truthy b.diff = false) (hf : a.format = b.format) (hr : a.depReverse = b.depReverse)
    (hs : a.format ∈ [str "json2", str "raw", str "tree"] ∨ a.abbrev_ = b.abbrev_ ∧ a.depSymbols = b.depSymbols ∧ a.filter = b.filter)
    (h : secsView m = secsView m') : showReport R crt elf b m' = showReport R crt elf a m := by
  have hd : getArchivesDependencies R.ord crt m' elf b = getArchivesDependencies R.ord crt m elf a := by
    rw [deps_noDiff hdb hda hr.symm, deps_secsView R.ord crt elf a h]
  have ht : InTable a → selectTable R crt elf b m' = selectTable R crt elf a m := by
    intro hi
    rw [selectTable_deps ha hi, selectTable_deps hb (by unfold InTable at hi ⊢; rw [← hf]; exact hi), hd]
    rcases hs with hs | ⟨h1, h2, h3⟩
    · exfalso
      unfold InTable at hi
      simp only [List.mem_cons, List.not_mem_nil, or_false] at hi hs
      rcases hi with e | e | e <;> rw [e] at hs <;> revert hs <;> decide
    · have : depsTable b = depsTable a := by
        funext d
        exact (depsTable_update h1 h2 hr h3 d).symm
      rw [this]
  have hj : a.format = str "json2" → showJson R crt elf b m' = showJson R crt elf a m := by
    intro e
    rw [showJson_deps ha e, showJson_deps hb (by rw [← hf]; exact e), hd]
  have hdot : a.format = str "dot" → showDot R.ord m' crt elf b = showDot R.ord m crt elf a := by
    intro e
    rcases hs with hs | ⟨h1, h2, h3⟩
    · rw [e] at hs
      exact absurd hs (by decide)
    · unfold showDot
      rw [ha.1, hb.1, hd]
      have h4 : ∀ d : Deps, getSummaryFiltered DepArch.abb d b = getSummaryFiltered DepArch.abb d a := by
        intro d
        unfold getSummaryFiltered
        simp only [h1, h3]
      have h5 : ∀ d : Deps, dotLines d b = dotLines d a := by
        intro d
        have hin : dotInner d b = dotInner d a := by
          funext name st q
          unfold dotInner
          simp only [h1, h2, hr]
        have hout : dotOuter d b = dotOuter d a := by
          funext st q
          unfold dotOuter
          simp only [h1, hin]
        unfold dotLines
        rw [hout]
      simp only [h4, h5]
  unfold showReport
  rw [← hf, ha.1, hb.1, hd]
  by_cases e1 : a.format = str "table" ∨ a.format = str "text"
  · rw [if_pos e1, if_pos e1, ht (by
      unfold InTable
      simp only [List.mem_cons, List.not_mem_nil, or_false]
      rcases e1 with e | e
      · exact .inl e
      · exact .inr (.inl e))]
  rw [if_neg e1, if_neg e1]
  by_cases e2 : a.format = str "json2"
  · rw [if_pos e2, if_pos e2, hj e2]
  rw [if_neg e2, if_neg e2]
  by_cases e3 : a.format = str "raw"
  · rw [if_pos e3, if_pos e3]
    rfl
  rw [if_neg e3, if_neg e3]
  by_cases e4 : a.format = str "csv"
  · rw [if_pos e4, if_pos e4, ht (by unfold InTable; simp [e4])]
  rw [if_neg e4, if_neg e4]
  by_cases e5 : a.format = str "tree"
  · rw [if_pos e5, if_pos e5]
    rfl
  rw [if_neg e5, if_neg e5]
  by_cases e6 : a.format = str "dot"
  · rw [if_pos e6, if_pos e6, hdot e6]
  · rw [if_neg e6, if_neg e6]

/-- **C103** differences, the total size of the flash and the order of rows do not concern the dependencies. -/
theorem C103_deps (R : RunIn) (input : Str) (args : Args) (flash unchanged sortDiff reverse : Bool) (out ref : Option Str) (column : Str)
    (h : AsksDeps args) :
    makeReport R input { args with useFlashSize := flash, diff := ref, showUnchanged := unchanged, outputFile := out, sort := column, sortDiff := sortDiff, sortReverse := reverse } =
      makeReport R input args := by
  obtain ⟨d', hd', he⟩ := eff_deps args h.1 flash unchanged sortDiff reverse out ref column
  have ha : AsksDeps (effectiveArgs args) := by rw [eff_eq]; exact h
  refine run_flash (a := args) flash ?_ ?_
  · rw [he, ← prepared_noDiff (args := { effectiveArgs args with useFlashSize := flash }) d' (eff_noDiff args h.1) hd']
    exact prepared_same ⟨rfl, rfl, rfl, rfl, rfl, rfl⟩
  · intro crt elf d d'' hv
    rw [he]
    exact showReport_deps ha ha (eff_noDiff args h.1) hd' rfl rfl (.inr ⟨rfl, rfl, rfl⟩) hv

/-- **C103** neither do filters, abbreviations and `--dep-symbols` concern the dependencies as JSON or raw. -/
theorem C103_json_deps (R : RunIn) (input : Str) (args : Args) (syms noAbbrev : Bool) (pats : Option (List Str)) (h : AsksDeps args)
    (hf : args.format = str "json2" ∨ args.format = str "raw") :
    makeReport R input { args with depSymbols := syms, noAbbrev := noAbbrev, filter := pats } = makeReport R input args := by
  have he : ∃ n' b, effectiveArgs { args with depSymbols := syms, noAbbrev := noAbbrev, filter := pats } =
      { effectiveArgs args with depSymbols := syms, noAbbrev := n', abbrev_ := b, filter := pats } := by
    rw [eff_eq, eff_eq]
    exact ⟨_, _, rfl⟩
  obtain ⟨n', b, he⟩ := he
  have ha : AsksDeps (effectiveArgs args) := by rw [eff_eq]; exact h
  have hf' : (effectiveArgs args).format = args.format := by rw [eff_eq]
  refine run_same (a := args) ?_ ?_
  · rw [he]
    exact ⟨rfl, rfl, rfl, rfl, rfl, rfl⟩
  · intro crt elf d
    rw [he]
    exact showReport_deps ha ha (eff_noDiff args h.1) (eff_noDiff args h.1) rfl rfl
      (.inl (by rw [hf']; rcases hf with e | e <;> simp [e])) rfl

/-- **C103** filters do not concern the tree of dependencies. -/
theorem C103_tree_deps (R : RunIn) (input : Str) (args : Args) (pats : Option (List Str)) (h : AsksDeps args) (hf : args.format = str "tree") :
    makeReport R input { args with filter := pats } = makeReport R input args := by
  have he : effectiveArgs { args with filter := pats } = { effectiveArgs args with filter := pats } := by
    rw [eff_eq, eff_eq]
  have ha : AsksDeps (effectiveArgs args) := by rw [eff_eq]; exact h
  have hf' : (effectiveArgs args).format = args.format := by rw [eff_eq]
  refine run_same (a := args) ?_ ?_
  · rw [he]
    exact ⟨rfl, rfl, rfl, rfl, rfl, rfl⟩
  · intro crt elf d
    rw [he]
    exact showReport_deps ha ha (eff_noDiff args h.1) (eff_noDiff args h.1) rfl rfl (.inl (by rw [hf', hf]; decide)) rfl

/-! ### The whole map -/

/-- **C103** the raw report of the map depends only on the projects, `--diff`, `--unify`, `--show-unused`, `--use-flash-size` and
`--lto`. -/
theorem C103_raw (R : RunIn) (input : Str) (args : Args) (archives files noAbbrev unchanged syms rev sortDiff reverse : Bool)
    (details out : Option Str) (column : Str) (pats : Option (List Str)) (hf : args.format = str "raw") (hd : args.archiveDependencies = false) :
    makeReport R input { args with archives := archives, files := files, archiveDetails := details, noAbbrev := noAbbrev, showUnchanged := unchanged, depSymbols := syms, depReverse := rev, sort := column, sortDiff := sortDiff, sortReverse := reverse, filter := pats, outputFile := out } =
      makeReport R input args := by
  have key : ∀ a : Args, a.format = str "raw" → a.archiveDependencies = false → ∀ crt elf d, showReport R crt elf (effectiveArgs a) d = .ok (.raw d) := by
    intro a h1 h2 crt elf d
    have e1 : (effectiveArgs a).format = str "raw" := by rw [eff_eq]; exact h1
    have e2 : (effectiveArgs a).archiveDependencies = false := by rw [eff_eq]; exact h2
    unfold showReport
    simp only [e1, e2, formats_ne, or_self, if_false, if_true, Bool.false_eq_true]
  refine run_same (a := args) ?_ fun crt elf d => ?_
  · rw [eff_eq, eff_eq]
    refine ⟨?_, ?_, ?_, rfl, rfl, rfl⟩
    · simp [loadSymbolsOf, hf]
    · simp [useDwarfOf, hf]
    · simp only [hd]
  · rw [key args hf hd, key _ (by exact hf) (by exact hd)]

/-- **C103** the sorting column, filters and the options about dependencies do not concern the tree of the map. -/
theorem C103_tree (R : RunIn) (input : Str) (args : Args) (syms rev : Bool) (out : Option Str) (column : Str) (pats : Option (List Str))
    (hf : args.format = str "tree") (hd : args.archiveDependencies = false) :
    makeReport R input { args with depSymbols := syms, depReverse := rev, sort := column, filter := pats, outputFile := out } =
      makeReport R input args := by
  have key : ∀ a : Args, a.format = str "tree" → a.archiveDependencies = false → ∀ crt elf d,
      showReport R crt elf (effectiveArgs a) d = .ok (.tree (sort (trim d (effectiveArgs a)) (effectiveArgs a))) := by
    intro a h1 h2 crt elf d
    have e1 : (effectiveArgs a).format = str "tree" := by rw [eff_eq]; exact h1
    have e2 : (effectiveArgs a).archiveDependencies = false := by rw [eff_eq]; exact h2
    unfold showReport
    simp only [e1, e2, formats_ne, or_self, if_false, if_true, Bool.false_eq_true]
  refine run_same (a := args) ?_ fun crt elf d => ?_
  · rw [eff_eq, eff_eq]
    exact ⟨rfl, rfl, rfl, rfl, rfl, rfl⟩
  · rw [key args hf hd, key _ (by exact hf) (by exact hd), eff_eq, eff_eq]
    rfl

/-! ### Summaries -/

/-- **C103** filters and the options about dependencies do not concern the table of the summary. -/
theorem C103_summary (R : RunIn) (input : Str) (args : Args) (syms rev : Bool) (out : Option Str) (pats : Option (List Str))
    (h : AsksSummary args) (hf : InTable args) :
    makeReport R input { args with depSymbols := syms, depReverse := rev, filter := pats, outputFile := out } =
      makeReport R input args := by
  have key : ∀ a : Args, AsksSummary a → ∀ crt elf d, selectTable R crt elf (effectiveArgs a) d = getSummaryTable R.F d (effectiveArgs a) := by
    intro a h crt elf d
    obtain ⟨h1, h2, h3, h4⟩ : AsksSummary (effectiveArgs a) := by rw [eff_eq]; exact h
    unfold selectTable
    simp only [h1, h2, h3, h4, if_false, Bool.false_eq_true]
  have hf' : ∀ a : Args, (effectiveArgs a).format = a.format := fun a => by rw [eff_eq]
  have kt : ∀ crt elf d, selectTable R crt elf (effectiveArgs { args with depSymbols := syms, depReverse := rev, filter := pats, outputFile := out }) d =
      selectTable R crt elf (effectiveArgs args) d := by
    intro crt elf d
    rw [key args h, key _ (by exact h), eff_eq, eff_eq]
    rfl
  refine run_same (a := args) ?_ fun crt elf d => ?_
  · rw [eff_eq, eff_eq]
    exact ⟨rfl, rfl, rfl, rfl, rfl, rfl⟩
  · unfold showReport
    rw [kt, hf', hf']
    unfold InTable at hf
    simp only [List.mem_cons, List.not_mem_nil, or_false] at hf
    rcases hf with e | e | e
    · rw [if_pos (.inl e), if_pos (.inl e)]
    · rw [if_pos (.inr e), if_pos (.inr e)]
    · simp only [e, formats_ne, or_self, if_false, if_true]

/-- **C103** neither do the sorting column and `--show-unchanged` concern the JSON summary. -/
theorem C103_json_summary (R : RunIn) (input : Str) (args : Args) (syms rev unchanged : Bool) (out : Option Str) (column : Str)
    (pats : Option (List Str)) (h : AsksSummary args) (hf : args.format = str "json2") :
    makeReport R input { args with depSymbols := syms, depReverse := rev, showUnchanged := unchanged, sort := column, filter := pats, outputFile := out } =
      makeReport R input args := by
  have key : ∀ a : Args, AsksSummary a → a.format = str "json2" → ∀ crt elf d,
      showReport R crt elf (effectiveArgs a) d = .ok (.summary (jsonSummary d (effectiveArgs a))) := by
    intro a h hf crt elf d
    obtain ⟨h1, h2, h3, h4⟩ : AsksSummary (effectiveArgs a) := by rw [eff_eq]; exact h
    rw [showReport_json2 (by rw [eff_eq]; exact hf)]
    unfold showJson
    simp only [h1, h2, h3, h4, if_false, Bool.false_eq_true]
  refine run_same (a := args) ?_ fun crt elf d => ?_
  · rw [eff_eq, eff_eq]
    exact ⟨rfl, rfl, rfl, rfl, rfl, rfl⟩
  · rw [key args h hf, key _ (by exact h) (by exact hf), eff_eq, eff_eq]
    rfl

/-! ### Without `--diff` -/

theorem trim_noDiff (m : MemMap) (a : Args) (u : Bool) (h : truthy a.diff = false) : trim m { a with showUnchanged := u } = trim m a := by
  have hc : changed { a with showUnchanged := u } = changed a := by
    funext d
    unfold changed
    simp only [h, Bool.not_false, Bool.true_or, if_true]
  have hd : trimDepth { a with showUnchanged := u } = trimDepth a := rfl
  have ho : trimObj { a with showUnchanged := u } = trimObj a := by
    funext x; unfold trimObj; rw [hc, hd]
  have ha : trimArch { a with showUnchanged := u } = trimArch a := by
    funext x; unfold trimArch; rw [hc, hd, ho]
  have hs : trimSec { a with showUnchanged := u } = trimSec a := by
    funext x; unfold trimSec; rw [hc, hd, ha]
  have ht : trimMType { a with showUnchanged := u } = trimMType a := by
    funext x; unfold trimMType; rw [hc, hs]
  unfold trim
  rw [hc, ht]

theorem remSummary_unchanged (a : Args) (u : Bool) (h : truthy a.diff = false) (e : Dict Str Entry) :
    remSummaryUnchanged e { a with showUnchanged := u } = remSummaryUnchanged e a := by
  unfold remSummaryUnchanged
  simp only [h, Bool.not_false, Bool.true_or, if_true]

theorem showReport_unchanged (R : RunIn) (crt : Option Crt) (elf : Option (List ElfSym)) (a : Args) (u : Bool) (h : truthy a.diff = false)
    (d : MemMap) : showReport R crt elf { a with showUnchanged := u } d = showReport R crt elf a d := by
  have h1 : getArchivesSummary d { a with showUnchanged := u } = getArchivesSummary d a := by
    unfold getArchivesSummary
    simp only [remSummary_unchanged a u h]
  have h2 : getObjectFilesSummary d { a with showUnchanged := u } = getObjectFilesSummary d a := by
    unfold getObjectFilesSummary
    simp only [remSummary_unchanged a u h]
  have h3 : getSymbolsSummary d { a with showUnchanged := u } = getSymbolsSummary d a := by
    unfold getSymbolsSummary
    simp only [remSummary_unchanged a u h]
  have h4 : getArchivesDependencies R.ord crt d elf { a with showUnchanged := u } = getArchivesDependencies R.ord crt d elf a :=
    deps_noDiff h h rfl
  have h5 : getSummaryTable R.F d { a with showUnchanged := u } = getSummaryTable R.F d a := by
    unfold getSummaryTable
    simp only [trim_noDiff d a u h]
    rfl
  have h6 : ∀ x, depsTable { a with showUnchanged := u } x = depsTable a x := depsTable_update rfl rfl rfl rfl
  have t1 : getArchivesTable d { a with showUnchanged := u } = getArchivesTable d a := by
    unfold getArchivesTable; rw [h1]; rfl
  have t2 : getSymbolsTable d { a with showUnchanged := u } = getSymbolsTable d a := by
    unfold getSymbolsTable; rw [h3]; rfl
  have t3 : getObjectFilesTable d { a with showUnchanged := u } = getObjectFilesTable d a := by
    unfold getObjectFilesTable; rw [h2]; rfl
  have t4 : selectTable R crt elf { a with showUnchanged := u } d = selectTable R crt elf a d := by
    unfold selectTable
    rw [t1, t2, t3, h4, h5]
    simp only [h6]
  have t5 : showJson R crt elf { a with showUnchanged := u } d = showJson R crt elf a d := by
    unfold showJson
    rw [h1, h2, h3, h4]
    rfl
  have t6 : showDot R.ord d crt elf { a with showUnchanged := u } = showDot R.ord d crt elf a := by
    unfold showDot
    rw [h4]
    rfl
  unfold showReport
  rw [t4, t5, t6, h4, trim_noDiff d a u h]
  rfl

/-- **C103** without `--diff`, `--show-unchanged` does not concern any report. -/
theorem C103_unchanged (R : RunIn) (input : Str) (args : Args) (u : Bool) (h : truthy args.diff = false) :
    makeReport R input { args with showUnchanged := u } = makeReport R input args := by
  have he : effectiveArgs { args with showUnchanged := u } = { effectiveArgs args with showUnchanged := u } := by
    rw [eff_eq, eff_eq]
  have hd : truthy (effectiveArgs args).diff = false := by
    rw [eff_eq]
    simp only []
    split
    · rfl
    · exact h
  refine run_same (a := args) ?_ fun crt elf d => ?_
  · rw [he]
    exact ⟨rfl, rfl, rfl, rfl, rfl, rfl⟩
  · rw [he]
    exact showReport_unchanged R crt elf _ u hd d

/-! ### Examples -/

/-- A listing that is made, and an option that concerns it. -/
example : Listing { archives := true } ∧ InTable { archives := true } ∧
    exTable (makeReport (exRun exTwoWorld) (str "/b/x.map") { archives := true, useFlashSize := true, depReverse := true }) =
      some [[str "Archive File", str "Total Size", str "IRAM", str ".data", str ".text"],
        [str "liba.a", str "28", str "28", str "4", str "24"], [str "libb.a", str "8", str "8", str "0", str "8"]] ∧
    makeReport (exRun exTwoWorld) (str "/b/x.map") { archives := true, filter := some [str "bb"] } ≠
      makeReport (exRun exTwoWorld) (str "/b/x.map") { archives := true } := by
  refine ⟨.inl rfl, by unfold InTable; decide, ?_, ?_⟩ <;> decide +kernel

/-- The same filter does not concern the JSON listing, the summary and the tree, which are made. -/
example : (makeReport (exRun exTwoWorld) (str "/b/x.map") { format := str "json2", archives := true, filter := some [str "bb"] } =
      makeReport (exRun exTwoWorld) (str "/b/x.map") { format := str "json2", archives := true }) ∧
    (makeReport (exRun exTwoWorld) (str "/b/x.map") { filter := some [str "bb"] } = makeReport (exRun exTwoWorld) (str "/b/x.map") {}) ∧
    ∀ f ∈ [str "json2", str "table", str "tree", str "raw"], ∃ r, makeReport (exRun exTwoWorld) (str "/b/x.map") { format := f } = some (.ok r) := by
  refine ⟨C103_json_listing _ _ { format := str "json2", archives := true } false false false false none (str "1") _ (.inl rfl) rfl,
    C103_summary _ _ {} false false none _ ⟨rfl, rfl, rfl, rfl⟩ (by unfold InTable; decide), ?_⟩
  have h : ∀ f ∈ [str "json2", str "table", str "tree", str "raw"],
      (match makeReport (exRun exTwoWorld) (str "/b/x.map") { format := f } with | some (.ok _) => true | _ => false) = true := by
    decide +kernel
  intro f hf
  have := h f hf
  split at this
  · rename_i r hr
    exact ⟨r, hr⟩
  · cases this

/-- The dependencies are asked for in every format. -/
example : AsksDeps { archiveDependencies := true } ∧ AsksDeps { archiveDependencies := true, archives := true, format := str "raw" } ∧
    ¬ AsksDeps { archiveDependencies := true, archives := true } := by
  refine ⟨⟨rfl, fun _ => ⟨rfl, rfl⟩⟩, ⟨rfl, fun h => absurd h (by decide)⟩, fun h => ?_⟩
  exact absurd (h.2 (by decide)).1 (by decide)

end EspSize
