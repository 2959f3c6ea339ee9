import Verif.Proofs.Deps
import Verif.Proofs.Path
import Verif.Props.Summary
import Verif.Model.Unify
/-! # C35, C36: archive dependencies -/
namespace EspSize

/-- The archive contributes to the memory map.  When comparing, archives without a difference are left out,
as in the archive report. -/
def Counted (m : MemMap) (args : Args) (a : Str) : Prop :=
  (∃ t s, (getArch m t s a).isSome = true) ∧
  (truthy args.diff = true → args.showUnchanged = false → archTotal Node.sizeDiff m a ≠ 0)

/-- The row makes the archive with inner key `I` appear under `O`: reversed, `I` depends on `O`. -/
def Linked (m : MemMap) (args : Args) (syms : List ElfSym) (O I : Str) (row : Str × List (Str × Str)) : Prop :=
  if args.depReverse then Refers (Counted m args) (LinkedSym syms) I O row
  else Refers (Counted m args) (LinkedSym syms) O I row

theorem counted_iff {m : MemMap} (hm : m.WF) (args : Args) :
    ∃ S, getArchivesSummary m args = .ok S ∧ (∀ a, dhas S a = true ↔ Counted m args a) ∧
      ∀ a e, dget S a = some e → e.size = archTotal Node.size m a := by
  obtain ⟨E, S, hS, _, hret, hone, hsz, _⟩ := C11_archives_summary m hm args
  refine ⟨S, hS, fun a => ?_, fun a e he => (hsz a e ((hret a e).mp he).1).1⟩
  unfold dhas
  rw [Option.isSome_iff_exists]
  constructor
  · rintro ⟨e, he⟩
    obtain ⟨h1, h2⟩ := (hret a e).mp he
    refine ⟨(hone a).mp (by rw [h1]; rfl), fun hd hs => ?_⟩
    rw [← (hsz a e h1).2.1]
    exact h2 hd hs
  · rintro ⟨h1, h2⟩
    obtain ⟨e, he⟩ := Option.isSome_iff_exists.mp ((hone a).mpr h1)
    refine ⟨e, (hret a e).mpr ⟨he, fun hd hs => ?_⟩⟩
    rw [(hsz a e he).2.1]
    exact h2 hd hs

theorem mem_crtSymbols {syms : List ElfSym} {n : Str} : (crtSymbols syms).contains n = true ↔ LinkedSym syms n := by
  simp only [crtSymbols, List.contains_iff_mem, List.mem_map, List.mem_filter, LinkedSym, sttFunc, sttObject, shnAbs]
  constructor
  · rintro ⟨s, ⟨hs, hp⟩, rfl⟩
    simp only [Bool.and_eq_true, Bool.or_eq_true] at hp
    exact ⟨s, hs, rfl, hp.1.symm.imp of_decide_eq_true of_decide_eq_true, of_decide_eq_true hp.2⟩
  · rintro ⟨s, hs, rfl, h1, h2⟩
    exact ⟨s, ⟨hs, by
      simp only [Bool.and_eq_true, Bool.or_eq_true]
      exact ⟨h1.symm.imp decide_eq_true decide_eq_true, decide_eq_true h2⟩⟩, rfl⟩

theorem keepRow_filter {S : Dict Str Entry} {p : Str × List (Str × Str)} (rev : Bool) (O I : Str) :
    (∃ q, keepRow S p = some q ∧ ∃ df refs, q.2 = df :: refs ∧ df.1 = (if rev then O else I) ∧
      (if rev then I else O) ∈ refs.map (·.1)) ↔
    (dhas S O = true ∧ dhas S I = true ∧ O ≠ I ∧ ∃ df refs, p.2 = df :: refs ∧ df.1 = (if rev then O else I) ∧
      ∃ o, ((if rev then I else O), o) ∈ refs) := by
  constructor
  · rintro ⟨q, hq, df, refs, hq2, hdf, hmem⟩
    unfold keepRow at hq
    split at hq
    · cases hq
    · rename_i df' refs' hp
      split at hq
      · rename_i hd
        simp only at hq
        split at hq <;> cases hq
        simp only [List.cons.injEq] at hq2
        obtain ⟨rfl, rfl⟩ := hq2
        obtain ⟨r, hr, hr1⟩ := List.mem_map.mp hmem
        obtain ⟨hr, hcond⟩ := List.mem_filter.mp hr
        simp only [ne_eq, Bool.and_eq_true, decide_eq_true_eq] at hcond
        have hex : ∃ o, ((if rev then I else O), o) ∈ refs' := ⟨r.2, by rw [← hr1]; exact hr⟩
        cases rev
        · simp only [Bool.false_eq_true, if_false] at *
          subst hdf; subst hr1
          exact ⟨hcond.1, hd, hcond.2, _, _, hp, rfl, hex⟩
        · simp only [if_true] at *
          subst hdf; subst hr1
          exact ⟨hd, hcond.1, Ne.symm hcond.2, _, _, hp, rfl, hex⟩
      · cases hq
  · rintro ⟨hO, hI, hne, df, refs, hp, hdf, o, ho⟩
    have hdfS : dhas S df.1 = true := by rw [hdf]; cases rev <;> simp [hO, hI]
    have hcond : (dhas S (if rev then I else O) && decide ((if rev then I else O) ≠ df.1)) = true := by
      rw [hdf]; cases rev
      · simp [hO, hne]
      · simp [hI, Ne.symm hne]
    have hin : ((if rev then I else O), o) ∈ refs.filter (fun r => dhas S r.1 && r.1 ≠ df.1) :=
      List.mem_filter.mpr ⟨ho, hcond⟩
    refine ⟨(p.1, df :: refs.filter (fun r => dhas S r.1 && r.1 ≠ df.1)), ?_, df, _, rfl, hdf,
      List.mem_map.mpr ⟨_, hin, rfl⟩⟩
    unfold keepRow
    rw [hp]
    simp only [hdfS, if_true]
    rw [if_neg (List.ne_nil_of_mem hin)]

theorem map_filter_flatMap {α : Type} (f : α → List DepEv) (O I : Str) (l : List α) :
    ((l.flatMap f).filter (DepEv.on O I)).map DepEv.sym =
      l.flatMap fun x => ((f x).filter (DepEv.on O I)).map DepEv.sym := by
  induction l with
  | nil => rfl
  | cons x t ih => simp only [List.flatMap_cons, List.filter_append, List.map_append, ih]

/-- The symbols of the pair, for the whole table. -/
theorem evs_symbols {ord : List Str → List Str} (hord : SetOrder ord) {m : MemMap} {args : Args} {syms : List ElfSym}
    {S : Dict Str Entry} (hS : ∀ a, dhas S a = true ↔ Counted m args a) (O I : Str) (crt : Crt) :
    (((((dfilter (fun s _ => (crtSymbols syms).contains s) crt).filterMap (keepRow S)).flatMap
      (rowEvs ord args.depReverse)).filter (DepEv.on O I)).map DepEv.sym) =
      (open Classical in crt.filter fun row => decide (Linked m args syms O I row)).map (·.1) := by
  rw [map_filter_flatMap]
  induction crt with
  | nil => rfl
  | cons p t ih =>
    have hlink : Linked m args syms O I p ↔ LinkedSym syms p.1 ∧
        (dhas S O = true ∧ dhas S I = true ∧ O ≠ I ∧ ∃ df refs, p.2 = df :: refs ∧
          df.1 = (if args.depReverse then O else I) ∧ ∃ o, ((if args.depReverse then I else O), o) ∈ refs) := by
      unfold Linked Refers
      rw [hS O, hS I]
      cases args.depReverse
      · simp only [Bool.false_eq_true, if_false]
      · simp only [if_true]
        constructor
        · rintro ⟨h1, h2, h3, h4, h5⟩; exact ⟨h1, h3, h2, Ne.symm h4, h5⟩
        · rintro ⟨h1, h3, h2, h4, h5⟩; exact ⟨h1, h2, h3, Ne.symm h4, h5⟩
    rw [← keepRow_filter] at hlink
    simp only [dfilter, List.filter_cons] at ih ⊢
    by_cases hs : (crtSymbols syms).contains p.1 = true
    · rw [if_pos hs, List.filterMap_cons]
      cases hk : keepRow S p with
      | none =>
        have hnl : ¬ Linked m args syms O I p := by
          rw [hlink]; rintro ⟨_, q, hq, _⟩; rw [hk] at hq; cases hq
        rw [if_neg (by simpa using hnl)]
        exact ih
      | some q =>
        simp only [List.flatMap_cons]
        rw [ih, rowEvs_filter hord]
        obtain ⟨df, refs, hq2, _⟩ := keepRow_ok hk
        rw [hq2]
        simp only
        by_cases hl : Linked m args syms O I p
        · obtain ⟨_, q', hq', df', refs', hq2', h1, h2⟩ := hlink.mp hl
          rw [hk] at hq'; cases hq'
          rw [hq2] at hq2'
          simp only [List.cons.injEq] at hq2'
          obtain ⟨rfl, rfl⟩ := hq2'
          rw [if_pos ⟨h1, h2⟩, if_pos (by simpa using hl), keepRow_fst hk]
          rfl
        · rw [if_neg (c := df.1 = _ ∧ _), if_neg (by simpa using hl)]
          · rfl
          · rintro ⟨h1, h2⟩
            exact hl (hlink.mpr ⟨mem_crtSymbols.mp hs, q, hk, df, refs, hq2, h1, h2⟩)
    · rw [if_neg hs, if_neg]
      · exact ih
      · simp only [decide_eq_true_eq]
        intro hl
        exact hs (mem_crtSymbols.mpr (hlink.mp hl).1)

open Classical in
/-- **C35** the dependency report, in both directions.  `O` is the key of an entry and `I` the key of an inner
entry; the result is described completely up to the order of the keys. -/
theorem C35_report (ord : List Str → List Str) (hord : SetOrder ord) (m : MemMap) (hm : m.WF) (crt : Crt)
    (hn : KeysNodup crt) (hne : ∀ p ∈ crt, p.2 ≠ []) (syms : List ElfSym) (args : Args) :
    ∃ R, getArchivesDependencies ord (some crt) m (some syms) args = .ok R ∧ KeysNodup R ∧
      -- an entry for `O` iff some archive is linked to it by a row
      (∀ O, (dget R O).isSome = true ↔ ∃ I, ∃ row ∈ crt, Linked m args syms O I row) ∧
      (∀ O a, dget R O = some a →
        LastPart O a.abb ∧ a.size = archTotal Node.size m O ∧ KeysNodup a.archives ∧
        -- the inner entries
        (∀ I, (dget a.archives I).isSome = true ↔ ∃ row ∈ crt, Linked m args syms O I row) ∧
        (∀ I i, dget a.archives I = some i →
          LastPart I i.abb ∧ i.size = archTotal Node.size m I ∧
          i.symbols = (crt.filter fun row => decide (Linked m args syms O I row)).map (·.1))) := by
  obtain ⟨S, hS, hcnt, hsz⟩ := counted_iff hm args
  have hrows : ∀ p ∈ (dfilter (fun s _ => (crtSymbols syms).contains s) crt).filterMap (keepRow S), RowOk S p := by
    intro p hp
    obtain ⟨q, _, hq⟩ := List.mem_filterMap.mp hp
    exact keepRow_ok hq
  have hfil : filterCrt crt S (some syms) =
      .ok ((dfilter (fun s _ => (crtSymbols syms).contains s) crt).filterMap (keepRow S)) :=
    filterRows_eq S _ (hn.dfilter _) fun p hp => hne p (List.mem_filter.mp hp).1
  have hres : ∃ R, getArchivesDependencies ord (some crt) m (some syms) args = .ok R ∧
      DepInv S (((dfilter (fun s _ => (crtSymbols syms).contains s) crt).filterMap (keepRow S)).flatMap
        (rowEvs ord args.depReverse)) R := by
    unfold getArchivesDependencies
    simp only [hS, hfil, bind, Except.bind]
    cases hr : args.depReverse
    · simp only [Bool.false_eq_true, if_false]; exact getArchivesDeps_inv hord S _ hrows
    · simp only [if_true]; exact getArchivesRevdeps_inv hord S _ hrows
  obtain ⟨R, hR, inv⟩ := hres
  have hsym := fun O I => evs_symbols hord (syms := syms) hcnt O I crt
  generalize ((dfilter (fun s _ => (crtSymbols syms).contains s) crt).filterMap (keepRow S)).flatMap
    (rowEvs ord args.depReverse) = evs at inv hsym
  have hex : ∀ O I, (∃ e ∈ evs, e.outer = O ∧ e.inner = I) ↔ ∃ row ∈ crt, Linked m args syms O I row := by
    intro O I
    have h1 : (∃ e ∈ evs, e.outer = O ∧ e.inner = I) ↔ (evs.filter (DepEv.on O I)).map DepEv.sym ≠ [] := by
      simp only [ne_eq, List.map_eq_nil_iff, List.filter_eq_nil_iff, DepEv.on, Bool.and_eq_true, decide_eq_true_eq,
        not_forall, Classical.not_not]
      constructor
      · rintro ⟨e, he, h⟩; exact ⟨e, he, h⟩
      · rintro ⟨e, he, h⟩; exact ⟨e, he, h⟩
    rw [h1, hsym O I]
    simp only [ne_eq, List.map_eq_nil_iff, List.filter_eq_nil_iff, decide_eq_true_eq, not_forall, Classical.not_not]
    constructor
    · rintro ⟨e, he, h⟩; exact ⟨e, he, h⟩
    · rintro ⟨e, he, h⟩; exact ⟨e, he, h⟩
  refine ⟨R, hR, inv.nodup, fun O => ?_, fun O a ha => ?_⟩
  · rw [inv.has O]
    constructor
    · rintro ⟨e, he, ho⟩
      exact ⟨e.inner, (hex O e.inner).mp ⟨e, he, ho, rfl⟩⟩
    · rintro ⟨I, hI⟩
      obtain ⟨e, he, ho, _⟩ := (hex O I).mpr hI
      exact ⟨e, he, ho⟩
  · obtain ⟨h1, ⟨x, hx, h2⟩, h3⟩ := inv.outer O a ha
    refine ⟨h1 ▸ basename_lastPart O, by rw [h2, hsz O x hx], h3, fun I => ?_, fun I i hi => ?_⟩
    · rw [inv.inner O a ha I]; exact hex O I
    · obtain ⟨h4, ⟨y, hy, h5⟩, h6⟩ := inv.info O a I i ha hi
      exact ⟨h4 ▸ basename_lastPart I, by rw [h5, hsz I y hy], by rw [h6, hsym O I]⟩

/-- The report lists symbol `s` for the entry `O` and its inner entry `I`. -/
def Reports (R : Deps) (O I s : Str) : Prop :=
  ∃ a i, dget R O = some a ∧ dget a.archives I = some i ∧ s ∈ i.symbols

theorem reports_iff {ord : List Str → List Str} (hord : SetOrder ord) {m : MemMap} (hm : m.WF) {crt : Crt}
    (hn : KeysNodup crt) (hne : ∀ p ∈ crt, p.2 ≠ []) {syms : List ElfSym} {args : Args} {R : Deps}
    (hR : getArchivesDependencies ord (some crt) m (some syms) args = .ok R) (O I s : Str) :
    Reports R O I s ↔ ∃ refs, dget crt s = some refs ∧ Linked m args syms O I (s, refs) := by
  obtain ⟨R', hR', _, hout, hdet⟩ := C35_report ord hord m hm crt hn hne syms args
  rw [hR] at hR'; cases hR'
  have hrow : (∃ refs, dget crt s = some refs ∧ Linked m args syms O I (s, refs)) ↔
      ∃ row ∈ crt, row.1 = s ∧ Linked m args syms O I row := by
    constructor
    · rintro ⟨refs, h1, h2⟩; exact ⟨(s, refs), mem_of_dget h1, rfl, h2⟩
    · rintro ⟨⟨s', refs⟩, h1, rfl, h2⟩; exact ⟨refs, dget_of_mem hn h1, h2⟩
  rw [hrow]
  constructor
  · rintro ⟨a, i, ha, hi, hs⟩
    rw [((hdet O a ha).2.2.2.2 I i hi).2.2] at hs
    obtain ⟨row, hrow, hs⟩ := List.mem_map.mp hs
    obtain ⟨h1, h2⟩ := List.mem_filter.mp hrow
    exact ⟨row, h1, hs, by simpa using h2⟩
  · rintro ⟨row, h1, h2, h3⟩
    obtain ⟨a, ha⟩ := Option.isSome_iff_exists.mp ((hout O).mpr ⟨I, row, h1, h3⟩)
    obtain ⟨i, hi⟩ := Option.isSome_iff_exists.mp (((hdet O a ha).2.2.2.1 I).mpr ⟨row, h1, h3⟩)
    refine ⟨a, i, ha, hi, ?_⟩
    rw [((hdet O a ha).2.2.2.2 I i hi).2.2]
    exact List.mem_map.mpr ⟨row, List.mem_filter.mpr ⟨h1, by simpa using h3⟩, h2⟩

/-- **C35** the dependency report and the reverse report are dual, for any orders of set iteration: `A`
depends on `B` through `s` iff `B` has the dependent `A` through `s`, and this is the case iff the
cross reference table says so for a linked symbol and two different archives of the memory map. -/
theorem C35_dual (ord ord' : List Str → List Str) (hord : SetOrder ord) (hord' : SetOrder ord') (m : MemMap)
    (hm : m.WF) (crt : Crt) (hn : KeysNodup crt) (hne : ∀ p ∈ crt, p.2 ≠ []) (syms : List ElfSym) (args : Args) :
    ∃ D R, getArchivesDependencies ord (some crt) m (some syms) { args with depReverse := false } = .ok D ∧
      getArchivesDependencies ord' (some crt) m (some syms) { args with depReverse := true } = .ok R ∧
      ∀ A B s, (Reports D A B s ↔ Reports R B A s) ∧
        (Reports D A B s ↔ ∃ refs, dget crt s = some refs ∧
          Refers (Counted m args) (LinkedSym syms) A B (s, refs)) ∧
        ¬ Reports D A A s := by
  obtain ⟨D, hD, _⟩ := C35_report ord hord m hm crt hn hne syms { args with depReverse := false }
  obtain ⟨R, hR, _⟩ := C35_report ord' hord' m hm crt hn hne syms { args with depReverse := true }
  refine ⟨D, R, hD, hR, fun A B s => ?_⟩
  have h1 := fun A B => reports_iff hord hm hn hne hD A B s
  have h2 := reports_iff hord' hm hn hne hR B A s
  have e1 : ∀ A B row, Linked m { args with depReverse := false } syms A B row ↔
      Refers (Counted m args) (LinkedSym syms) A B row := by
    intro A B row; unfold Linked; simp only [Bool.false_eq_true, if_false]; rfl
  have e2 : ∀ row, Linked m { args with depReverse := true } syms B A row ↔
      Refers (Counted m args) (LinkedSym syms) A B row := by
    intro row; unfold Linked; simp only [if_true]; rfl
  simp only [e1] at h1
  simp only [e2] at h2
  refine ⟨by rw [h1, h2], h1 A B, ?_⟩
  rw [h1]
  rintro ⟨refs, _, h⟩
  exact h.2.2.2.1 rfl

/-- Without a cross reference table, or without an ELF file, the run ends with an error. -/
theorem C35_requires (ord : List Str → List Str) (m : MemMap) (hm : m.WF) (crt : Option Crt) (syms : Option (List ElfSym))
    (args : Args) (h : crt = none ∨ syms = none) :
    getArchivesDependencies ord crt m syms args = .error .exit := by
  rcases h with rfl | rfl
  · rfl
  · cases crt with
    | none => rfl
    | some crt =>
      obtain ⟨S, hS, _⟩ := counted_iff hm args
      unfold getArchivesDependencies
      simp only [hS]
      rfl

/-- The rows found in a map file have distinct symbols and are not empty. -/
theorem crtLoop_wf {lines : List Str} {found header : Bool} {symbol : Option Str} {crt crt' : Crt}
    (h : crtLoop lines found header symbol crt = .ok crt') (hk : KeysNodup crt) (hne : ∀ p ∈ crt, p.2 ≠ []) :
    KeysNodup crt' ∧ ∀ p ∈ crt', p.2 ≠ [] := by
  have hset : ∀ {crt : Crt} {s : Str} {v : List (Str × Str)}, v ≠ [] → (∀ p ∈ crt, p.2 ≠ []) →
      ∀ p ∈ dset crt s v, p.2 ≠ [] := by
    intro crt s v hv hne
    induction crt with
    | nil => simp [dset, hv]
    | cons q t ih =>
      obtain ⟨k, w⟩ := q
      have ht : ∀ p ∈ t, p.2 ≠ [] := fun p hp => hne p (List.mem_cons_of_mem _ hp)
      intro p hp
      simp only [dset] at hp
      split at hp
      · rcases List.mem_cons.mp hp with rfl | hp
        · exact hv
        · exact ht p hp
      · rcases List.mem_cons.mp hp with rfl | hp
        · exact hne (k, w) (by simp)
        · exact ih ht p hp
  induction lines generalizing found header symbol crt with
  | nil => simp only [crtLoop, Except.ok.injEq] at h; subst h; exact ⟨hk, hne⟩
  | cons l ls ih =>
    unfold crtLoop at h
    split at h
    · exact ih h hk hne
    · split at h
      · exact ih h hk hne
      · split at h
        · simp only [Except.ok.injEq] at h; subst h; exact ⟨hk, hne⟩
        · split at h
          · split at h
            · exact ih h (hk.dset _ _) (hset (by simp) hne)
            · cases h
          · split at h
            · exact ih h hk hne
            · exact ih h (hk.dset _ _) (hset (by simp) hne)

/-- **C35** the assumptions of `C35_report` about the table hold for every map file. -/
theorem C35_table_ok (lines : List Str) (crt : Crt) (h : getCrt lines = .ok (some crt)) :
    KeysNodup crt ∧ ∀ p ∈ crt, p.2 ≠ [] := by
  unfold getCrt at h
  cases hl : crtLoop lines false false none [] with
  | error x => rw [hl] at h; cases h
  | ok c =>
    rw [hl] at h
    simp only [bind, Except.bind, Except.ok.injEq] at h
    split at h
    · cases h
    · cases h
      exact crtLoop_wf hl KeysNodup.nil (by simp)

/-- Two reports with the same contents: same entries, sizes and symbol lists; the order of keys may differ. -/
def SameDeps (R R' : Deps) : Prop :=
  ∀ O, match dget R O, dget R' O with
    | none, none => True
    | some a, some a' => a.abb = a'.abb ∧ a.size = a'.size ∧ ∀ I, dget a.archives I = dget a'.archives I
    | _, _ => False

/-- **C36** the contents of the report do not depend on the order of set iteration.  Partial: the order of
the archives does, see `C36_order_visible`. -/
theorem C36_deterministic_partial (ord ord' : List Str → List Str) (hord : SetOrder ord) (hord' : SetOrder ord')
    (m : MemMap) (hm : m.WF) (crt : Crt) (hn : KeysNodup crt) (hne : ∀ p ∈ crt, p.2 ≠ []) (syms : List ElfSym)
    (args : Args) :
    ∃ R R', getArchivesDependencies ord (some crt) m (some syms) args = .ok R ∧
      getArchivesDependencies ord' (some crt) m (some syms) args = .ok R' ∧ SameDeps R R' := by
  obtain ⟨R, hR, _, h1, h2⟩ := C35_report ord hord m hm crt hn hne syms args
  obtain ⟨R', hR', _, h1', h2'⟩ := C35_report ord' hord' m hm crt hn hne syms args
  refine ⟨R, R', hR, hR', fun O => ?_⟩
  cases ha : dget R O with
  | none =>
    cases ha' : dget R' O with
    | none => trivial
    | some a' =>
      have := (h1 O).mpr ((h1' O).mp (by rw [ha']; rfl))
      rw [ha] at this; cases this
  | some a =>
    cases ha' : dget R' O with
    | none =>
      have := (h1' O).mpr ((h1 O).mp (by rw [ha]; rfl))
      rw [ha'] at this; cases this
    | some a' =>
      obtain ⟨b1, z1, _, g1, s1⟩ := h2 O a ha
      obtain ⟨b2, z2, _, g2, s2⟩ := h2' O a' ha'
      refine ⟨lastPart_unique b1 b2, by rw [z1, z2], fun I => ?_⟩
      cases hi : dget a.archives I with
      | none =>
        cases hi' : dget a'.archives I with
        | none => rfl
        | some i' =>
          have := (g1 I).mpr ((g2 I).mp (by rw [hi']; rfl))
          rw [hi] at this; cases this
      | some i =>
        cases hi' : dget a'.archives I with
        | none =>
          have := (g2 I).mpr ((g1 I).mp (by rw [hi]; rfl))
          rw [hi'] at this; cases this
        | some i' =>
          obtain ⟨c1, w1, y1⟩ := s1 I i hi
          obtain ⟨c2, w2, y2⟩ := s2 I i' hi'
          have e1 := lastPart_unique c1 c2
          have e2 : i.size = i'.size := by rw [w1, w2]
          have e3 : i.symbols = i'.symbols := by rw [y1, y2]
          cases i; cases i'
          simp only at e1 e2 e3
          rw [e1, e2, e3]

/-- The elements of a list, without repetitions, in the order of the first occurrence. -/
def ordFirst (l : List Str) : List Str := l.foldl (fun acc x => if acc.contains x then acc else acc ++ [x]) []

theorem ordFirst_order : SetOrder ordFirst := by
  intro l
  unfold ordFirst
  have : ∀ (l acc : List Str), acc.Nodup →
      (l.foldl (fun acc x => if acc.contains x then acc else acc ++ [x]) acc).Nodup ∧
      ∀ x, x ∈ l.foldl (fun acc x => if acc.contains x then acc else acc ++ [x]) acc ↔ x ∈ acc ∨ x ∈ l := by
    intro l
    induction l with
    | nil => intro acc h; simp [h]
    | cons y t ih =>
      intro acc h
      simp only [List.foldl_cons]
      by_cases hc : acc.contains y = true
      · rw [if_pos hc]
        obtain ⟨h1, h2⟩ := ih acc h
        refine ⟨h1, fun x => ?_⟩
        rw [h2, List.mem_cons]
        have hy : y ∈ acc := by simpa using hc
        constructor
        · rintro (h | h)
          · exact Or.inl h
          · exact Or.inr (Or.inr h)
        · rintro (h | rfl | h)
          · exact Or.inl h
          · exact Or.inl hy
          · exact Or.inr h
      · rw [if_neg hc]
        have hy : y ∉ acc := by simpa using hc
        obtain ⟨h1, h2⟩ := ih (acc ++ [y]) (by
          rw [List.nodup_append]
          refine ⟨h, by simp, ?_⟩
          intro a ha b hb
          simp only [List.mem_singleton] at hb
          subst hb
          rintro rfl
          exact hy ha)
        refine ⟨h1, fun x => ?_⟩
        rw [h2, List.mem_cons, List.mem_append, List.mem_singleton]
        constructor
        · rintro ((h | h) | h)
          · exact Or.inl h
          · exact Or.inr (Or.inl h)
          · exact Or.inr (Or.inr h)
        · rintro (h | h | h)
          · exact Or.inl (Or.inl h)
          · exact Or.inl (Or.inr h)
          · exact Or.inr h
  obtain ⟨h1, h2⟩ := this l [] List.nodup_nil
  exact ⟨h1, fun x => by rw [h2]; simp⟩

/-- The other way round. -/
def ordLast (l : List Str) : List Str := (ordFirst l).reverse

theorem ordLast_order : SetOrder ordLast := fun l =>
  ⟨(List.reverse_perm _).nodup_iff.mpr (ordFirst_order l).1, fun x => by simp [ordLast, (ordFirst_order l).2]⟩

/-- Three archives in one section. -/
def exMapD : MemMap :=
  { version := str "1.0", target := str "esp32", targetDiff := [], imageSize := 60, imageSizeDiff := 0
    projectPath := str "/a.map", projectPathDiff := []
    memoryTypes := [
      (str "DRAM", { size := 100, sizeDiff := 0, used := 60, usedDiff := 0, sections := [
        (str ".data", { abb := str ".data", size := 60, sizeDiff := 0, kids := [
          (str "x/liba.a", { abb := str "liba.a", size := 10, sizeDiff := 0, kids := [] }),
          (str "y/libb.a", { abb := str "libb.a", size := 20, sizeDiff := 0, kids := [] }),
          (str "z/libc.a", { abb := str "libc.a", size := 30, sizeDiff := 0, kids := [] })] })] })] }

/-- `f` is defined in `liba.a` and used by the two others and by an archive that is not linked; `g` is not
in the ELF file. -/
def exCrt : Crt :=
  [(str "f", [(str "x/liba.a", str "f.o"), (str "y/libb.a", str "b.o"), (str "z/libc.a", str "c.o"),
    (str "y/libb.a", str "b2.o"), (str "w/libd.a", str "d.o"), (str "x/liba.a", str "g.o")]),
   (str "g", [(str "y/libb.a", str "b.o"), (str "x/liba.a", str "f.o")])]

def exSyms : List ElfSym := [{ name := str "f", value := 16, size := 4, type := 2 }]

example : exMapD.WF ∧ KeysNodup exCrt ∧ ∀ p ∈ exCrt, p.2 ≠ [] := by decide

/-- **C36** the order of set iteration, which depends on the hash seed, is visible: two runs on the same input
can print different reports, in both directions. -/
theorem C36_order_visible :
    (∃ R R', getArchivesDependencies ordFirst (some exCrt) exMapD (some exSyms) {} = .ok R ∧
      getArchivesDependencies ordLast (some exCrt) exMapD (some exSyms) {} = .ok R' ∧
      dkeys R = [str "y/libb.a", str "z/libc.a"] ∧ dkeys R' = [str "z/libc.a", str "y/libb.a"]) ∧
    (∃ R R', getArchivesDependencies ordFirst (some exCrt) exMapD (some exSyms) { depReverse := true } = .ok R ∧
      getArchivesDependencies ordLast (some exCrt) exMapD (some exSyms) { depReverse := true } = .ok R' ∧
      R.map (fun p => (p.1, dkeys p.2.archives)) = [(str "x/liba.a", [str "y/libb.a", str "z/libc.a"])] ∧
      R'.map (fun p => (p.1, dkeys p.2.archives)) = [(str "x/liba.a", [str "z/libc.a", str "y/libb.a"])]) := by
  refine ⟨⟨_, _, rfl, rfl, ?_, ?_⟩, ⟨_, _, rfl, rfl, ?_, ?_⟩⟩ <;> decide

example : (getArchivesDependencies ordFirst (some exCrt) exMapD (some exSyms) {}).map
    (fun R => R.map fun p => (p.1, p.2.size, p.2.archives.map fun q => (q.1, q.2.size, q.2.symbols))) =
    .ok [(str "y/libb.a", 20, [(str "x/liba.a", 10, [str "f"])]), (str "z/libc.a", 30, [(str "x/liba.a", 10, [str "f"])])] :=
  rfl

/-- **C62** with `--unify` the archives of the map are called by their abbreviated names but the cross
reference table is not: if its archives have a directory part and the map was unified, nothing is reported. -/
theorem C62_unify_no_deps (ord : List Str → List Str) (hord : SetOrder ord) (m : MemMap) (hm : m.WF) (crt : Crt)
    (hn : KeysNodup crt) (hne : ∀ p ∈ crt, p.2 ≠ []) (syms : List ElfSym) (args : Args)
    (hdir : ∀ p ∈ crt, ∀ q ∈ p.2, '/' ∈ q.1)
    (habb : ∀ t s a, (getArch m t s a).isSome = true → '/' ∉ a) :
    getArchivesDependencies ord (some crt) m (some syms) args = .ok [] := by
  obtain ⟨R, hR, _, hout, _⟩ := C35_report ord hord m hm crt hn hne syms args
  rw [hR]
  cases R with
  | nil => rfl
  | cons p t =>
    exfalso
    have hp : (dget (p :: t) p.1).isSome = true := by rw [dget_isSome]; simp
    obtain ⟨I, row, hrow, hl⟩ := (hout p.1).mp hp
    have key : ∀ A B, ¬ Refers (Counted m args) (LinkedSym syms) A B row := by
      rintro A B ⟨_, _, ⟨⟨t, s, h⟩, _⟩, _, df, refs, hr, rfl, _⟩
      exact habb t s _ h (hdir row hrow df (by rw [hr]; simp))
    unfold Linked at hl
    split at hl
    · exact key _ _ hl
    · exact key _ _ hl

/-- The map of the example, unified, gives an empty report. -/
theorem C62_unify_hides :
    (∃ R, getArchivesDependencies ordFirst (some exCrt) exMapD (some exSyms) {} = .ok R ∧ R ≠ []) ∧
    getArchivesDependencies ordFirst (some exCrt) (unify exMapD) (some exSyms) { unify := true } = .ok [] := by
  refine ⟨⟨_, rfl, by decide⟩, by decide +kernel⟩

end EspSize
