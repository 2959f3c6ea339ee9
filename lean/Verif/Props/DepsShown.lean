import Verif.Props.DepsTable
import Verif.Props.DotText
import Verif.Props.MarkupExact
/-! # C98: when the table of dependencies is shown -/
namespace EspSize

/-- The name under which an entry is shown. -/
def nameAs (args : Args) (abb name : Str) : Str := if args.abbrev_ then abb else name

theorem render_int (norm : Str → Str) (z : Int) : renderE norm (intStr z) ≠ none := by
  rw [C98_plain_partial norm _ fun h => (int_chars z _ h).2.2 rfl]
  exact fun h => (by cases h)

theorem renderE_nil (norm : Str → Str) : renderE norm [] ≠ none := by
  rw [C98_plain_partial norm _ List.not_mem_nil]
  exact fun h => (by cases h)

theorem depRows_render (norm : Str → Str) (args : Args) (name : Str) (z : Int) (first : Bool) (l : List (Str × DepInfo)) :
    (∀ r ∈ depRows args name z first l, ∀ c ∈ r, renderE norm c ≠ none) ↔
      (first = true → l ≠ [] → renderE norm name ≠ none) ∧
      ∀ d ∈ l, renderE norm (nameAs args d.2.abb d.1) ≠ none ∧ (args.depSymbols = true → renderE norm (joinWith ['\n'] d.2.symbols) ≠ none) := by
  induction l generalizing first with
  | nil => exact ⟨fun _ => ⟨fun _ h => absurd rfl h, fun d hd => (by cases hd)⟩, fun _ r hr => (by cases hr)⟩
  | cons d l ih =>
    obtain ⟨dn, di⟩ := d
    have h1 := render_int norm z
    have h2 := render_int norm di.size
    have h3 := renderE_nil norm
    have ihf := ih false
    simp only [Bool.false_eq_true, false_imp_iff, true_and] at ihf
    simp only [depRows, List.forall_mem_cons, ihf]
    cases first <;> cases args.depSymbols <;>
      simp only [nameAs, List.forall_mem_append, List.forall_mem_cons, List.not_mem_nil, false_imp_iff, implies_true, and_true, true_and, if_true, if_false,
        Bool.false_eq_true, ne_eq, reduceCtorEq, not_false_eq_true, true_imp_iff, and_assoc, h1, h2, h3] <;> simp_all

theorem depsTable_rows (args : Args) (deps : Deps) :
    depsTable args deps = ⟨[str "Archive", str "Archive Size", if args.depReverse then str "Dependents" else str "Dependencies",
      (if args.depReverse then str "Dependents" else str "Dependencies") ++ str " Sizes"] ++ (if args.depSymbols then [str "Symbols"] else []),
      (getSummaryFiltered DepArch.abb deps args).flatMap fun a =>
        depRows args (if args.abbrev_ then a.2.abb else a.1) a.2.size true a.2.archives⟩ := by
  have ht := foldl_addRow (n := if args.depSymbols then 5 else 4) ((getSummaryFiltered DepArch.abb deps args).flatMap fun a =>
      depRows args (if args.abbrev_ then a.2.abb else a.1) a.2.size true a.2.archives) (fun r hr => by
        obtain ⟨a, _, hr⟩ := List.mem_flatMap.mp hr
        exact depRows_len args _ _ _ _ r hr)
    ⟨[str "Archive", str "Archive Size", if args.depReverse then str "Dependents" else str "Dependencies",
      (if args.depReverse then str "Dependents" else str "Dependencies") ++ str " Sizes"] ++
        (if args.depSymbols then [str "Symbols"] else []), []⟩ (by cases args.depSymbols <;> rfl) (by simp)
  exact ht

/-- **C98** exactly when the table of dependencies is shown: if the names of the listed archives, of what they depend on and, with
`--dep-symbols`, the lists of symbols can be rendered, each for itself. -/
theorem C98_deps_shown_iff (norm : Str → Str) (m : MemMap) (args : Args) (deps : Deps) (ha : args.archives = false)
    (hd : truthy args.archiveDetails = false) (h : args.archiveDependencies = true) :
    (runCalls norm (tableCalls m args (depsTable args deps))).2 = true ↔
      ∀ a ∈ getSummaryFiltered DepArch.abb deps args,
        (a.2.archives ≠ [] → renderE norm (nameAs args a.2.abb a.1) ≠ none) ∧
        ∀ d ∈ a.2.archives, renderE norm (nameAs args d.2.abb d.1) ≠ none ∧ (args.depSymbols = true → renderE norm (joinWith ['\n'] d.2.symbols) ≠ none) := by
  have hlit : ∀ s, '[' ∉ s → renderE norm s ≠ none := fun s hs => by
    rw [C98_plain_partial norm s hs]; exact fun h => (by cases h)
  have hhead : ∀ c ∈ (depsTable args deps).headers, renderE norm c ≠ none := by
    rw [depsTable_rows]
    refine fun c hc => hlit c ?_
    simp only at hc
    revert hc c
    cases args.depReverse <;> cases args.depSymbols <;> decide
  have hcalls : tableCalls m args (depsTable args deps) = [.table (depsTable args deps)] := by
    unfold tableCalls
    rw [ha, hd, h]
    rfl
  rw [hcalls, runCalls_true]
  simp only [List.mem_singleton, forall_eq]
  rw [table_run_iff]
  have hrows : (∀ r ∈ (depsTable args deps).headers :: (depsTable args deps).rows, ∀ c ∈ r, renderE norm c ≠ none) ↔
      ∀ r ∈ (depsTable args deps).rows, ∀ c ∈ r, renderE norm c ≠ none := by
    constructor
    · exact fun h r hr => h r (List.mem_cons_of_mem _ hr)
    · intro h r hr
      rcases List.mem_cons.mp hr with rfl | hr
      · exact hhead
      · exact h r hr
  rw [hrows, depsTable_rows]
  constructor
  · intro h a ha
    obtain ⟨h1, h2⟩ := (depRows_render norm args _ a.2.size true a.2.archives).mp fun r hr => h r (List.mem_flatMap.mpr ⟨a, ha, hr⟩)
    exact ⟨h1 rfl, h2⟩
  · intro h r hr
    obtain ⟨a, ha, hr⟩ := List.mem_flatMap.mp hr
    obtain ⟨h1, h2⟩ := h a ha
    exact (depRows_render norm args _ a.2.size true a.2.archives).mpr ⟨fun _ => h1, h2⟩ r hr

/-- **C98, violated:** with `--archive-dependencies` a comparison is not announced: whatever the projects are, the table is all that is printed. -/
theorem C98_deps_unannounced (m : MemMap) (args : Args) (t : Table) (ha : args.archives = false) (hd : truthy args.archiveDetails = false)
    (h : args.archiveDependencies = true) : tableCalls m args t = [.table t] := by
  unfold tableCalls
  rw [ha, hd, h]
  rfl

theorem depRows_cells {P : Str → Prop} (args : Args) (name : Str) (z : Int) (first : Bool) (l : List (Str × DepInfo)) (h0 : P []) (hi : ∀ z, P (intStr z))
    (hn : l ≠ [] → P name) (hd : ∀ d ∈ l, P (nameAs args d.2.abb d.1) ∧ (args.depSymbols = true → P (joinWith ['\n'] d.2.symbols))) :
    ∀ r ∈ depRows args name z first l, ∀ c ∈ r, P c := by
  induction l generalizing first with
  | nil => intro r hr; cases hr
  | cons d l ih =>
    obtain ⟨dn, di⟩ := d
    have hd' := hd (dn, di) (by simp)
    have hname := hn (by simp)
    intro r hr
    rcases List.mem_cons.mp hr with rfl | hr
    · intro c hc
      rcases List.mem_append.mp hc with hc | hc
      · rcases List.mem_append.mp hc with hc | hc
        · cases first with
          | true =>
            simp only [if_true, List.mem_cons, List.not_mem_nil, or_false] at hc
            rcases hc with rfl | rfl
            · exact hname
            · exact hi _
          | false =>
            simp only [Bool.false_eq_true, if_false, List.mem_cons, List.not_mem_nil, or_false, or_self] at hc
            rw [hc]; exact h0
        · simp only [List.mem_cons, List.not_mem_nil, or_false] at hc
          rcases hc with rfl | rfl
          · exact hd'.1
          · exact hi _
      · cases hs : args.depSymbols with
        | true =>
          rw [hs] at hc
          simp only [if_true, List.mem_cons, List.not_mem_nil, or_false] at hc
          rw [hc]; exact hd'.2 hs
        | false => rw [hs] at hc; cases hc
    · exact ih false (fun _ => hname) (fun d h => hd d (List.mem_cons_of_mem _ h)) r hr

/-- **C98** (names and lists of symbols without markup) the CSV lines of a report of dependencies are all printed, and nothing else. -/
theorem C98_deps_csv_partial (norm : Str → Str) (args : Args) (deps : Deps)
    (h : ∀ a ∈ getSummaryFiltered DepArch.abb deps args, (a.2.archives ≠ [] → NoMarkup (nameAs args a.2.abb a.1)) ∧
      ∀ d ∈ a.2.archives, NoMarkup (nameAs args d.2.abb d.1) ∧ (args.depSymbols = true → NoMarkup (joinWith ['\n'] d.2.symbols))) :
    runCalls norm (csvCalls (csvLines (depsTable args deps))) = ((csvLines (depsTable args deps)).map fun l => .out (render l), true) := by
  have hhead : ∀ c ∈ (depsTable args deps).headers, NoMarkup c := by
    rw [depsTable_rows]
    refine fun c hc => .of_noBracket ?_
    simp only at hc
    revert hc c
    cases args.depReverse <;> cases args.depSymbols <;> decide
  have hrows : ∀ r ∈ (depsTable args deps).rows, ∀ c ∈ r, NoMarkup c := by
    rw [depsTable_rows]
    intro r hr
    obtain ⟨a, ha, hr⟩ := List.mem_flatMap.mp hr
    obtain ⟨h1, h2⟩ := h a ha
    exact depRows_cells args _ _ true a.2.archives (.of_noBracket List.not_mem_nil) (fun z => .of_noBracket fun h => (int_chars z _ h).2.2 rfl) h1 h2 r hr
  have hline : ∀ l ∈ csvLines (depsTable args deps), (PrintCall.print l).run norm = some (.out (render l)) := by
    intro l hl
    have : ∃ o, tags norm [] l = some o := by
      rcases List.mem_cons.mp hl with rfl | hl
      · exact quiet_join norm _ (fun c hc => quiet_plain norm (hhead c hc)) []
      · obtain ⟨r, hr, rfl⟩ := List.mem_map.mp hl
        have e : (r.map fun c => quoteCell (strip c)) = (r.map strip).map quoteCell := by simp
        simp only [e]
        refine quiet_join norm _ (fun c hc => ?_) []
        obtain ⟨c, hc', rfl⟩ := List.mem_map.mp hc
        exact quiet_plain norm (hrows r hr c hc').strip
    obtain ⟨o, ho⟩ := this
    simp only [PrintCall.run, renderE, ho, Option.map_some]
  unfold csvCalls
  rw [runCalls_ok norm (fun c => match c with | .print l => .out (render l) | .eprint l => .err l | .table _ => .cells []) _ (by
    intro c hc
    obtain ⟨l, hl, rfl⟩ := List.mem_map.mp hc
    exact hline l hl)]
  simp

/-- A symbol whose name looks like the end of a style: shown without `--dep-symbols`, an exception with it. -/
example : (runCalls id (tableCalls exFrameMap { archiveDependencies := true } (depsTable { archiveDependencies := true }
    [(str "a.a", ⟨str "a.a", 1, [(str "b.a", ⟨str "b.a", 2, [str "f[/x]"]⟩)]⟩)]))).2 = true := by decide +kernel
example : (runCalls id (tableCalls exFrameMap { archiveDependencies := true, depSymbols := true } (depsTable { archiveDependencies := true, depSymbols := true }
    [(str "a.a", ⟨str "a.a", 1, [(str "b.a", ⟨str "b.a", 2, [str "f[/x]"]⟩)]⟩)]))).2 = false := by decide +kernel

/-- Two symbols that are shown alone and lost together, since a tag may go over lines. -/
theorem C98_deps_symbols_lost : renderE id (str "x[a") = some (str "x[a") ∧ renderE id (str "b]") = some (str "b]") ∧
    renderE id (joinWith ['\n'] [str "x[a", str "b]"]) = some (str "x") := by decide +kernel

end EspSize
