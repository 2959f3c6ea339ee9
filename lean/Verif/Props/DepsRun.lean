import Verif.Spec.DepsRun
import Verif.Props.DepsTable
import Verif.Props.Dot
import Verif.Props.MapRun
import Verif.Props.Influence
import Verif.Props.Lto
import Verif.Props.Agree
/-! # C108: the report of dependencies of a whole run -/
namespace EspSize

theorem refers_congr {P P' : Str → Prop} (h : ∀ a, P a ↔ P' a) {sym : Str → Prop} {A B : Str} {row : Str × List (Str × Str)} :
    Refers P sym A B row ↔ Refers P' sym A B row := by
  unfold Refers
  rw [h A, h B]

/-- The dependencies computed for the map. -/
theorem deps_of {ord : List Str → List Str} (hord : SetOrder ord) {d : MemMap} (hd : d.WF) {crt : Crt} (hn : KeysNodup crt)
    (hne : ∀ p ∈ crt, p.2 ≠ []) {syms : List ElfSym} {args : Args} {D : Deps} {present : Str → Prop} {size : Str → Int}
    (hp : ∀ a, Counted d args a ↔ present a) (hs : ∀ a, present a → archTotal Node.size d a = size a)
    (h : getArchivesDependencies ord (some crt) d (some syms) args = .ok D) : DepsOf args.depReverse crt syms present size D := by
  obtain ⟨D', h1, h2, h3, h4⟩ := C35_report ord hord d hd crt hn hne syms args
  rw [h] at h1
  cases h1
  have hl : ∀ O I row, Linked d args syms O I row ↔ Puts args.depReverse present syms O I row := by
    intro O I row
    unfold Linked Puts
    split <;> exact refers_congr hp
  have hpr : ∀ {O I row}, Puts args.depReverse present syms O I row → present O ∧ present I := by
    intro O I row h
    unfold Puts Refers at h
    split at h
    · exact ⟨h.2.2.1, h.2.1⟩
    · exact ⟨h.2.1, h.2.2.1⟩
  refine ⟨h2, fun O => ?_, fun O a ha => ?_, fun O a ha I => ?_, fun O a ha I i hi => ?_⟩
  · rw [h3 O]
    simp only [hl]
  · obtain ⟨e1, e2, e3, _⟩ := h4 O a ha
    obtain ⟨I, row, _, hr⟩ := (h3 O).mp (by rw [ha]; rfl)
    exact ⟨e1, by rw [e2, hs O (hpr ((hl _ _ _).mp hr)).1], e3⟩
  · obtain ⟨_, _, _, e4, _⟩ := h4 O a ha
    rw [e4 I]
    simp only [hl]
  · obtain ⟨_, _, _, e4, e5⟩ := h4 O a ha
    obtain ⟨row, _, hr⟩ := (e4 I).mp (by rw [hi]; rfl)
    obtain ⟨g1, g2, g3⟩ := e5 I i hi
    refine ⟨g1, by rw [g2, hs I (hpr ((hl _ _ _).mp hr)).2], ?_⟩
    rw [g3]
    congr 1
    apply List.filter_congr
    intro row _
    exact decide_eq_decide.mpr (hl O I row)

theorem filledIn_eq (p : Str × Str) (rows : List (List Str)) : filledIn p rows = carryDown p rows := by
  induction rows generalizing p with
  | nil => rfl
  | cons r t ih =>
    obtain ⟨n, z⟩ := p
    match r with
    | [] => simp [filledIn, carryDown, ih]
    | [a] => simp [filledIn, carryDown, ih]
    | a :: b :: r => simp only [filledIn, carryDown, ih]

theorem passing_eq {args : Args} {nb : Bool} (D : Deps) :
    getSummaryFiltered DepArch.abb D { args with noAbbrev := nb, abbrev_ := abbreviates args } = depsPassing args D := by
  rw [C38_filter]
  unfold depsPassing
  exact List.filter_congr fun e _ => decide_eq_decide.mpr Iff.rfl

theorem deps_rows (args : Args) (nb : Bool) (D : Deps) :
    DepsRows args D (depsTable { args with noAbbrev := nb, abbrev_ := abbreviates args } D) := by
  have hlen : ∀ r ∈ ((getSummaryFiltered DepArch.abb D { args with noAbbrev := nb, abbrev_ := abbreviates args }).flatMap fun a =>
      depRows { args with noAbbrev := nb, abbrev_ := abbreviates args } (if abbreviates args then a.2.abb else a.1) a.2.size true a.2.archives),
      r.length = if args.depSymbols then 5 else 4 := by
    intro r hr
    obtain ⟨a, _, hr⟩ := List.mem_flatMap.mp hr
    exact depRows_len { args with noAbbrev := nb, abbrev_ := abbreviates args } _ _ _ _ r hr
  refine ⟨?_, (C65_dependency_table _ D ([], [])).1, fun p => ?_⟩
  · have ht := foldl_addRow (n := if args.depSymbols then 5 else 4) _ hlen
      ⟨[str "Archive", str "Archive Size", if args.depReverse then str "Dependents" else str "Dependencies",
        (if args.depReverse then str "Dependents" else str "Dependencies") ++ str " Sizes"] ++
          (if args.depSymbols then [str "Symbols"] else []), []⟩ (by cases args.depSymbols <;> rfl) (by simp)
    have hdt : depsTable { args with noAbbrev := nb, abbrev_ := abbreviates args } D = _ := ht
    rw [hdt]
    unfold depTitles
    cases args.depReverse <;> cases args.depSymbols <;> rfl
  · rw [filledIn_eq, (C65_dependency_table _ D p).2, passing_eq]
    rfl

theorem csv_plain {tab : Table} (hh : tab.headers ≠ []) (h1 : ∀ c ∈ tab.headers, PlainName c) (hr : ∀ r ∈ tab.rows, r ≠ [])
    (h2 : ∀ r ∈ tab.rows, ∀ c ∈ r, PlainName c) :
    csvRead (printed (csvLines tab)) = tab.headers :: tab.rows.map fun r => r.map strip := by
  rw [C41_csv_read_partial tab hh hr
    (fun c hc => ⟨tidy_noMarkup (h1 c hc).1, by rw [(h1 c hc).1.shown]; exact (h1 c hc).2⟩)
    (fun r hr c hc => ⟨tidy_noMarkup (h2 r hr c hc).1.strip, by
      rw [(h2 r hr c hc).1.strip.shown]; exact noChar_strip (h2 r hr c hc).2⟩)]
  congr 1
  · conv => rhs; rw [← List.map_id tab.headers]
    exact List.map_congr_left fun c hc => (h1 c hc).1.shown
  · apply List.map_congr_left
    intro r hr
    exact List.map_congr_left fun c hc => (h2 r hr c hc).1.strip.shown

theorem titles_plain (args : Args) : ∀ c ∈ depTitles args, PlainName c := by
  have : ∀ c ∈ depTitles args, '[' ∉ c ∧ '"' ∉ c := by
    unfold depTitles
    cases args.depReverse <;> cases args.depSymbols <;> decide
  exact fun c hc => plain_lit (this c hc)

theorem titles_ne (args : Args) : depTitles args ≠ [] := by
  unfold depTitles
  cases args.depReverse <;> simp

/-- The report of the dependencies `D`. -/
def depsAs (a : Args) (D : Deps) : Report :=
  if a.format = str "table" ∨ a.format = str "text" then .table (depsTable a D)
  else if a.format = str "csv" then .csv (csvLines (depsTable a D))
  else if a.format = str "tree" then .depsTree D
  else if a.format = str "dot" then
    .dot ([str "strict digraph {"] ++ (dotLines (getSummaryFiltered DepArch.abb D a) a).map DotLine.text ++ [str "}"])
  else .deps D

theorem showReport_asked {R : RunIn} {crt : Option Crt} {elf : Option (List ElfSym)} {a : Args} {d : MemMap} (ha : AsksDeps a)
    (hf : a.format ∈ [str "table", str "text", str "csv", str "json2", str "raw", str "tree", str "dot"]) :
    showReport R crt elf a d = (getArchivesDependencies R.ord crt d elf a).map (depsAs a) := by
  have hsel : InTable a → selectTable R crt elf a d = (getArchivesDependencies R.ord crt d elf a).map (depsTable a) := fun hi =>
    selectTable_deps ha hi
  have hj : a.format = str "json2" → showJson R crt elf a d = (getArchivesDependencies R.ord crt d elf a).map .deps := fun e =>
    showJson_deps ha e
  have hdot : showDot R.ord d crt elf a = (getArchivesDependencies R.ord crt d elf a).map fun D =>
      [str "strict digraph {"] ++ (dotLines (getSummaryFiltered DepArch.abb D a) a).map DotLine.text ++ [str "}"] := by
    unfold showDot
    rw [ha.1]
    cases getArchivesDependencies R.ord crt d elf a <;> rfl
  unfold showReport
  have has : ∀ D, depsAs a D = if a.format = str "table" ∨ a.format = str "text" then .table (depsTable a D)
      else if a.format = str "csv" then .csv (csvLines (depsTable a D))
      else if a.format = str "tree" then .depsTree D
      else if a.format = str "dot" then
        .dot ([str "strict digraph {"] ++ (dotLines (getSummaryFiltered DepArch.abb D a) a).map DotLine.text ++ [str "}"])
      else .deps D := fun _ => rfl
  have hfun := funext has
  rw [hfun, ha.1]
  unfold InTable at hsel
  generalize a.format = f at *
  simp only [List.mem_cons, List.not_mem_nil, or_false] at hf hsel
  rcases hf with rfl | rfl | rfl | rfl | rfl | rfl | rfl
  · rw [hsel (.inl rfl), if_pos (.inl rfl)]
    cases getArchivesDependencies R.ord crt d elf a <;> rfl
  · rw [hsel (.inr (.inl rfl)), if_pos (.inr rfl)]
    cases getArchivesDependencies R.ord crt d elf a <;> rfl
  · rw [hsel (.inr (.inr rfl)), if_neg (by decide), if_neg (by decide), if_neg (by decide), if_pos rfl]
    cases getArchivesDependencies R.ord crt d elf a <;> rfl
  · rw [hj rfl, if_neg (by decide), if_pos rfl]
    cases getArchivesDependencies R.ord crt d elf a <;> rfl
  · rw [if_neg (by decide), if_neg (by decide), if_pos rfl, if_pos rfl]
    cases getArchivesDependencies R.ord crt d elf a <;> rfl
  · rw [if_neg (by decide), if_neg (by decide), if_neg (by decide), if_neg (by decide), if_pos rfl, if_pos rfl]
    cases getArchivesDependencies R.ord crt d elf a <;> rfl
  · rw [hdot, if_neg (by decide), if_neg (by decide), if_neg (by decide), if_neg (by decide), if_neg (by decide), if_pos rfl]
    cases getArchivesDependencies R.ord crt d elf a <;> rfl

/-- The report of the dependencies. -/
theorem reports_deps {args : Args} {nb : Bool} {D : Deps} {crt : Crt} {syms : List ElfSym} {present : Str → Prop} {size : Str → Int}
    (hof : DepsOf args.depReverse crt syms present size D) :
    ReportsDeps args size D (depsAs { args with noAbbrev := nb, abbrev_ := abbreviates args } D) := by
  have hrows := deps_rows args nb D
  have has : depsAs { args with noAbbrev := nb, abbrev_ := abbreviates args } D =
      if args.format = str "table" ∨ args.format = str "text" then
        .table (depsTable { args with noAbbrev := nb, abbrev_ := abbreviates args } D)
      else if args.format = str "csv" then .csv (csvLines (depsTable { args with noAbbrev := nb, abbrev_ := abbreviates args } D))
      else if args.format = str "tree" then .depsTree D
      else if args.format = str "dot" then
        .dot ([str "strict digraph {"] ++ (dotLines (depsPassing args D) { args with noAbbrev := nb, abbrev_ := abbreviates args }).map
          DotLine.text ++ [str "}"])
      else .deps D := by
    rw [← passing_eq (nb := nb)]
    rfl
  rw [has]
  generalize depsTable { args with noAbbrev := nb, abbrev_ := abbreviates args } D = tab at hrows
  refine ⟨?_, ?_, ?_, ?_, ?_⟩
  · rintro (e | e) <;> simp only [e] <;>
      rw [if_neg (by decide), if_neg (by decide), if_neg (by decide), if_neg (by decide)]
  · intro e
    rw [e, if_neg (by decide), if_neg (by decide), if_pos rfl]
  · intro e
    rw [if_pos e]
    exact ⟨_, rfl, hrows⟩
  · intro e
    rw [e, if_neg (by decide), if_pos rfl]
    refine ⟨_, rfl, hrows, fun hpl => ?_⟩
    refine csv_plain (by rw [hrows.headers]; exact titles_ne args) (by rw [hrows.headers]; exact titles_plain args) ?_ hpl
    intro r hr hx
    have := hrows.width r hr
    rw [hx, hrows.headers] at this
    exact titles_ne args (List.eq_nil_of_length_eq_zero this.symm)
  · intro e
    have hnodes : ∀ n l z b, DotLine.node n l z b ∈ dotLines (depsPassing args D) { args with noAbbrev := nb, abbrev_ := abbreviates args } →
        (∃ abb, LastPart n abb ∧ l = displayed (abbreviates args) (n, abb)) ∧ z = size n := by
      intro n l z b hmem
      have hall := dotLines_forall (depsPassing args D) { args with noAbbrev := nb, abbrev_ := abbreviates args }
        (fun ln => ∀ n l z b, ln = DotLine.node n l z b → (∃ abb, LastPart n abb ∧ l = displayed (abbreviates args) (n, abb)) ∧ z = size n)
        (by
          intro p hp n l z b heq
          cases heq
          have hp' := dget_of_mem hof.distinct (List.mem_filter.mp hp).1
          obtain ⟨g1, g2, _⟩ := hof.archive _ _ hp'
          exact ⟨⟨_, g1, rfl⟩, g2⟩)
        (by
          intro p hp q hq
          have hp' := dget_of_mem hof.distinct (List.mem_filter.mp hp).1
          obtain ⟨_, _, g3⟩ := hof.archive _ _ hp'
          obtain ⟨g4, g5, _⟩ := hof.other _ _ hp' _ _ (dget_of_mem g3 hq)
          constructor
          · intro n l z b heq
            cases heq
            exact ⟨⟨_, g4, rfl⟩, g5⟩
          · intro n l z b heq
            split at heq <;> cases heq)
      exact hall _ hmem n l z b rfl
    obtain ⟨c1, c2, c3, c4, c5⟩ := C37_dot (depsPassing args D) { args with noAbbrev := nb, abbrev_ := abbreviates args }
    refine ⟨dotLines (depsPassing args D) { args with noAbbrev := nb, abbrev_ := abbreviates args }, ?_, ⟨c1, c2, c3, c4, c5, fun n l z b hm => (hnodes n l z b hm).1⟩,
      fun n l z b hm => (hnodes n l z b hm).2⟩
    rw [e, if_neg (by decide), if_neg (by decide), if_neg (by decide), if_pos rfl]

theorem loadMap_crt {w : World} {fn : Str} {mf : MapFile} {crt : Crt} (h : loadMap w fn = .ok mf) (hc : mf.crt = some crt) :
    KeysNodup crt ∧ ∀ p ∈ crt, p.2 ≠ [] := by
  unfold loadMap at h
  split at h
  · unfold parseMap at h
    obtain ⟨⟨r, rest⟩, _, h⟩ := bind_ok h
    obtain ⟨⟨s, rest'⟩, _, h⟩ := bind_ok h
    obtain ⟨c, h1, h⟩ := bind_ok h
    cases h
    cases hc
    exact C35_table_ok _ _ h1
  all_goals cases h

/-- **C108** the report of dependencies of a whole run: which archives are listed, with the sizes they have in the report of
archives, and for which symbols of the cross reference table. -/
theorem C108_dependencies (R : RunIn) (hord : SetOrder R.ord) (input : Str) (args : Args) (rep : Report) {l : GetIn}
    (hr : Readable R args input l) (ha : AsksDeps args)
    (hf : args.format ∈ [str "table", str "text", str "csv", str "json2", str "raw", str "tree", str "dot"])
    (h : makeReport R input args = some (.ok rep)) :
    ∃ mf crt elf parts goes D, loadMap R.w input = .ok mf ∧ mf.crt = some crt ∧ getElf R.w input none = .ok (some elf) ∧
      CutInto R args l parts goes ∧
      DepsOf args.depReverse crt elf.syms (ShowsArchive args.unify goes parts) (fun a => archivesShown args goes parts a .total) D ∧
      ReportsDeps args (fun a => archivesShown args goes parts a .total) D rep := by
  have key : ∀ args : Args, truthy args.diff = false → Readable R args input l → AsksDeps args →
      args.format ∈ [str "table", str "text", str "csv", str "json2", str "raw", str "tree", str "dot"] →
      makeReport R input args = some (.ok rep) →
      ∃ mf crt elf parts goes D, loadMap R.w input = .ok mf ∧ mf.crt = some crt ∧ getElf R.w input none = .ok (some elf) ∧
      CutInto R args l parts goes ∧
      DepsOf args.depReverse crt elf.syms (ShowsArchive args.unify goes parts) (fun a => archivesShown args goes parts a .total) D ∧
      ReportsDeps args (fun a => archivesShown args goes parts a .total) D rep := by
    clear h hf ha hr args
    intro args hdiff hr ha hf h
    obtain ⟨mf, elf, m, ref, d, h1, h2, h3, h4, h5, h6⟩ := makeReport_ok h
    obtain ⟨nb, heff⟩ := eff_abbreviates args (.inr hdiff)
    rw [heff] at h3 h4 h5 h6
    obtain ⟨parts, goes, regions, hp, hg, hm, ht⟩ := cell_map_types hr.loads hr.sizes (fun f hf => by cases hf; exact h1) h3
    have hmap := prepare_map (cur := ⟨l.types, regions, parts, goes⟩) (ref := none) hm ht (by rw [show truthy args.diff = false from hdiff]; rfl)
      (by intro b hb; cases hb) h5
    obtain ⟨d', rfl, hmid, _⟩ := prepare_mid hm.wf hm.named hm.empty (by intro hx; rw [show truthy args.diff = true from hx] at hdiff; cases hdiff) h5
    have ha' : AsksDeps { args with noAbbrev := nb, abbrev_ := abbreviates args } := ha
    rw [showReport_asked ha' hf] at h6
    obtain ⟨D, hD, hrep⟩ : ∃ D, getArchivesDependencies R.ord mf.crt (if args.unify then unify d' else d') (elf.map (·.syms))
        { args with noAbbrev := nb, abbrev_ := abbreviates args } = .ok D ∧
        rep = depsAs { args with noAbbrev := nb, abbrev_ := abbreviates args } D := by
      cases hD : getArchivesDependencies R.ord mf.crt (if args.unify then unify d' else d') (elf.map (·.syms))
          { args with noAbbrev := nb, abbrev_ := abbreviates args } with
      | error x => rw [hD] at h6; cases h6
      | ok D => rw [hD] at h6; cases h6; exact ⟨D, rfl, rfl⟩
    obtain ⟨crt, hcrt⟩ : ∃ crt, mf.crt = some crt := by
      cases hc : mf.crt with
      | some c => exact ⟨c, rfl⟩
      | none => rw [hc] at hD; cases hD
    obtain ⟨e, rfl⟩ : ∃ e, elf = some e := by
      cases elf with
      | some e => exact ⟨e, rfl⟩
      | none =>
        exact absurd ((C35_requires R.ord _ hmap.wf mf.crt none _ (.inr rfl)).symm.trans hD) (by simp)
    rw [hcrt] at hD
    obtain ⟨hn, hne⟩ := loadMap_crt h1 hcrt
    have hpres : ∀ a, Counted (if args.unify then unify d' else d') { args with noAbbrev := nb, abbrev_ := abbreviates args } a ↔
        ShowsArchive args.unify goes parts a := by
      intro a
      unfold Counted
      constructor
      · rintro ⟨⟨t, s, hs⟩, _⟩
        rcases (hmap.archives t s a).mp hs with ⟨p, hp1, _, x, hx, hxa⟩ | ⟨_, hb, _⟩
        · exact ⟨p, (List.mem_filter.mp hp1).1, x, hx, hxa⟩
        · cases hb
      · rintro ⟨p, hp1, x, hx, hxa⟩
        refine ⟨?_, fun hx => by rw [show truthy args.diff = true from hx] at hdiff; cases hdiff⟩
        have hne : p.archives ≠ [] := by intro h0; rw [h0] at hx; cases hx
        obtain ⟨⟨t, s⟩, hts⟩ := Option.ne_none_iff_exists'.mp (mem_shown hp1).2
        refine ⟨t, secKey args.unify s, (hmap.archives t (secKey args.unify s) a).mpr (.inl ⟨p, ?_, ?_, x, hx, hxa⟩)⟩
        · refine List.mem_filter.mpr ⟨hp1, ?_⟩
          cases hq : p.archives with
          | nil => exact absurd hq hne
          | cons y ys => simp
        · show (goes p).any (fun y => decide (y.1 = t) && decide (secKey args.unify y.2 = secKey args.unify s)) = true
          rw [hts]
          simp
    have hof : DepsOf args.depReverse crt e.syms (ShowsArchive args.unify goes parts) (fun a => archivesShown args goes parts a .total) D := by
      refine deps_of hord hmap.wf hn hne hpres ?_ hD
      intro a hpa
      have hcell := midCells_unify hmid args.unify
      obtain ⟨S, hS, hsum⟩ := archives_summary hcell { args with noAbbrev := nb, abbrev_ := abbreviates args }
      obtain ⟨S', hS', hcnt, hsz⟩ := counted_iff hmap.wf { args with noAbbrev := nb, abbrev_ := abbreviates args }
      rw [hS] at hS'
      cases hS'
      obtain ⟨x, hx⟩ := Option.isSome_iff_exists.mp ((hcnt a).mpr ((hpres a).mpr hpa))
      rw [← hsz a x hx]
      have := (hsum.cells a x hx .total trivial x.size x.sizeDiff rfl).1
      rw [this]
      exact hm.archs args.unify a .total
    exact ⟨mf, crt, e, parts, goes, D, h1, hcrt, h2, ⟨regions, hp, hg⟩, hof, hrep ▸ reports_deps hof⟩
  have h' := h
  rw [← C103_deps R input args args.useFlashSize args.showUnchanged args.sortDiff args.sortReverse args.outputFile none args.sort ha] at h'
  obtain ⟨mf, crt, elf, parts, goes, D, g1, g2, g3, g4, g5, g6⟩ := key { args with diff := none } rfl ⟨hr.loads, hr.sizes⟩ ha hf h'
  refine ⟨mf, crt, elf, parts, goes, D, g1, g2, g3, g4, g5, ⟨g6.json, g6.tree, fun e => ?_, fun e => ?_, fun e => ?_⟩⟩
  · obtain ⟨tab, e1, e2⟩ := g6.table e
    exact ⟨tab, e1, e2.headers, e2.width, e2.rows⟩
  · obtain ⟨tab, e1, e2, e3⟩ := g6.csv e
    exact ⟨tab, e1, ⟨e2.headers, e2.width, e2.rows⟩, e3⟩
  · obtain ⟨ls, e1, e2, e3⟩ := g6.dot e
    exact ⟨ls, e1, ⟨e2.once, e2.nodes, e2.first, e2.edges, e2.boxes, e2.labels⟩, e3⟩

/-- **C108** whether asked for in one direction or in the other, a run reports the same dependencies. -/
theorem C108_dual (R : RunIn) (hord : SetOrder R.ord) (input : Str) (args : Args) (rep rep' : Report)
    (ha : AsksDeps args) (hf : args.format = str "json2" ∨ args.format = str "raw")
    (h : makeReport R input { args with depReverse := false } = some (.ok rep))
    (h' : makeReport R input { args with depReverse := true } = some (.ok rep')) :
    ∃ D D', rep = .deps D ∧ rep' = .deps D' ∧ ∀ A B s, Reports D A B s ↔ Reports D' B A s := by
  obtain ⟨mf, elf, m, ref, d, h1, h2, h3, h4, h5, h6⟩ := makeReport_ok h
  obtain ⟨mf', elf', m', ref', d', h1', h2', h3', h4', h5', h6'⟩ := makeReport_ok h'
  have hwf : d.WF := by
    refine prepared_wf (R := R) (input := input) (args := effectiveArgs { args with depReverse := false }) (crt := mf.crt)
      (elf := elf.map (·.syms)) ?_
    unfold prepared
    simp only [useDwarf_eff, h1, h2, h3, h4, h5]
  have hfm : args.format ∈ [str "table", str "text", str "csv", str "json2", str "raw", str "tree", str "dot"] := by
    rcases hf with e | e <;> rw [e] <;> decide
  rw [h1] at h1'
  cases h1'
  rw [h2] at h2'
  cases h2'
  have he : ∀ b, effectiveArgs { args with depReverse := b } = { effectiveArgs args with depReverse := b } := by
    intro b
    rw [eff_eq, eff_eq]
  have ha' : ∀ b, AsksDeps { effectiveArgs args with depReverse := b } := by
    intro b
    rw [eff_eq]
    exact ha
  have hf' : ∀ b, ({ effectiveArgs args with depReverse := b } : Args).format = args.format := by
    intro b
    rw [eff_eq]
  have hnd : truthy (effectiveArgs args).diff = false := eff_noDiff args ha.1
  have hdd : d = d' := by
    rw [he] at h3 h4 h5 h3' h4' h5'
    have e1 : ∀ b, loadSymbolsOf { effectiveArgs args with depReverse := b } = loadSymbolsOf (effectiveArgs args) := fun _ => rfl
    rw [e1] at h3 h3'
    rw [show useDwarfOf { args with depReverse := false } = useDwarfOf args from rfl] at h3
    rw [show useDwarfOf { args with depReverse := true } = useDwarfOf args from rfl] at h3'
    rw [h3] at h3'
    cases h3'
    have e2 : ∀ b, prepare { effectiveArgs args with depReverse := b } m = prepare (effectiveArgs args) m := fun _ => rfl
    rw [e2] at h5 h5'
    have e3 : prepare (effectiveArgs args) m ref = prepare (effectiveArgs args) m ref' := by
      unfold prepare
      simp only [hnd]
      rfl
    rw [e3, h5'] at h5
    cases h5
    rfl
  subst hdd
  rw [he, showReport_asked (ha' _) (by rw [hf']; exact hfm)] at h6 h6'
  have has : ∀ b D, depsAs { effectiveArgs args with depReverse := b } D = .deps D := by
    intro b D
    unfold depsAs
    rw [hf']
    rcases hf with e | e <;> rw [e, if_neg (by decide), if_neg (by decide), if_neg (by decide), if_neg (by decide)]
  have hok : ∀ {b : Bool} {r : Report}, (getArchivesDependencies R.ord mf.crt d (elf.map (·.syms)) { effectiveArgs args with depReverse := b }).map
      (depsAs { effectiveArgs args with depReverse := b }) = .ok r → ∃ D, getArchivesDependencies R.ord mf.crt d (elf.map (·.syms))
        { effectiveArgs args with depReverse := b } = .ok D ∧ r = .deps D := by
    intro b r h
    cases hD : getArchivesDependencies R.ord mf.crt d (elf.map (·.syms)) { effectiveArgs args with depReverse := b } with
    | error x => rw [hD] at h; cases h
    | ok D =>
      rw [hD] at h
      cases h
      exact ⟨D, rfl, has b D⟩
  obtain ⟨D, hD, rfl⟩ := hok h6
  obtain ⟨D', hD', rfl⟩ := hok h6'
  refine ⟨D, D', rfl, rfl, ?_⟩
  obtain ⟨crt, hcrt⟩ : ∃ crt, mf.crt = some crt := by
    cases hc : mf.crt with
    | some c => exact ⟨c, rfl⟩
    | none => rw [hc] at hD; cases hD
  obtain ⟨e, rfl⟩ : ∃ e, elf = some e := by
    cases elf with
    | some e => exact ⟨e, rfl⟩
    | none => exact absurd ((C35_requires R.ord d hwf mf.crt none _ (.inr rfl)).symm.trans hD) (by simp)
  rw [hcrt] at hD hD'
  obtain ⟨hn, hne⟩ := loadMap_crt h1 hcrt
  obtain ⟨E, E', hE, hE', hall⟩ := C35_dual R.ord R.ord hord hord d hwf crt hn hne e.syms (effectiveArgs args)
  rw [show Option.map (fun x : ElfData => x.syms) (some e) = some e.syms from rfl] at hD hD'
  rw [hD] at hE
  rw [hD'] at hE'
  cases hE
  cases hE'
  exact fun A B s => (hall A B s).1

/-- **C108** for the text of a link map file: the table `t` printed there is the one that counts.  Partial: the link map files
described by `MapFileText`. -/
theorem C108_text_partial (R : RunIn) (hord : SetOrder R.ord) (input : Str) (args : Args) (rep : Report) {l : GetIn}
    {lines : List Str} {regs : List Region} {target : Str} {os : List ListedOut} {t : List (Str × List (Str × Str))}
    (hlines : R.w.lines input = .ok lines) (hfile : MapFileText regs target os t lines)
    (hpads : ∀ o ∈ os, ∀ i ∈ o.inputs, SimplePads o.address o.size i)
    (hr : Readable R args input l) (ha : AsksDeps args)
    (hf : args.format ∈ [str "table", str "text", str "csv", str "json2", str "raw", str "tree", str "dot"])
    (h : makeReport R input args = some (.ok rep)) :
    ∃ elf parts goes D, getElf R.w input none = .ok (some elf) ∧ CutInto R args l parts goes ∧
      DepsOf args.depReverse t elf.syms (ShowsArchive args.unify goes parts) (fun a => archivesShown args goes parts a .total) D ∧
      ReportsDeps args (fun a => archivesShown args goes parts a .total) D rep := by
  obtain ⟨mf, crt, elf, parts, goes, D, h1, h2, h3, h4, h5, h6⟩ := C108_dependencies R hord input args rep hr ha hf h
  have hm : loadMap R.w input = .ok { regions := regs, target := target, sections := os.map ListedOut.toPOut, crt := some t } := by
    unfold loadMap
    rw [hlines]
    exact C70_map_file_partial hfile hpads
  rw [hm] at h1
  cases h1
  cases h2
  exact ⟨elf, parts, goes, D, h3, h4, h5, h6⟩

/-- **C108** an archive has the same size in the report of dependencies as in the report of archives.  Partial: without
`--use-dwarf`, see `C108_lto_option`. -/
theorem C108_sizes_partial (R : RunIn) (hord : SetOrder R.ord) (input : Str) (args : Args) (D : Deps) (E : Dict Str Entry)
    (ha : AsksDeps args) (hf : args.format = str "json2") (hd : args.useDwarf ≠ some true)
    (h : makeReport R input args = some (.ok (.deps D)))
    (h' : makeReport R input { args with archives := true, archiveDependencies := false, diff := none } = some (.ok (.entries E))) :
    (∀ O a, dget D O = some a → ∃ e, dget E O = some e ∧ a.size = e.size) ∧
    ∀ O a I i, dget D O = some a → dget a.archives I = some i → ∃ e, dget E I = some e ∧ i.size = e.size := by
  obtain ⟨mf, elf, m, ref, d, h1, h2, h3, h4, h5, h6⟩ := makeReport_ok h
  have hprep : prepared R input (effectiveArgs args) = some (.ok (mf.crt, elf.map (·.syms), d)) := by
    unfold prepared
    simp only [useDwarf_eff, h1, h2, h3, h4, h5]
  have hwf := prepared_wf hprep
  obtain ⟨crt', elf', d', g1, g2⟩ := prepared_of h'
  have hnd := eff_noDiff args ha.1
  obtain ⟨har, hdet⟩ := ha.2 (by rw [hf]; decide)
  have hsame : prepared R input (effectiveArgs { args with archives := true, archiveDependencies := false, diff := none }) =
      prepared R input (effectiveArgs args) := by
    rw [← prepared_noDiff (args := effectiveArgs args) none hnd rfl]
    refine prepared_same ⟨?_, ?_, ?_, ?_, ?_, ?_⟩ <;> rw [eff_eq, eff_eq]
    · rfl
    · unfold useDwarfOf
      simp only [if_neg hd]
    · simp
  rw [hsame, hprep] at g1
  cases g1
  have ha' : AsksDeps (effectiveArgs args) := by rw [eff_eq]; exact ha
  have hf' : (effectiveArgs args).format = str "json2" := by rw [eff_eq]; exact hf
  rw [showReport_asked ha' (by rw [hf']; decide)] at h6
  have hD : getArchivesDependencies R.ord mf.crt d (elf.map (·.syms)) (effectiveArgs args) = .ok D := by
    cases hD : getArchivesDependencies R.ord mf.crt d (elf.map (·.syms)) (effectiveArgs args) with
    | error x => rw [hD] at h6; cases h6
    | ok D' =>
      rw [hD] at h6
      have e : depsAs (effectiveArgs args) D' = .deps D' := by
        unfold depsAs
        rw [hf', if_neg (by decide), if_neg (by decide), if_neg (by decide), if_neg (by decide)]
      simp only [Except.map, e] at h6
      cases h6
      rfl
  obtain ⟨crt, hcrt⟩ : ∃ crt, mf.crt = some crt := by
    cases hc : mf.crt with
    | some c => exact ⟨c, rfl⟩
    | none => rw [hc] at hD; cases hD
  obtain ⟨e, rfl⟩ : ∃ e, elf = some e := by
    cases elf with
    | some e => exact ⟨e, rfl⟩
    | none => exact absurd ((C35_requires R.ord d hwf mf.crt none _ (.inr rfl)).symm.trans hD) (by simp)
  rw [hcrt] at hD
  obtain ⟨hn, hne⟩ := loadMap_crt h1 hcrt
  obtain ⟨S, hS, hcnt, hsz⟩ := counted_iff hwf (effectiveArgs { args with archives := true, archiveDependencies := false, diff := none })
  have hE : E = getSummarySorted S (effectiveArgs { args with archives := true, archiveDependencies := false, diff := none }) := by
    unfold showReport at g2
    have e1 : (effectiveArgs { args with archives := true, archiveDependencies := false, diff := none }).format = str "json2" := by
      rw [eff_eq]; exact hf
    have e2 : (effectiveArgs { args with archives := true, archiveDependencies := false, diff := none }).archives = true := by
      rw [eff_eq]
    rw [e1, if_neg (by decide), if_pos rfl] at g2
    unfold showJson at g2
    rw [if_pos e2, hS] at g2
    cases g2
    rfl
  have hfind : ∀ x, Counted d (effectiveArgs args) x → ∃ e, dget E x = some e ∧ e.size = archTotal Node.size d x := by
    intro x hx
    have hx' : Counted d (effectiveArgs { args with archives := true, archiveDependencies := false, diff := none }) x := by
      refine ⟨hx.1, fun ht => ?_⟩
      rw [eff_eq] at ht
      simp [truthy] at ht
    obtain ⟨e, he⟩ := Option.isSome_iff_exists.mp ((hcnt x).mpr hx')
    have hnS : KeysNodup S := by
      obtain ⟨E0, hE0, inv⟩ := summarize_inv (mtWF_summaryTypes hwf) _ (archRecs_ok hwf)
      unfold getArchivesSummary at hS
      simp only [hE0, bind, Except.bind, Except.ok.injEq] at hS
      rw [← hS]
      unfold remSummaryUnchanged
      split
      · exact inv.nodup
      · exact inv.nodup.dfilter _
    obtain ⟨_, k1, k2, _⟩ := entries_sorted (C07_summary_sorted S (effectiveArgs { args with archives := true, archiveDependencies := false, diff := none })) hnS
    obtain ⟨e', he'⟩ := Option.isSome_iff_exists.mp ((k1 x).trans (by rw [he]; rfl))
    obtain ⟨e2, k3, k4⟩ := k2 x e' he'
    rw [he] at k3
    cases k3
    refine ⟨e', by rw [hE]; exact he', ?_⟩
    rw [← hsz x e he]
    exact k4.2.1
  have hl : ∀ {O I row}, Linked d (effectiveArgs args) e.syms O I row → Counted d (effectiveArgs args) O ∧ Counted d (effectiveArgs args) I := by
    intro O I row h
    unfold Linked Refers at h
    split at h
    · exact ⟨h.2.2.1, h.2.1⟩
    · exact ⟨h.2.1, h.2.2.1⟩
  obtain ⟨D', hD', _, e3, e4⟩ := C35_report R.ord hord d hwf crt hn hne e.syms (effectiveArgs args)
  rw [show Option.map (fun x : ElfData => x.syms) (some e) = some e.syms from rfl, hD'] at hD
  cases hD
  constructor
  · intro O a hO
    obtain ⟨I, row, _, hrow⟩ := (e3 O).mp (by rw [hO]; rfl)
    obtain ⟨x, g3, g4⟩ := hfind O (hl hrow).1
    exact ⟨x, g3, by rw [g4, (e4 O a hO).2.1]⟩
  · intro O a I i hO hI
    obtain ⟨_, _, _, f4, f5⟩ := e4 O a hO
    obtain ⟨row, _, hrow⟩ := (f4 I).mp (by rw [hI]; rfl)
    obtain ⟨x, g3, g4⟩ := hfind I (hl hrow).2
    exact ⟨x, g3, by rw [g4, (f5 I i hI).2.1]⟩

/-! ### Example -/

/-- The example project with a cross reference table: `libb.a` uses `f` of `liba.a`. -/
def exDepsRun : RunIn :=
  { n := 3, F := exFloat, ord := ordFirst
    w := { exSymWorld [exFunc "f" 0x100 0x10, exFunc "g" 0x110 4] with
      lines := fun fn => if fn = str "/b/x.map" then .ok (exMapLines ++ [str "Cross Reference Table", [], str "Symbol   File",
        str "f     lib/liba.a(a.o)", str "      lib/libb.a(b.o)", str "g     lib/liba.a(a.o)", str "h     lib/libb.a(b.o)", str "      lib/liba.a(a.o)"])
        else .error .osError } }

example : SetOrder exDepsRun.ord := ordFirst_order

example (fmt : Str) (rev : Bool) : ∃ l, Readable exDepsRun { format := fmt, archiveDependencies := true, depReverse := rev } (str "/b/x.map") l := by
  obtain ⟨l, h⟩ := readable_of (R := exDepsRun) (args := {}) (fn := str "/b/x.map") (by decide +kernel)
  exact ⟨l, h.loads, h.sizes⟩

example : exTable (makeReport exDepsRun (str "/b/x.map") { format := str "table", archiveDependencies := true, depSymbols := true }) =
    some [[str "Archive", str "Archive Size", str "Dependencies", str "Dependencies Sizes", str "Symbols"],
      [str "libb.a", str "8", str "liba.a", str "24", str "f"]] := by decide +kernel

example : exTable (makeReport exDepsRun (str "/b/x.map") { format := str "table", archiveDependencies := true, depReverse := true }) =
    some [[str "Archive", str "Archive Size", str "Dependents", str "Dependents Sizes"],
      [str "liba.a", str "24", str "libb.a", str "8"]] := by decide +kernel

def exLtoDepsWorld : World :=
  { exLtoWorld [exLtoSym "f" 0x100 8, exLtoSym "g" 0x110 8] with
    lines := fun fn => if fn = str "/b/x.map" then .ok (exLtoLines ++ [str "Cross Reference Table", [], str "Symbol   File",
      str "f     m/libm.a(m.c.obj)", str "      lib/libb.a(b.o)"]) else .error .osError
    elf := fun p => if p = str "/b/x.elf" then
      some (.ok { shdrs := [{ name := str ".iram0.text", type := 1, size := 32, flags := 2 }], syms := [exFunc "f" 0x100 8]
                  cuSyms := .ok [exLtoSym "f" 0x100 8, exLtoSym "g" 0x110 8] }) else none }

/-- **C108** a project configured for LTO loses its dependencies if `--lto` is given: the option counts only for reports of
archives, files and symbols, and without it the configuration decides. -/
theorem C108_lto_option :
    exTable (makeReport (exRun exLtoDepsWorld) (str "/b/x.map") { format := str "table", archiveDependencies := true }) =
      some [[str "Archive", str "Archive Size", str "Dependencies", str "Dependencies Sizes"],
        [str "libb.a", str "8", str "libm.a", str "16"]] ∧
    exTable (makeReport (exRun exLtoDepsWorld) (str "/b/x.map") { format := str "table", archiveDependencies := true, useDwarf := some true }) =
      some [[str "Archive", str "Archive Size", str "Dependencies", str "Dependencies Sizes"]] := by
  constructor <;> decide +kernel

end EspSize
