import Verif.Proofs.Cells
import Verif.Proofs.ProjectCells
/-! # C81: the tables, CSV and JSON reports of whole runs, cell by cell -/
namespace EspSize

theorem eff_abbreviates (args : Args) (h : args.archiveDependencies = false ∨ truthy args.diff = false) :
    ∃ b, effectiveArgs args = { args with noAbbrev := b, abbrev_ := abbreviates args } := by
  have hx : (args.archiveDependencies && truthy args.diff) = false := by rcases h with h | h <;> simp [h]
  refine ⟨if args.noAbbrev && args.unify then false else args.noAbbrev, ?_⟩
  unfold effectiveArgs abbreviates
  by_cases hc : (args.noAbbrev && args.unify) = true
  · simp only [hc, if_true, hx, Bool.false_eq_true, if_false]
    simp only [Bool.and_eq_true] at hc
    simp [hc.1, hc.2]
  · simp only [hc, hx, Bool.false_eq_true, if_false]
    cases h1 : args.noAbbrev <;> cases h2 : args.unify <;> simp_all

theorem titles_of {u diff : Bool} {m ref d : MemMap} (hp : PrepCells u diff m ref d) (b : Bool) (hb : u = true → b = true) :
    ∀ c ∈ reportCols d, colTitle d b c = titleOf u b c := by
  intro c hc
  unfold reportCols at hc
  rcases List.mem_cons.mp hc with rfl | hc
  · rfl
  · obtain ⟨t, ht, hc⟩ := List.mem_flatMap.mp hc
    rcases List.mem_cons.mp hc with rfl | hc
    · rfl
    · obtain ⟨s, hs, rfl⟩ := List.mem_map.mp hc
      have hg : getSec d t.1 s.1 = some s.2 :=
        Option.bind_eq_some_iff.mpr ⟨t.2, dget_of_mem hp.wf.1 ht, dget_of_mem (hp.wf.2 t ht).1 hs⟩
      have hn := hp.secNames t ht s hs
      unfold colTitle titleOf
      simp only [hg]
      cases u with
      | true => simp only [hb rfl, if_true]; simpa using hn
      | false => simp only [Bool.false_eq_true, if_false] at hn ⊢; rw [hn]

/-- A report, from the summary. -/
theorem report_of {R : RunIn} {crt : Option Crt} {elf : Option (List ElfSym)} {args : Args} {nb : Bool} {u diff : Bool}
    {m ref d : MemMap} (hp : PrepCells u diff m ref d) (hu : args.unify = u) {title : Str} (ht : PlainName title)
    {named : Str → Str → Prop} {exact : Col → Prop} {cur dif : Str → Col → Int} {S : Dict Str Entry} {rep : Report}
    (hS : SummaryOf { args with noAbbrev := nb, abbrev_ := abbreviates args } d named exact cur dif S) (htot : exact .total)
    (hsel : selectTable R crt elf { args with noAbbrev := nb, abbrev_ := abbreviates args } d =
      detailTable title (getSummaryFiltered Entry.abb S { args with noAbbrev := nb, abbrev_ := abbreviates args })
        { args with noAbbrev := nb, abbrev_ := abbreviates args })
    (hjson : showJson R crt elf { args with noAbbrev := nb, abbrev_ := abbreviates args } d =
      .ok (.entries (getSummarySorted S { args with noAbbrev := nb, abbrev_ := abbreviates args })))
    (h : showReport R crt elf { args with noAbbrev := nb, abbrev_ := abbreviates args } d = .ok rep) :
    ReportOf args title named exact cur dif rep := by
  have hab : u = true → abbreviates args = true := by
    intro h1
    unfold abbreviates
    rw [hu, h1]; rfl
  have htab : ∀ tab, detailTable title (getSummaryFiltered Entry.abb S { args with noAbbrev := nb, abbrev_ := abbreviates args })
        { args with noAbbrev := nb, abbrev_ := abbreviates args } = .ok tab →
      ∃ cols es, TableOf args (abbreviates args) title named exact cur dif tab cols es := by
    intro tab htab
    obtain ⟨cols, es, hx⟩ := table_of hp.wf hS (by
      intro c hc
      rw [hu]
      exact titles_of hp (abbreviates args) hab c hc) htab
    exact ⟨cols, es, hx.headers, hx.rows, hx.distinct, hx.columns, hx.entries, hx.all, hx.allColumns, hx.sorted⟩
  unfold showReport at h
  rw [hsel, hjson] at h
  simp only [bind, Except.bind] at h
  refine ⟨?_, ?_, ?_⟩
  · intro hf
    rw [if_pos hf] at h
    split at h
    · cases h
    · rename_i tab hd
      cases h
      obtain ⟨cols, es, hx⟩ := htab tab hd
      exact ⟨tab, cols, es, rfl, hx⟩
  · intro hf
    simp only [hf] at h
    rw [if_neg (by decide), if_neg (by decide), if_neg (by decide), if_pos trivial] at h
    split at h
    · cases h
    · rename_i tab hd
      cases h
      obtain ⟨cols, es, hx⟩ := htab tab hd
      exact ⟨tab, cols, es, rfl, hx, fun h1 h2 => csv_of hx ht h1 h2⟩
  · intro hf
    simp only [hf] at h
    rw [if_neg (by decide), if_pos trivial] at h
    cases h
    have hx := entries_of hp.wf hS htot
    exact ⟨_, rfl, hx.distinct, hx.names, hx.cells, hx.wanted, hx.all, hx.sorted⟩

/-! ### The three summaries -/

/-- The cells in what is shown. -/
def curOf (f : (Str → Str → Str → Bool) → Int) (k : Str) (c : Col) : Int := f fun t s x => decide (x = k) && c.has t s

theorem archives_summary {u diff : Bool} {m ref d : MemMap} (hp : PrepCells u diff m ref d) (args : Args) :
    ∃ S, getArchivesSummary d args = .ok S ∧ SummaryOf args d (archNamed u) (fun _ => True)
      (curOf fun w => archCell u Node.size w m)
      (curOf fun w => if diff then archCell u Node.size w m - archCell u Node.size w ref else archCell u Node.sizeDiff w m) S := by
  obtain ⟨E, hE, inv⟩ := summarize_inv (mtWF_summaryTypes hp.wf) _ (archRecs_ok hp.wf)
  refine ⟨remSummaryUnchanged E args, by unfold getArchivesSummary; simp [hE, bind, Except.bind], ?_⟩
  refine (summary_of inv (archRecs_ok hp.wf) args (named := archNamed u) ?_).congr (fun _ _ _ => archRecs_noClash hp.wf) ?_ ?_
  · intro r hr
    obtain ⟨i, hi, hr⟩ := List.mem_filterMap.mp hr
    obtain ⟨t, s, a, x, sx, ax, _, _, hax, rfl⟩ := ((C54_walk_mem d hp.wf i).2.2.1).mp hi
    simp only [archRec, Option.some.injEq] at hr
    subst hr
    obtain ⟨t', ht, s', hs, _, _, ha⟩ := mem_of_getArch hax
    exact hp.archNames t' ht s' hs _ ha
  · intro k c
    unfold recCell curOf
    rw [sumIf_archs]
    simp only [sumIf_singleton]
    exact hp.archSize fun t s x => decide (x = k) && Col.has c t s
  · intro k c
    unfold recCell curOf
    rw [sumIf_archs]
    simp only [sumIf_singleton]
    exact hp.archDiff fun t s x => decide (x = k) && Col.has c t s

theorem files_summary {u diff : Bool} {m ref d : MemMap} (hp : PrepCells u diff m ref d) (args : Args) (hu : args.unify = u)
    {apart : Prop} (hinj : apart → ObjKeysInj u d) :
    ∃ S, getObjectFilesSummary d args = .ok S ∧ SummaryOf args d (fileNamed u) (ExactIf apart)
      (curOf fun w => fileCell u Node.size w m)
      (curOf fun w => if diff then fileCell u Node.size w m - fileCell u Node.size w ref else fileCell u Node.sizeDiff w m) S := by
  subst hu
  obtain ⟨E, hE, inv⟩ := summarize_inv (mtWF_summaryTypes hp.wf) _ (objRecs_ok hp.wf args.unify)
  refine ⟨remSummaryUnchanged E args, by unfold getObjectFilesSummary; simp [hE, bind, Except.bind], ?_⟩
  refine (summary_of inv (objRecs_ok hp.wf args.unify) args (named := fileNamed args.unify) ?_).congr
    (fun c hc hs => objRecs_noClash hp.wf (hinj (hc hs))) ?_ ?_
  · intro r hr
    obtain ⟨i, hi, hr⟩ := List.mem_filterMap.mp hr
    obtain ⟨t, s, a, o, x, sx, ax, ox, _, _, hax, hox, rfl⟩ := ((C54_walk_mem d hp.wf i).2.2.2.1).mp hi
    simp only [objRec, Option.some.injEq] at hr
    subst hr
    obtain ⟨t', ht, s', hs, _, _, ha⟩ := mem_of_getArch hax
    obtain ⟨ax', hax', hox⟩ := Option.bind_eq_some_iff.mp hox
    rw [hax] at hax'; cases hax'
    unfold fileNamed
    cases hu : args.unify with
    | false =>
      simp only [Bool.false_eq_true, if_false]
      exact ⟨a, o, by simp [fileKey, join], rfl⟩
    | true =>
      simp only [if_true]
      rw [hp.fileNames hu t' ht s' hs _ ha _ (mem_of_dget hox)]
  · intro k c
    unfold recCell curOf
    rw [sumIf_objs]
    simp only [sumIf_singleton]
    exact hp.fileSize fun t s x => decide (x = k) && Col.has c t s
  · intro k c
    unfold recCell curOf
    rw [sumIf_objs]
    simp only [sumIf_singleton]
    exact hp.fileDiff fun t s x => decide (x = k) && Col.has c t s

/-- The cells of symbols of the requested archive in what is shown. -/
def curOfSym (det : Option Str) (f : (Str → Str → Str → Str → Bool) → Int) (k : Str) (c : Col) : Int :=
  f fun t s b x => decide (some b = det ∧ x = k) && c.has t s

theorem symbols_summary {u diff : Bool} {m ref d : MemMap} (hp : PrepCells u diff m ref d) (args : Args) (hu : args.unify = u)
    {apart : Prop} (hinj : apart → SymKeysInj u args.archiveDetails d) {S : Dict Str Entry} (h : getSymbolsSummary d args = .ok S) :
    SummaryOf args d (symNamed u) (ExactIf apart)
      (curOfSym args.archiveDetails fun w => symCell u Sym.size w m)
      (curOfSym args.archiveDetails fun w => if diff then symCell u Sym.size w m - symCell u Sym.size w ref else symCell u Sym.sizeDiff w m) S := by
  subst hu
  obtain ⟨E, hE, inv⟩ := summarize_inv (mtWF_summaryTypes hp.wf) _ (symRecs_ok hp.wf args.unify args.archiveDetails)
  have hS : S = remSummaryUnchanged E args := by
    unfold getSymbolsSummary at h
    simp only [hE, bind, Except.bind] at h
    split at h
    · cases h
    · cases h; rfl
  subst hS
  refine (summary_of inv (symRecs_ok hp.wf args.unify args.archiveDetails) args (named := symNamed args.unify) ?_).congr
    (fun c hc hs => symRecs_noClash hp.wf (hinj (hc hs))) ?_ ?_
  · intro r hr
    obtain ⟨i, hi, hr⟩ := List.mem_filterMap.mp hr
    obtain ⟨t, s, a, o, y, x, sx, ax, ox, yx, _, _, hax, hox, hyx, rfl⟩ :=
      ((C54_walk_mem d hp.wf i).2.2.2.2 _ fullAll).mp hi
    obtain ⟨_, _, _, _, e1, e2, e3, e4, hd, rfl⟩ := symRec_shape hr
    cases e1; cases e2; cases e3; cases e4
    obtain ⟨t', ht, s', hs, _, _, ha⟩ := mem_of_getArch hax
    obtain ⟨ox', hox', hyx⟩ := Option.bind_eq_some_iff.mp hyx
    obtain ⟨ax', hax', hox'⟩ := Option.bind_eq_some_iff.mp hox'
    rw [hax] at hax'; cases hax'
    unfold symNamed
    cases hu : args.unify with
    | false =>
      simp only [Bool.false_eq_true, if_false]
      exact ⟨a, o, by simp [reportedSym, join]⟩
    | true =>
      simp only [if_true]
      rw [hp.symNames t' ht s' hs _ ha _ (mem_of_dget hox') _ (mem_of_dget hyx)]
  · intro k c
    unfold recCell curOfSym
    rw [sumIf_syms]
    simp only [sumIf_singleton]
    rw [← hp.symSize]
    apply sumSyms_congr
    intro t ht s hs a ha o ho y hy
    by_cases h1 : some a.2.abb = args.archiveDetails <;> simp [h1]
  · intro k c
    unfold recCell curOfSym
    rw [sumIf_syms]
    simp only [sumIf_singleton]
    rw [← hp.symDiff]
    apply sumSyms_congr
    intro t ht s hs a ha o ho y hy
    by_cases h1 : some a.2.abb = args.archiveDetails <;> simp [h1]

/-! ### Distinct names -/

theorem files_apart {d : MemMap} (hn : AllNamed d) {ps : List MSec} (hN : FilesIn (HasFile ps) d) {u : Bool} (h : FilesApart u ps) :
    ObjKeysInj u (if u then unify d else d) := by
  intro t s A O A' O' ox ox' h1 h2 hk
  obtain ⟨a, o, f1, rfl, rfl, n1⟩ := shown_files u hn hN h1
  obtain ⟨a', o', f2, rfl, rfl, n2⟩ := shown_files u hn hN h2
  cases u with
  | true =>
    simp only [if_true] at hk
    rw [n1 rfl, n2 rfl] at hk
    exact ⟨h a o a' o' f1 f2 hk, hk⟩
  | false =>
    have e : fileKey false a o = fileKey false a' o' := by
      simp only [Bool.false_eq_true, if_false, join, archKey] at hk
      simpa [fileKey] using hk
    have ha : a = a' := h a o a' o' f1 f2 e
    subst ha
    refine ⟨rfl, ?_⟩
    simp only [fileKey, Bool.false_eq_true, if_false] at e
    exact List.append_cancel_left e

theorem syms_apart {d : MemMap} (hn : AllNamed d) {ps : List MSec} (hN : SymsIn (HasSym ps) d) {u : Bool} {det : Option Str}
    (h : SymsApart u det ps) (hab : ∀ t ∈ (if u then unify d else d).memoryTypes, ∀ s ∈ t.2.sections, ∀ a ∈ s.2.kids,
      a.2.abb = if u then a.1 else basename a.1) : SymKeysInj u det (if u then unify d else d) := by
  intro t s A O y A' O' y' ax ax' yx yx' g1 g2 d1 d2 h1 h2 hk
  obtain ⟨a, o, f1, rfl, rfl, n1⟩ := shown_syms u hn hN h1
  obtain ⟨a', o', f2, rfl, rfl, n2⟩ := shown_syms u hn hN h2
  obtain ⟨t', ht, s', hs, _, _, ha⟩ := mem_of_getArch g1
  obtain ⟨t'', ht', s'', hs', _, _, ha'⟩ := mem_of_getArch g2
  have e1 := hab t' ht s' hs _ ha
  have e2 := hab t'' ht' s'' hs' _ ha'
  simp only [] at e1 e2
  cases u with
  | true =>
    simp only [if_true] at hk e1 e2
    rw [n1 rfl, n2 rfl] at hk
    subst hk
    rw [e1] at d1
    rw [e2] at d2
    have := (h a o y a' o' y f1 f2 d1 d2 rfl).1 rfl
    refine ⟨?_, this, rfl⟩
    rw [← d2] at d1
    exact Option.some.inj d1
  | false =>
    simp only [Bool.false_eq_true, if_false] at hk e1 e2
    have e : reportedSym false a o y = reportedSym false a' o' y' := by
      simp only [join, archKey, Bool.false_eq_true, if_false] at hk
      simpa [reportedSym] using hk
    rw [e1] at d1
    rw [e2] at d2
    obtain ⟨rfl, rfl⟩ := (h a o y a' o' y' f1 f2 d1 d2 e).2 rfl
    refine ⟨rfl, rfl, ?_⟩
    simp only [reportedSym, Bool.false_eq_true, if_false] at e
    exact List.append_cancel_left e

/-! ### Runs -/

/-- What is shown in a run, before `unify`. -/
structure RunCells (R : RunIn) (args : Args) (m ref d : MemMap) (ps : List MSec) (rep : Report) : Prop where
  mid : MidCells (truthy args.diff) m ref d
  files : FilesIn (HasFile ps) d
  syms : SymsIn (HasSym ps) d
  shows : ∃ crt elf nb, showReport R crt elf { args with noAbbrev := nb, abbrev_ := abbreviates args } (if args.unify then unify d else d) =
    .ok rep

theorem run_cells_plain {R : RunIn} {input : Str} {args : Args} {rep : Report} {l : GetIn}
    (hload : load R.w input (useDwarfOf args) none = .ok l) (hnn : ∀ s ∈ l.sections, 0 ≤ s.size) (hdiff : truthy args.diff = false)
    (h : makeReport R input args = some (.ok rep)) :
    ∃ parts goes m ref d, CutInto R args l parts goes ∧ CellMap goes parts m ∧ RunCells R args m ref d parts rep := by
  obtain ⟨mf, elf, m, ref, d, h1, _, h3, h4, h5, h6⟩ := makeReport_ok h
  obtain ⟨nb, heff⟩ := eff_abbreviates args (.inr hdiff)
  rw [heff] at h3 h4 h5 h6
  obtain ⟨parts, goes, hcut, hm⟩ := cell_map hload hnn (fun f hf => by cases hf; exact h1) h3
  obtain ⟨d', rfl, hmid, hN⟩ := prepare_mid hm.wf hm.named hm.empty (by intro hx; rw [hdiff] at hx; cases hx) h5
  exact ⟨parts, goes, m, ref, d', hcut, hm, hmid, hN _ (keeps_files _) hm.hasFiles (by intro hx; rw [hdiff] at hx; cases hx),
    hN _ (keeps_syms _) hm.hasSyms (by intro hx; rw [hdiff] at hx; cases hx), _, _, nb, h6⟩

theorem hasFile_append {ps qs : List MSec} {a o : Str} : HasFile (ps ++ qs) a o ↔ HasFile ps a o ∨ HasFile qs a o := by
  simp only [HasFile, List.mem_append]
  constructor
  · rintro ⟨p, hp | hp, h⟩
    · exact .inl ⟨p, hp, h⟩
    · exact .inr ⟨p, hp, h⟩
  · rintro (⟨p, hp, h⟩ | ⟨p, hp, h⟩)
    · exact ⟨p, .inl hp, h⟩
    · exact ⟨p, .inr hp, h⟩

theorem hasSym_append {ps qs : List MSec} {a o y : Str} : HasSym (ps ++ qs) a o y ↔ HasSym ps a o y ∨ HasSym qs a o y := by
  simp only [HasSym, List.mem_append]
  constructor
  · rintro ⟨p, hp | hp, h⟩
    · exact .inl ⟨p, hp, h⟩
    · exact .inr ⟨p, hp, h⟩
  · rintro (⟨p, hp, h⟩ | ⟨p, hp, h⟩)
    · exact ⟨p, .inl hp, h⟩
    · exact ⟨p, .inr hp, h⟩

theorem run_cells_diff {R : RunIn} {input reference : Str} {args : Args} {rep : Report} {l l' : GetIn}
    (hload : load R.w input (useDwarfOf args) none = .ok l) (hnn : ∀ s ∈ l.sections, 0 ≤ s.size)
    (hload' : load R.w reference (useDwarfOf args) none = .ok l') (hnn' : ∀ s ∈ l'.sections, 0 ≤ s.size)
    (hdiff : args.diff = some reference) (hne : reference ≠ []) (hdep : args.archiveDependencies = false)
    (h : makeReport R input args = some (.ok rep)) :
    ∃ parts goes parts' goes' m ref d, CutInto R args l parts goes ∧ CellMap goes parts m ∧ CutInto R args l' parts' goes' ∧
      CellMap goes' parts' ref ∧ RunCells R args m ref d (parts ++ parts') rep := by
  obtain ⟨mf, elf, m, ref, d, h1, _, h3, h4, h5, h6⟩ := makeReport_ok h
  obtain ⟨nb, heff⟩ := eff_abbreviates args (.inl hdep)
  rw [heff] at h3 h4 h5 h6
  obtain ⟨parts, goes, hcut, hm⟩ := cell_map hload hnn (fun f hf => by cases hf; exact h1) h3
  have h3' : getMap R.n R.w reference (loadSymbolsOf args) (useDwarfOf args) none none = some (.ok ref) := by
    unfold referenceMap at h4
    cases reference with
    | nil => exact absurd rfl hne
    | cons x y =>
      simp only [hdiff] at h4
      exact h4
  obtain ⟨parts', goes', hcut', hm'⟩ := cell_map hload' hnn' (fun f hf => by cases hf) h3'
  obtain ⟨d', rfl, hmid, hN⟩ := prepare_mid hm.wf hm.named hm.empty (fun _ => ⟨hm'.wf, hm'.named, hm'.empty⟩) h5
  refine ⟨parts, goes, parts', goes', m, ref, d', hcut, hm, hcut', hm', hmid, ?_, ?_, _, _, nb, h6⟩
  · exact hN _ (keeps_files (HasFile (parts ++ parts'))) (fun t ht s hs a ha o ho => hasFile_append.mpr (.inl (hm.hasFiles t ht s hs a ha o ho)))
      fun _ t ht s hs a ha o ho => hasFile_append.mpr (.inr (hm'.hasFiles t ht s hs a ha o ho))
  · exact hN _ (keeps_syms (HasSym (parts ++ parts')))
      (fun t ht s hs a ha o ho y hy => hasSym_append.mpr (.inl (hm.hasSyms t ht s hs a ha o ho y hy)))
      fun _ t ht s hs a ha o ho y hy => hasSym_append.mpr (.inr (hm'.hasSyms t ht s hs a ha o ho y hy))

section
variable {R : RunIn} {args : Args} {m ref d : MemMap} {ps : List MSec} {rep : Report}

theorem archives_report (h : RunCells R args m ref d ps rep) (ha : args.archives = true) :
    ReportOf args (str "Archive File") (archNamed args.unify) (fun _ => True)
      (curOf fun w => archCell args.unify Node.size w m)
      (curOf fun w => if truthy args.diff then archCell args.unify Node.size w m - archCell args.unify Node.size w ref
        else archCell args.unify Node.sizeDiff w m) rep := by
  obtain ⟨crt, elf, nb, hs⟩ := h.shows
  have hp := midCells_unify h.mid args.unify
  obtain ⟨S, hS, hsum⟩ := archives_summary hp { args with noAbbrev := nb, abbrev_ := abbreviates args }
  refine report_of hp rfl (plain_lit (by decide)) hsum trivial ?_ ?_ hs
  · unfold selectTable
    rw [if_pos ha]
    unfold getArchivesTable
    rw [hS]
    rfl
  · unfold showJson
    rw [if_pos ha, hS]
    rfl

theorem files_report (h : RunCells R args m ref d ps rep) (ha : args.archives = false) (hdet : truthy args.archiveDetails = false)
    (hdep : args.archiveDependencies = false) (hf : args.files = true) :
    ReportOf args (str "Object File") (fileNamed args.unify) (ExactIf (FilesApart args.unify ps))
      (curOf fun w => fileCell args.unify Node.size w m)
      (curOf fun w => if truthy args.diff then fileCell args.unify Node.size w m - fileCell args.unify Node.size w ref
        else fileCell args.unify Node.sizeDiff w m) rep := by
  obtain ⟨crt, elf, nb, hs⟩ := h.shows
  have hp := midCells_unify h.mid args.unify
  obtain ⟨S, hS, hsum⟩ := files_summary hp { args with noAbbrev := nb, abbrev_ := abbreviates args } rfl
    (files_apart h.mid.named h.files (u := args.unify))
  refine report_of hp rfl (plain_lit (by decide)) hsum (by rintro ⟨_, _, hx⟩; cases hx) ?_ ?_ hs
  · unfold selectTable
    rw [if_neg (show ¬args.archives = true by simp [ha]), if_neg (show ¬truthy args.archiveDetails = true by simp [hdet]),
      if_neg (show ¬args.archiveDependencies = true by simp [hdep]), if_pos hf]
    unfold getObjectFilesTable
    rw [hS]
    rfl
  · unfold showJson
    rw [if_neg (show ¬args.archives = true by simp [ha]), if_neg (show ¬truthy args.archiveDetails = true by simp [hdet]),
      if_neg (show ¬args.archiveDependencies = true by simp [hdep]), if_pos hf, hS]
    rfl

theorem symbols_report (h : RunCells R args m ref d ps rep) (ha : args.archives = false) (hdet : truthy args.archiveDetails = true) :
    ReportOf args (str "Symbol") (symNamed args.unify) (ExactIf (SymsApart args.unify args.archiveDetails ps))
      (curOfSym args.archiveDetails fun w => symCell args.unify Sym.size w m)
      (curOfSym args.archiveDetails fun w => if truthy args.diff then symCell args.unify Sym.size w m - symCell args.unify Sym.size w ref
        else symCell args.unify Sym.sizeDiff w m) rep := by
  obtain ⟨crt, elf, nb, hs⟩ := h.shows
  have hp := midCells_unify h.mid args.unify
  cases hS : getSymbolsSummary (if args.unify then unify d else d) { args with noAbbrev := nb, abbrev_ := abbreviates args } with
  | error x =>
    have hsel : ∀ crt elf, selectTable R crt elf { args with noAbbrev := nb, abbrev_ := abbreviates args } (if args.unify then unify d else d) = .error x := by
      intro crt elf
      unfold selectTable
      rw [if_neg (show ¬args.archives = true by simp [ha]), if_pos hdet]
      unfold getSymbolsTable
      rw [hS]
      rfl
    have hjson : ∀ crt elf, showJson R crt elf { args with noAbbrev := nb, abbrev_ := abbreviates args } (if args.unify then unify d else d) = .error x := by
      intro crt elf
      unfold showJson
      rw [if_neg (show ¬args.archives = true by simp [ha]), if_pos hdet, hS]
      rfl
    unfold showReport at hs
    rw [hsel, hjson] at hs
    refine ⟨?_, ?_, ?_⟩
    · intro hf
      rw [if_pos hf] at hs
      cases hs
    · intro hf
      simp only [hf] at hs
      rw [if_neg (by decide), if_neg (by decide), if_neg (by decide), if_pos trivial] at hs
      cases hs
    · intro hf
      simp only [hf] at hs
      rw [if_neg (by decide), if_pos trivial] at hs
      cases hs
  | ok S =>
    have hsum := symbols_summary hp { args with noAbbrev := nb, abbrev_ := abbreviates args } rfl
      (fun hx => syms_apart h.mid.named h.syms (u := args.unify) (det := args.archiveDetails) hx hp.archNames) hS
    refine report_of hp rfl (plain_lit (by decide)) hsum (by rintro ⟨_, _, hx⟩; cases hx) ?_ ?_ hs
    · unfold selectTable
      rw [if_neg (show ¬args.archives = true by simp [ha]), if_pos hdet]
      unfold getSymbolsTable
      rw [hS]
      rfl
    · unfold showJson
      rw [if_neg (show ¬args.archives = true by simp [ha]), if_pos hdet, hS]
      rfl

end

theorem ReportOf.congr {args : Args} {title : Str} {named : Str → Str → Prop} {exact : Col → Prop} {cur dif cur' dif' : Str → Col → Int}
    {rep : Report} (h : ReportOf args title named exact cur dif rep) (hc : ∀ k c, cur k c = cur' k c) (hd : ∀ k c, dif k c = dif' k c) :
    ReportOf args title named exact cur' dif' rep := by
  rw [show cur' = cur from funext fun k => funext fun c => (hc k c).symm,
    show dif' = dif from funext fun k => funext fun c => (hd k c).symm]
  exact h

/-! ### The theorems -/

/-- A project that can be read. -/
structure Readable (R : RunIn) (args : Args) (fn : Str) (l : GetIn) : Prop where
  loads : load R.w fn (useDwarfOf args) none = .ok l
  sizes : ∀ s ∈ l.sections, 0 ≤ s.size

/-- What the parts show for the archives reported as `k`, in each column. -/
def archivesShown (args : Args) (goes : MSec → Option (Str × Str)) (parts : List MSec) (k : Str) (c : Col) : Int :=
  filesIn args.unify goes parts (selArch args k) c

/-- What the parts show for the files reported as `k`, in each column. -/
def filesShown (args : Args) (goes : MSec → Option (Str × Str)) (parts : List MSec) (k : Str) (c : Col) : Int :=
  filesIn args.unify goes parts (selFile args k) c

/-- What the parts show for the symbols reported as `k`, in each column. -/
def symsShown (args : Args) (goes : MSec → Option (Str × Str)) (parts : List MSec) (k : Str) (c : Col) : Int :=
  symbolsIn args.unify goes parts (selSym args k) c

/-- **C81** the report of archives. -/
theorem C81_archives (R : RunIn) (input : Str) (args : Args) (rep : Report) {l : GetIn} (hr : Readable R args input l)
    (ha : args.archives = true) (hdiff : truthy args.diff = false) (h : makeReport R input args = some (.ok rep)) :
    ∃ parts goes, CutInto R args l parts goes ∧
      ReportOf args (str "Archive File") (archNamed args.unify) (fun _ => True) (archivesShown args goes parts) (fun _ _ => 0) rep := by
  obtain ⟨parts, goes, m, ref, d, hcut, hm, hrun⟩ := run_cells_plain hr.loads hr.sizes hdiff h
  refine ⟨parts, goes, hcut, (archives_report hrun ha).congr (fun k c => hm.archs args.unify k c) fun k c => ?_⟩
  unfold curOf
  rw [show truthy args.diff = false from hdiff]
  simp only [Bool.false_eq_true, if_false]
  exact hm.noArch _ _

/-- **C81** the report of archives with `--diff`. -/
theorem C81_archives_diff (R : RunIn) (input reference : Str) (args : Args) (rep : Report) {l l' : GetIn} (hr : Readable R args input l)
    (hr' : Readable R args reference l') (ha : args.archives = true) (hdiff : args.diff = some reference) (hne : reference ≠ [])
    (hdep : args.archiveDependencies = false) (h : makeReport R input args = some (.ok rep)) :
    ∃ parts goes parts' goes', CutInto R args l parts goes ∧ CutInto R args l' parts' goes' ∧
      ReportOf args (str "Archive File") (archNamed args.unify) (fun _ => True) (archivesShown args goes parts)
        (fun k c => archivesShown args goes parts k c - archivesShown args goes' parts' k c) rep := by
  obtain ⟨parts, goes, parts', goes', m, ref, d, hcut, hm, hcut', hm', hrun⟩ :=
    run_cells_diff hr.loads hr.sizes hr'.loads hr'.sizes hdiff hne hdep h
  refine ⟨parts, goes, parts', goes', hcut, hcut', (archives_report hrun ha).congr (fun k c => hm.archs args.unify k c) fun k c => ?_⟩
  unfold curOf
  rw [show truthy args.diff = true by rw [hdiff]; exact truthy_some hne]
  simp only [if_true]
  rw [hm.archs, hm'.archs]
  rfl

/-- **C81** the report of files. -/
theorem C81_files_partial (R : RunIn) (input : Str) (args : Args) (rep : Report) {l : GetIn} (hr : Readable R args input l)
    (ha : args.archives = false) (hdet : truthy args.archiveDetails = false) (hdep : args.archiveDependencies = false)
    (hf : args.files = true) (hdiff : truthy args.diff = false) (h : makeReport R input args = some (.ok rep)) :
    ∃ parts goes, CutInto R args l parts goes ∧
      ReportOf args (str "Object File") (fileNamed args.unify) (ExactIf (FilesApart args.unify parts)) (filesShown args goes parts)
        (fun _ _ => 0) rep := by
  obtain ⟨parts, goes, m, ref, d, hcut, hm, hrun⟩ := run_cells_plain hr.loads hr.sizes hdiff h
  refine ⟨parts, goes, hcut, (files_report hrun ha hdet hdep hf).congr (fun k c => hm.files args.unify k c) fun k c => ?_⟩
  unfold curOf
  rw [show truthy args.diff = false from hdiff]
  simp only [Bool.false_eq_true, if_false]
  exact hm.noFile _ _

/-- **C81** the report of files with `--diff`. -/
theorem C81_files_diff_partial (R : RunIn) (input reference : Str) (args : Args) (rep : Report) {l l' : GetIn} (hr : Readable R args input l)
    (hr' : Readable R args reference l') (ha : args.archives = false) (hdet : truthy args.archiveDetails = false)
    (hdep : args.archiveDependencies = false) (hf : args.files = true) (hdiff : args.diff = some reference) (hne : reference ≠ [])
    (h : makeReport R input args = some (.ok rep)) :
    ∃ parts goes parts' goes', CutInto R args l parts goes ∧ CutInto R args l' parts' goes' ∧
      ReportOf args (str "Object File") (fileNamed args.unify) (ExactIf (FilesApart args.unify (parts ++ parts')))
        (filesShown args goes parts) (fun k c => filesShown args goes parts k c - filesShown args goes' parts' k c) rep := by
  obtain ⟨parts, goes, parts', goes', m, ref, d, hcut, hm, hcut', hm', hrun⟩ :=
    run_cells_diff hr.loads hr.sizes hr'.loads hr'.sizes hdiff hne hdep h
  refine ⟨parts, goes, parts', goes', hcut, hcut',
    (files_report hrun ha hdet hdep hf).congr (fun k c => hm.files args.unify k c) fun k c => ?_⟩
  unfold curOf
  rw [show truthy args.diff = true by rw [hdiff]; exact truthy_some hne]
  simp only [if_true]
  rw [hm.files, hm'.files]
  rfl

/-- **C81** the report of the symbols of an archive. -/
theorem C81_symbols_partial (R : RunIn) (input : Str) (args : Args) (rep : Report) {l : GetIn} (hr : Readable R args input l)
    (ha : args.archives = false) (hdet : truthy args.archiveDetails = true) (hdiff : truthy args.diff = false)
    (h : makeReport R input args = some (.ok rep)) :
    ∃ parts goes, CutInto R args l parts goes ∧
      ReportOf args (str "Symbol") (symNamed args.unify) (ExactIf (SymsApart args.unify args.archiveDetails parts))
        (symsShown args goes parts) (fun _ _ => 0) rep := by
  obtain ⟨parts, goes, m, ref, d, hcut, hm, hrun⟩ := run_cells_plain hr.loads hr.sizes hdiff h
  refine ⟨parts, goes, hcut, (symbols_report hrun ha hdet).congr (fun k c => hm.syms args.unify args.archiveDetails k c) fun k c => ?_⟩
  unfold curOfSym
  rw [show truthy args.diff = false from hdiff]
  simp only [Bool.false_eq_true, if_false]
  exact hm.noSym _ _

/-- **C81** the report of the symbols of an archive with `--diff`. -/
theorem C81_symbols_diff_partial (R : RunIn) (input reference : Str) (args : Args) (rep : Report) {l l' : GetIn} (hr : Readable R args input l)
    (hr' : Readable R args reference l') (ha : args.archives = false) (hdet : truthy args.archiveDetails = true)
    (hdep : args.archiveDependencies = false) (hdiff : args.diff = some reference) (hne : reference ≠ [])
    (h : makeReport R input args = some (.ok rep)) :
    ∃ parts goes parts' goes', CutInto R args l parts goes ∧ CutInto R args l' parts' goes' ∧
      ReportOf args (str "Symbol") (symNamed args.unify) (ExactIf (SymsApart args.unify args.archiveDetails (parts ++ parts')))
        (symsShown args goes parts) (fun k c => symsShown args goes parts k c - symsShown args goes' parts' k c) rep := by
  obtain ⟨parts, goes, parts', goes', m, ref, d, hcut, hm, hcut', hm', hrun⟩ :=
    run_cells_diff hr.loads hr.sizes hr'.loads hr'.sizes hdiff hne hdep h
  refine ⟨parts, goes, parts', goes', hcut, hcut',
    (symbols_report hrun ha hdet).congr (fun k c => hm.syms args.unify args.archiveDetails k c) fun k c => ?_⟩
  unfold curOfSym
  rw [show truthy args.diff = true by rw [hdiff]; exact truthy_some hne]
  simp only [if_true]
  rw [hm.syms, hm'.syms]
  rfl

/-- **C81** what the total column leaves out: the inputs of the output sections that count, without the parts that are
lost. -/
theorem C81_accounted (R : RunIn) (args : Args) {l : GetIn} {parts : List MSec} {goes : MSec → Option (Str × Str)}
    (h : CutInto R args l parts goes) (P : Str → Str → Bool) :
    filesIn args.unify goes parts P .total + partsFiles P (lostParts goes parts) =
      sumBy (inputSum (fun a o _ => P a o) ISec.size) (keptOf l) := by
  obtain ⟨regs, hp, _⟩ := h
  rw [← partsFiles_total hp P]
  unfold partsFiles
  rw [← shown_lost_sum (goes := goes) _ parts]
  congr 1
  unfold filesIn partsFiles partsIn
  rw [List.filter_eq_self.mpr]
  intro p hp
  cases hx : goes p with
  | none => exact absurd hx (mem_shown hp).2
  | some x => rfl

/-- **C81** the total column is the sum of the columns of memory types. -/
theorem C81_types (u : Bool) (goes : MSec → Option (Str × Str)) (parts : List MSec) (P : Str → Str → Bool) (ts : List Str)
    (hts : ts.Nodup) (hall : ∀ p ∈ parts, ∀ x, goes p = some x → x.1 ∈ ts) :
    sumBy (fun t => filesIn u goes parts P (.type t)) ts = filesIn u goes parts P .total := by
  simp only [partsFiles_in]
  rw [sumBy_comm]
  apply sumBy_congr
  intro p hp
  cases hx : goes p with
  | none => exact absurd hx (mem_shown hp).2
  | some x =>
    simp only [Col.has, Bool.and_true]
    rw [← sumBy_pick hts (fun _ => sumBy (fun a : Str × Arch => sumBy (fun o : Str × Obj => if P a.1 o.1 = true then o.2.size else 0) a.2.kids) p.archives)
      (hall p (mem_shown hp).1 x hx)]
    apply sumBy_congr
    intro t _
    by_cases ht : x.1 = t
    · simp [ht]
    · simp only [ht, decide_false, Bool.and_false, Bool.false_eq_true, if_false]
      exact sumBy_zero fun _ _ => sumBy_zero fun _ _ => rfl

/-! ### Examples -/

/-- A project in which two archives have an object file of one name. -/
def exSameFiles : List ListedOut :=
  [⟨str ".iram0.text", 0x100, 0x20, [⟨str ".text.a", 0x100, 0x18, str "lib/liba.a", str "a.o", []⟩,
      ⟨str ".text.b", 0x118, 8, str "lib/libb.a", str "a.o", []⟩]⟩]

def exSameWorld : World :=
  { exWorld with lines := fun fn => if fn = str "/b/x.map" then .ok (printMap exCsvRegs (str "espx") exSameFiles exCsvCrt) else .error .osError }

def exTable : Option (Except Err Report) → Option (List (List Str))
  | some (.ok (.table t)) => some (t.headers :: t.rows)
  | _ => none

/-- **C81** fails in the section columns if two files are reported under one name: the second one is shown only, 8 of 32
bytes. -/
theorem C81_files_section_lost :
    exTable (makeReport (exRun exSameWorld) (str "/b/x.map") { format := str "text", files := true, unify := true }) =
      some [[str "Object File", str "Total Size", str "IRAM", str ".text"], [str "a.o", str "32", str "32", str "8"]] ∧
    sumBy (fun i : Listed => if i.object = str "a.o" then i.size else 0) (exSameFiles.flatMap (·.inputs)) = 32 := by
  decide +kernel

/-- Without `--unify` nothing is lost there. -/
example :
    exTable (makeReport (exRun exSameWorld) (str "/b/x.map") { format := str "text", files := true }) =
      some [[str "Object File", str "Total Size", str "IRAM", str ".text"], [str "a.o", str "24", str "24", str "24"], [str "a.o", str "8", str "8", str "8"]] := by
  decide +kernel

theorem readable_of {R : RunIn} {args : Args} {fn : Str}
    (h : (load R.w fn (useDwarfOf args) none).toOption.any (fun l => l.sections.all fun s => decide (0 ≤ s.size)) = true) :
    ∃ l, Readable R args fn l := by
  cases hl : load R.w fn (useDwarfOf args) none with
  | error e => rw [hl] at h; simp [Except.toOption] at h
  | ok l =>
    rw [hl] at h
    simp only [Except.toOption, Option.any_some, List.all_eq_true, decide_eq_true_eq] at h
    exact ⟨l, hl, h⟩

/-- The hypotheses of the theorems about archives can be fulfilled, and the report is not empty. -/
example : (∃ l, Readable (exRun exTwoWorld) { format := str "text", archives := true, diff := some (str "/o/x.map"), unify := true } (str "/b/x.map") l) ∧
    (∃ l, Readable (exRun exTwoWorld) { format := str "text", archives := true, diff := some (str "/o/x.map"), unify := true } (str "/o/x.map") l) ∧
    exTable (makeReport (exRun exTwoWorld) (str "/b/x.map")
      { format := str "text", archives := true, diff := some (str "/o/x.map"), unify := true, showUnchanged := true }) =
      some [[str "Archive File", str "Total Size", str "IRAM", str ".data", str ".text"],
        [str "liba.a", str "28[red]    +12[/red]", str "28[red]    +12[/red]", str "4[red]     +4[/red]", str "24[red]     +8[/red]"],
        [str "libb.a", str "8      0", str "8      0", str "0      0", str "8      0"]] := by
  refine ⟨readable_of (by decide +kernel), readable_of (by decide +kernel), by decide +kernel⟩

/-- The same for symbols. -/
example : (∃ l, Readable exSymRun { exSymArgs true with format := str "text" } (str "/b/x.map") l) ∧
    exTable (makeReport exSymRun (str "/b/x.map") { exSymArgs true with format := str "text" }) =
      some [[str "Symbol", str "Total Size", str "IRAM", str ".text"], [str "f()", str "16", str "16", str "16"],
        [str "g()", str "4", str "4", str "4"]] :=
  ⟨readable_of (by decide +kernel), by decide +kernel⟩

end EspSize
