import Verif.Spec.Options
import Verif.Props.TableRun
/-! # C83: options that only change the presentation -/
namespace EspSize

/-! ### Stable sorting and selection of rows -/

section
variable {α : Type}

theorem insertBy_select {b : α → α → Bool} (htr : ∀ x y z, b x y = true → b y z = true → b x z = true) (p : α → Bool) (x : α) (l : List α)
    (h : l.Pairwise fun x y => b x y = true) :
    (insertBy b x l).filter p = if p x then insertBy b x (l.filter p) else l.filter p := by
  induction l with
  | nil => cases hx : p x <;> simp [insertBy, hx]
  | cons y t ih =>
    have hy := List.pairwise_cons.mp h
    simp only [insertBy]
    by_cases hxy : b x y = true
    · rw [if_pos hxy]
      cases hx : p x with
      | false => rw [List.filter_cons_of_neg (by simp [hx])]; simp
      | true =>
        rw [List.filter_cons_of_pos hx, if_pos rfl]
        cases hf : (y :: t).filter p with
        | nil => rfl
        | cons z r =>
          have hz : z ∈ y :: t := (List.mem_filter.mp (by rw [hf]; simp : z ∈ (y :: t).filter p)).1
          have : b x z = true := by
            rcases List.mem_cons.mp hz with rfl | hz
            · exact hxy
            · exact htr _ _ _ hxy (hy.1 z hz)
          simp [insertBy, this]
    · rw [if_neg hxy]
      cases hpy : p y with
      | false => rw [List.filter_cons_of_neg (by simp [hpy]), List.filter_cons_of_neg (by simp [hpy]), ih hy.2]
      | true =>
        rw [List.filter_cons_of_pos hpy, List.filter_cons_of_pos hpy, ih hy.2]
        cases hx : p x with
        | false => simp
        | true => simp [insertBy, hxy]

theorem isortBy_select {b : α → α → Bool} (htot : ∀ x y, b x y = true ∨ b y x = true)
    (htr : ∀ x y z, b x y = true → b y z = true → b x z = true) (p : α → Bool) (l : List α) :
    (isortBy b l).filter p = isortBy b (l.filter p) := by
  induction l with
  | nil => rfl
  | cons x t ih =>
    simp only [isortBy]
    rw [insertBy_select htr p x _ (isortBy_sorted htot htr t), ih]
    cases hx : p x with
    | false => rw [List.filter_cons_of_neg (by simp [hx])]; simp
    | true => rw [List.filter_cons_of_pos hx]; rfl

theorem sortedBy_select (key : α → Int) (rev : Bool) (p : α → Bool) (l : List α) :
    (sortedBy key rev l).filter p = sortedBy key rev (l.filter p) := by
  unfold sortedBy
  apply isortBy_select
  · intro x y; cases rev <;> simp <;> omega
  · intro x y z; cases rev <;> simp <;> omega

end

/-! ### Tables -/

/-- The row of an entry. -/
def shownRow (args : Args) (p : Str × Entry) : List Str :=
  (if args.abbrev_ then p.2.abb else p.1) :: (entryCols args p.2).map (·.info)

/-- The table in explicit form. -/
theorem detailTable_rows {m : MemMap} (hm : m.WF) (title : Str) (F : Dict Str Entry) (hF : F ≠ [])
    (hs : ∀ p ∈ F, Skeleton m p.2) (args : Args) {i : Nat} {c : Col}
    (hi : Selects title ((reportCols m).map (colTitle m args.abbrev_)) args.sort i) (hc : (reportCols m)[i]? = some c) :
    detailTable title F args = .ok {
      headers := title :: (reportCols m).map (colTitle m args.abbrev_)
      rows := (sortedBy (fun p => cellKey args c p.2) args.sortReverse F).map (shownRow args) } := by
  obtain ⟨p0, F0, hF0⟩ := List.exists_cons_of_ne_nil hF
  have hlen : ∀ p ∈ F, (entryCols args p.2).length = ((reportCols m).map (colTitle m args.abbrev_)).length := by
    intro p hp
    rw [← (skeleton_cols hm (hs p hp) args).length_eq, List.length_map]
  have hdef : detailTable title F args = (do
      let rows ← getTableSorted F (title :: (reportCols m).map (colTitle m args.abbrev_)) args
      .ok (rows.foldl Table.addRow { headers := title :: (reportCols m).map (colTitle m args.abbrev_), rows := [] })) := by
    unfold detailTable
    rw [← skeleton_headers hm (hs p0 (by simp [hF0])) args, hF0]
    rfl
  obtain ⟨n, hn, _, hidx⟩ := selects_index hi
  have hrow : ∀ p ∈ F, rowKey args n (entryRow args p) = .ok (cellKey args c p.2) := by
    intro p hp
    obtain ⟨tc, htc, z, d, hcell, rfl⟩ := (skeleton_cols hm (hs p hp) args).get hc
    unfold rowKey entryRow
    simp only [hidx _ _ (hlen p hp) htc, bind, Except.bind, cellKey, hcell, tcol]
  rw [hdef]
  unfold getTableSorted
  rw [hn]
  have hmapM : (F.map (entryRow args)).mapM (fun r => (rowKey args n r).map fun k => (k, r)) =
      .ok (F.map fun p => (cellKey args c p.2, entryRow args p)) := by
    rw [List.mapM_map]
    exact mapM_ok fun p hp => by simp only [Function.comp]; rw [hrow p hp]; rfl
  have hsort : sortRows args n (F.map (entryRow args)) =
      .ok ((sortedBy (fun p => cellKey args c p.2) args.sortReverse F).map (entryRow args)) := by
    unfold sortRows
    rw [hmapM]
    simp only [sortedBy_map, List.map_map]
    rfl
  simp only [bind, Except.bind, hsort, List.map_map]
  rw [foldl_addRow (n := (reportCols m).length + 1)]
  · simp only [List.nil_append]
    rfl
  · intro r hr
    obtain ⟨p, hp, rfl⟩ := List.mem_map.mp hr
    have hp' : p ∈ F := (sortedBy_stable _ _ F).perm.mem_iff.mp hp
    have := hlen p hp'
    simp only [List.length_map] at this
    simp [entryRow, this]
  · simp
  · simp

/-- A table with rows, inverted. -/
theorem detailTable_inv {m : MemMap} (hm : m.WF) {title : Str} {F : Dict Str Entry} (hF : F ≠ [])
    (hs : ∀ p ∈ F, Skeleton m p.2) {args : Args} {t : Table} (h : detailTable title F args = .ok t) :
    ∃ i c, Selects title ((reportCols m).map (colTitle m args.abbrev_)) args.sort i ∧ (reportCols m)[i]? = some c ∧
      t = { headers := title :: (reportCols m).map (colTitle m args.abbrev_)
            rows := (sortedBy (fun p => cellKey args c p.2) args.sortReverse F).map (shownRow args) } := by
  by_cases hx : ∃ i, Selects title ((reportCols m).map (colTitle m args.abbrev_)) args.sort i
  · obtain ⟨i, hi⟩ := hx
    have hilen : i < (reportCols m).length := by simpa using hi.1
    refine ⟨i, (reportCols m)[i], hi, List.getElem?_eq_getElem hilen, ?_⟩
    rw [detailTable_rows hm title F hF hs args hi (List.getElem?_eq_getElem hilen)] at h
    exact (Except.ok.inj h).symm
  · rw [(detailTable_spec hm title F hF hs args).2 hx] at h
    cases h

theorem detailTable_empty {title : Str} {args : Args} {t : Table} (h : detailTable title [] args = .ok t) :
    t = { headers := [title, str "Total Size"], rows := [] } := by
  rcases detailTable_nil title args with h' | h' <;> rw [h'] at h <;> cases h
  rfl

/-! ### Runs up to the presentation -/

/-- What a run has before the report is made. -/
def prepared (R : RunIn) (input : Str) (args : Args) : Option (Except Err (Option Crt × Option (List ElfSym) × MemMap)) :=
  match loadMap R.w input with
  | .error x => some (.error x)
  | .ok mf =>
    match getElf R.w input none with
    | .error x => some (.error x)
    | .ok elf =>
      match getMap R.n R.w input (loadSymbolsOf args) (useDwarfOf args) (some mf) elf with
      | none => none
      | some (.error x) => some (.error x)
      | some (.ok m) =>
        match referenceMap args m fun fn => getMap R.n R.w fn (loadSymbolsOf args) (useDwarfOf args) none none with
        | none => none
        | some (.error x) => some (.error x)
        | some (.ok ref) =>
          match prepare args m ref with
          | .error x => some (.error x)
          | .ok d => some (.ok (mf.crt, elf.map (·.syms), d))

/-- The report of what a run has. -/
def presented (R : RunIn) (args : Args) : Option (Except Err (Option Crt × Option (List ElfSym) × MemMap)) → Option (Except Err Report)
  | none => none
  | some (.error x) => some (.error x)
  | some (.ok (crt, elf, d)) => some (showReport R crt elf args d)

theorem makeReport_presented (R : RunIn) (input : Str) (args : Args) :
    makeReport R input args = presented R (effectiveArgs args) (prepared R input (effectiveArgs args)) := by
  unfold makeReport prepared
  simp only []
  cases loadMap R.w input with
  | error x => rfl
  | ok mf =>
    simp only []
    cases getElf R.w input none with
    | error x => rfl
    | ok elf =>
      simp only []
      cases getMap R.n R.w input (loadSymbolsOf (effectiveArgs args)) (useDwarfOf (effectiveArgs args)) (some mf) elf with
      | none => rfl
      | some r =>
        cases r with
        | error x => rfl
        | ok m =>
          simp only []
          cases referenceMap (effectiveArgs args) m fun fn => getMap R.n R.w fn (loadSymbolsOf (effectiveArgs args)) (useDwarfOf (effectiveArgs args)) none none with
          | none => rfl
          | some r =>
            cases r with
            | error x => rfl
            | ok ref =>
              simp only []
              cases prepare (effectiveArgs args) m ref with
              | error x => rfl
              | ok d => rfl

/-- Options of which the run depends before the report is made. -/
structure SamePrep (a b : Args) : Prop where
  symbols : loadSymbolsOf a = loadSymbolsOf b
  dwarf : useDwarfOf a = useDwarfOf b
  diff : a.diff = b.diff
  unify : a.unify = b.unify
  unused : a.showUnused = b.showUnused
  flash : a.useFlashSize = b.useFlashSize

theorem prepared_same {R : RunIn} {input : Str} {a b : Args} (h : SamePrep a b) : prepared R input a = prepared R input b := by
  have hp : ∀ m ref, prepare a m ref = prepare b m ref := by
    intro m ref
    unfold prepare
    rw [h.diff, h.unify, h.unused, h.flash]
  have hr : ∀ m g, referenceMap a m g = referenceMap b m g := by
    intro m g
    unfold referenceMap
    rw [h.diff]
  unfold prepared
  simp only [h.symbols, h.dwarf, hp, hr]

theorem prepared_wf {R : RunIn} {input : Str} {args : Args} {crt : Option Crt} {elf : Option (List ElfSym)} {d : MemMap}
    (h : prepared R input args = some (.ok (crt, elf, d))) : d.WF := by
  unfold prepared at h
  split at h
  · cases h
  split at h
  · cases h
  split at h
  · cases h
  · cases h
  rename_i m hm
  split at h
  · cases h
  · cases h
  rename_i ref href
  split at h
  · cases h
  rename_i d' hd
  cases h
  have wm : m.WF := by
    obtain ⟨_, _, _, _, _, _, hw, _⟩ := C58_accounted _ _ _ _ _ _ _ _ hm
    exact hw
  have wr : ref.WF := by
    unfold referenceMap at href
    split at href
    · obtain ⟨_, _, _, _, _, _, hw, _⟩ := C58_accounted _ _ _ _ _ _ _ _ href
      exact hw
    · cases href; exact wm
  have w1 : ∀ {m : MemMap} (b : Bool), m.WF → (if b = true then m else removeUnused m).WF := by
    intro m b h; split
    · exact h
    · exact wf_removeUnused h
  have w2 : ∀ {m : MemMap} (b : Bool), m.WF → (if b = true then m else ignoreFlashSize m).WF := by
    intro m b h; split
    · exact h
    · exact wf_ignoreFlash h
  have w3 : ∀ {m : MemMap} (b : Bool), m.WF → (if b = true then unify m else m).WF := by
    intro m b h; split
    · exact wf_unify h
    · exact h
  unfold prepare at hd
  cases ht : truthy args.diff with
  | false =>
    simp only [ht, Bool.false_eq_true, if_false, bind, Except.bind] at hd
    cases hd
    exact w3 _ (w2 _ (w1 _ wm))
  | true =>
    simp only [ht, if_true, bind, Except.bind] at hd
    have wc := w2 args.useFlashSize (w2 args.useFlashSize (w1 args.showUnused wm))
    have wr' := w1 args.showUnused wr
    split at hd
    · cases hd
    · rename_i x hx
      cases hd
      rw [diff_eq wc wr'] at hx
      cases hx
      exact w3 _ (wf_outMap wc wr')

/-! ### Listings -/

/-- The summary of a listing. -/
def summaryFor (d : MemMap) (args : Args) : Except Err (Dict Str Entry) :=
  if args.archives then getArchivesSummary d args
  else if truthy args.archiveDetails then getSymbolsSummary d args
  else getObjectFilesSummary d args

def titleFor (args : Args) : Str :=
  if args.archives then str "Archive File" else if truthy args.archiveDetails then str "Symbol" else str "Object File"

theorem selectTable_listing {R : RunIn} {crt : Option Crt} {elf : Option (List ElfSym)} {args : Args} {d : MemMap} (h : Listing args) :
    selectTable R crt elf args d =
      match summaryFor d args with
      | .error x => .error x
      | .ok S => detailTable (titleFor args) (getSummaryFiltered Entry.abb S args) args := by
  unfold selectTable summaryFor titleFor
  by_cases ha : args.archives = true
  · rw [if_pos ha, if_pos ha, if_pos ha]
    unfold getArchivesTable
    cases getArchivesSummary d args <;> rfl
  · rw [if_neg ha, if_neg ha, if_neg ha]
    by_cases hd : truthy args.archiveDetails = true
    · rw [if_pos hd, if_pos hd, if_pos hd]
      unfold getSymbolsTable
      cases getSymbolsSummary d args <;> rfl
    · rw [if_neg hd, if_neg hd, if_neg hd]
      rcases h with h | h | ⟨h1, h2⟩
      · exact absurd h ha
      · exact absurd h hd
      · rw [if_neg (by simp [h1]), if_pos h2]
        unfold getObjectFilesTable
        cases getObjectFilesSummary d args <;> rfl

theorem summaryFor_skeleton {d : MemMap} (hd : d.WF) {args : Args} {S : Dict Str Entry} (h : summaryFor d args = .ok S) :
    ∀ p ∈ S, Skeleton d p.2 := by
  have key : ∀ {recs : List Rec} {E : Dict Str Entry}, SumInv (summaryTypes d) recs E →
      ∀ p ∈ remSummaryUnchanged E args, Skeleton d p.2 := by
    intro recs E inv p hp
    refine sumInv_skeleton inv p ?_
    unfold remSummaryUnchanged at hp
    split at hp
    · exact hp
    · exact (List.mem_filter.mp hp).1
  unfold summaryFor at h
  split at h
  · obtain ⟨E, hE, inv⟩ := summarize_inv (mtWF_summaryTypes hd) _ (archRecs_ok hd)
    unfold getArchivesSummary at h
    simp only [hE, bind, Except.bind] at h
    cases h
    exact key inv
  split at h
  · obtain ⟨E, hE, inv⟩ := summarize_inv (mtWF_summaryTypes hd) _ (symRecs_ok hd args.unify args.archiveDetails)
    unfold getSymbolsSummary at h
    simp only [hE, bind, Except.bind] at h
    split at h
    · cases h
    · cases h
      exact key inv
  · obtain ⟨E, hE, inv⟩ := summarize_inv (mtWF_summaryTypes hd) _ (objRecs_ok hd args.unify)
    unfold getObjectFilesSummary at h
    simp only [hE, bind, Except.bind] at h
    cases h
    exact key inv

theorem eff_eq (args : Args) : effectiveArgs args =
    { args with
      noAbbrev := args.noAbbrev && !args.unify
      diff := if args.archiveDependencies && truthy args.diff then none else args.diff
      abbrev_ := !(args.noAbbrev && !args.unify) } := by
  obtain ⟨format, archives, deps, depS, depR, details, files, dif, noAbbrev, abb, uni, unused, unchanged, flash, dwarf, out, srt, fil, sd, sr⟩ := args
  unfold effectiveArgs
  cases noAbbrev <;> cases uni <;> cases deps <;> cases h : truthy dif <;> simp [h]

/-- The runs that list archives, files or symbols in a table. -/
theorem listing_run {R : RunIn} {input : Str} {args : Args} (hl : Listing args) (hf : TableFormat args) {crt : Option Crt}
    {elf : Option (List ElfSym)} {d : MemMap} (hp : prepared R input (effectiveArgs args) = some (.ok (crt, elf, d))) :
    makeReport R input args = some (
      match summaryFor d (effectiveArgs args) with
      | .error x => .error x
      | .ok S => (detailTable (titleFor args) (getSummaryFiltered Entry.abb S (effectiveArgs args)) (effectiveArgs args)).map .table) := by
  have hl' : Listing (effectiveArgs args) := by rw [eff_eq]; exact hl
  have hf' : (effectiveArgs args).format = str "table" ∨ (effectiveArgs args).format = str "text" := by rw [eff_eq]; exact hf
  have ht : titleFor (effectiveArgs args) = titleFor args := by rw [eff_eq]; rfl
  rw [makeReport_presented, hp]
  simp only [presented]
  unfold showReport
  rw [if_pos hf', selectTable_listing hl', ht]
  cases summaryFor d (effectiveArgs args) with
  | error x => rfl
  | ok S =>
    simp only [bind, Except.bind]
    cases detailTable (titleFor args) (getSummaryFiltered Entry.abb S (effectiveArgs args)) (effectiveArgs args) <;> rfl

/-- The successful ones. -/
theorem listing_ok {R : RunIn} {input : Str} {args : Args} {t : Table} (hl : Listing args) (hf : TableFormat args)
    (h : makeReport R input args = some (.ok (.table t))) :
    ∃ crt elf d S, prepared R input (effectiveArgs args) = some (.ok (crt, elf, d)) ∧ d.WF ∧
      summaryFor d (effectiveArgs args) = .ok S ∧ (∀ p ∈ S, Skeleton d p.2) ∧
      detailTable (titleFor args) (getSummaryFiltered Entry.abb S (effectiveArgs args)) (effectiveArgs args) = .ok t := by
  cases hp : prepared R input (effectiveArgs args) with
  | none => rw [makeReport_presented, hp] at h; cases h
  | some r =>
    cases r with
    | error x => rw [makeReport_presented, hp] at h; cases h
    | ok x =>
      obtain ⟨crt, elf, d⟩ := x
      rw [listing_run hl hf hp] at h
      cases hS : summaryFor d (effectiveArgs args) with
      | error x => rw [hS] at h; cases h
      | ok S =>
        rw [hS] at h
        simp only [] at h
        refine ⟨crt, elf, d, S, rfl, prepared_wf hp, hS, summaryFor_skeleton (prepared_wf hp) hS, ?_⟩
        cases hd : detailTable (titleFor args) (getSummaryFiltered Entry.abb S (effectiveArgs args)) (effectiveArgs args) with
        | error x => rw [hd] at h; cases h
        | ok t' => rw [hd] at h; cases h; rfl

theorem mem_filtered {S : Dict Str Entry} {args : Args} {p : Str × Entry} (h : p ∈ getSummaryFiltered Entry.abb S args) : p ∈ S := by
  rw [C38_filter] at h
  exact (List.mem_filter.mp h).1

/-- **C83** `--filter` selects rows by their first cell. -/
theorem C83_filter_partial (R : RunIn) (input : Str) (args : Args) (pats : List Str) (t : Table) (keep : List Str → Bool)
    (hl : Listing args) (hf : TableFormat args) (hp : args.filter = some pats)
    (hk : ∀ row, keep row = true ↔ RowPasses pats row)
    (h : makeReport R input { args with filter := none } = some (.ok (.table t))) :
    ((∃ row ∈ t.rows, RowPasses pats row) →
      makeReport R input args = some (.ok (.table { headers := t.headers, rows := t.rows.filter keep }))) ∧
    ((∀ row ∈ t.rows, ¬ RowPasses pats row) →
      makeReport R input args = some (.error .exit) ∨
      ∃ headers, makeReport R input args = some (.ok (.table { headers := headers, rows := [] }))) := by
  obtain ⟨crt, elf, d, S, h1, hd, h3, h4, h5⟩ := listing_ok (args := { args with filter := none }) hl hf h
  have e1 : prepared R input (effectiveArgs args) = some (.ok (crt, elf, d)) := by
    rw [← h1]
    apply prepared_same
    rw [eff_eq, eff_eq]
    exact ⟨rfl, rfl, rfl, rfl, rfl, rfl⟩
  have e2 : summaryFor d (effectiveArgs args) = .ok S := by
    rw [← h3, eff_eq, eff_eq]
    rfl
  have e3 : titleFor { args with filter := none } = titleFor args := rfl
  rw [e3] at h5
  have e4 : getSummaryFiltered Entry.abb S (effectiveArgs { args with filter := none }) = S := by
    unfold getSummaryFiltered
    rw [eff_eq]
  rw [e4] at h5
  rw [listing_run hl hf e1, e2]
  simp only []
  have hab : (effectiveArgs { args with filter := none }).abbrev_ = (effectiveArgs args).abbrev_ := by rw [eff_eq, eff_eq]
  have hso : (effectiveArgs { args with filter := none }).sort = (effectiveArgs args).sort := by rw [eff_eq, eff_eq]
  have hre : (effectiveArgs { args with filter := none }).sortReverse = (effectiveArgs args).sortReverse := by rw [eff_eq, eff_eq]
  have hrow : ∀ p, shownRow (effectiveArgs { args with filter := none }) p = shownRow (effectiveArgs args) p := by
    intro p; rw [eff_eq, eff_eq]; rfl
  have hkey : ∀ c e, cellKey (effectiveArgs { args with filter := none }) c e = cellKey (effectiveArgs args) c e := by
    intro c e; rw [eff_eq, eff_eq]; rfl
  have hfil : getSummaryFiltered Entry.abb S (effectiveArgs args) = S.filter fun p => keep (shownRow (effectiveArgs args) p) := by
    rw [C38_filter]
    apply List.filter_congr
    intro p _
    rw [Bool.eq_iff_iff, hk]
    simp only [decide_eq_true_eq]
    have : (effectiveArgs args).filter = some pats := by rw [eff_eq]; exact hp
    rw [this]
    constructor
    · intro h
      exact ⟨_, _, rfl, h pats rfl⟩
    · rintro ⟨name, cells, hrow, hm⟩ pats' hp'
      cases hp'
      unfold shownRow at hrow
      rw [(List.cons.inj hrow).1]
      exact hm
  by_cases hS : S = []
  · subst hS
    rw [detailTable_empty h5]
    constructor
    · rintro ⟨row, hr, _⟩; cases hr
    · intro _
      rw [hfil, List.filter_nil]
      rcases detailTable_nil (titleFor args) (effectiveArgs args) with h | h <;> rw [h]
      · exact .inr ⟨_, rfl⟩
      · exact .inl rfl
  obtain ⟨i, c, hi, hc, rfl⟩ := detailTable_inv hd hS h4 h5
  rw [hab, hso] at hi
  simp only [hab, hre, hrow, hkey, funext hrow] at *
  have hmem : ∀ row, row ∈ (sortedBy (fun p => cellKey (effectiveArgs args) c p.2) (effectiveArgs args).sortReverse S).map (shownRow (effectiveArgs args)) ↔
      ∃ p ∈ S, shownRow (effectiveArgs args) p = row := by
    intro row
    rw [List.mem_map]
    constructor <;> rintro ⟨p, hp, rfl⟩
    · exact ⟨p, (sortedBy_stable _ _ S).perm.mem_iff.mp hp, rfl⟩
    · exact ⟨p, (sortedBy_stable _ _ S).perm.mem_iff.mpr hp, rfl⟩
  constructor
  · rintro ⟨row, hr, hpass⟩
    obtain ⟨p, hp, rfl⟩ := (hmem row).mp hr
    have hne : getSummaryFiltered Entry.abb S (effectiveArgs args) ≠ [] := by
      rw [hfil]
      intro hnil
      have : p ∈ S.filter fun p => keep (shownRow (effectiveArgs args) p) := List.mem_filter.mpr ⟨hp, (hk _).mpr hpass⟩
      rw [hnil] at this
      cases this
    rw [detailTable_rows hd (titleFor args) _ hne (fun p hp => h4 p (mem_filtered hp)) (effectiveArgs args) hi hc]
    simp only [Except.map]
    rw [hfil, List.filter_map, sortedBy_select]
    rfl
  · intro hno
    have : getSummaryFiltered Entry.abb S (effectiveArgs args) = [] := by
      rw [hfil, List.filter_eq_nil_iff]
      intro p hp hx
      exact hno _ ((hmem _).mpr ⟨p, hp, rfl⟩) ((hk _).mp hx)
    rw [this]
    rcases detailTable_nil (titleFor args) (effectiveArgs args) with h | h <;> rw [h]
    · exact .inr ⟨_, rfl⟩
    · exact .inl rfl

/-- **C83** the options for sorting only change the order of the rows. -/
theorem C83_sort (R : RunIn) (input : Str) (args : Args) (column : Str) (byDiff reverse : Bool) (t t' : Table)
    (hl : Listing args) (hf : TableFormat args)
    (h : makeReport R input args = some (.ok (.table t)))
    (h' : makeReport R input { args with sort := column, sortDiff := byDiff, sortReverse := reverse } = some (.ok (.table t'))) :
    t'.headers = t.headers ∧ t'.rows.Perm t.rows := by
  obtain ⟨crt, elf, d, S, h1, hd, h3, h4, h5⟩ := listing_ok hl hf h
  obtain ⟨crt', elf', d', S', h1', _, h3', _, h5'⟩ := listing_ok (args := { args with sort := column, sortDiff := byDiff, sortReverse := reverse }) hl hf h'
  have e1 : prepared R input (effectiveArgs { args with sort := column, sortDiff := byDiff, sortReverse := reverse }) =
      prepared R input (effectiveArgs args) := by
    apply prepared_same
    rw [eff_eq, eff_eq]
    exact ⟨rfl, rfl, rfl, rfl, rfl, rfl⟩
  rw [e1, h1] at h1'
  cases h1'
  have e2 : summaryFor d (effectiveArgs { args with sort := column, sortDiff := byDiff, sortReverse := reverse }) = summaryFor d (effectiveArgs args) := by
    rw [eff_eq, eff_eq]; rfl
  rw [e2, h3] at h3'
  cases h3'
  have e3 : getSummaryFiltered Entry.abb S (effectiveArgs { args with sort := column, sortDiff := byDiff, sortReverse := reverse }) =
      getSummaryFiltered Entry.abb S (effectiveArgs args) := by
    rw [eff_eq, eff_eq]; rfl
  have e4 : titleFor { args with sort := column, sortDiff := byDiff, sortReverse := reverse } = titleFor args := rfl
  rw [e3, e4] at h5'
  by_cases hF : getSummaryFiltered Entry.abb S (effectiveArgs args) = []
  · rw [hF] at h5 h5'
    rw [detailTable_empty h5, detailTable_empty h5']
    exact ⟨rfl, List.Perm.refl _⟩
  · have hs : ∀ p ∈ getSummaryFiltered Entry.abb S (effectiveArgs args), Skeleton d p.2 := fun p hp => h4 p (mem_filtered hp)
    obtain ⟨i, c, _, _, rfl⟩ := detailTable_inv hd hF hs h5
    obtain ⟨i', c', _, _, rfl⟩ := detailTable_inv hd hF hs h5'
    have hab : (effectiveArgs { args with sort := column, sortDiff := byDiff, sortReverse := reverse }).abbrev_ = (effectiveArgs args).abbrev_ := by
      rw [eff_eq, eff_eq]
    have hrow : shownRow (effectiveArgs { args with sort := column, sortDiff := byDiff, sortReverse := reverse }) = shownRow (effectiveArgs args) := by
      rw [eff_eq, eff_eq]; rfl
    rw [hab, hrow]
    exact ⟨rfl, ((sortedBy_stable _ _ _).perm.trans (sortedBy_stable _ _ _).perm.symm).map _⟩

/-- **C83** `--no-abbrev` changes names only, if rows are sorted by the number of a column and not filtered. -/
theorem C83_abbrev (R : RunIn) (input : Str) (args : Args) (b : Bool) (k : Int) (t t' : Table) (hl : Listing args)
    (hf : TableFormat args) (hn : pyInt10 args.sort = some k) (hfil : args.filter = none)
    (h : makeReport R input args = some (.ok (.table t)))
    (h' : makeReport R input { args with noAbbrev := b } = some (.ok (.table t'))) :
    t'.rows.map List.tail = t.rows.map List.tail ∧ t'.headers.length = t.headers.length := by
  obtain ⟨crt, elf, d, S, h1, hd, h3, h4, h5⟩ := listing_ok hl hf h
  obtain ⟨crt', elf', d', S', h1', _, h3', _, h5'⟩ := listing_ok (args := { args with noAbbrev := b }) hl hf h'
  have e1 : prepared R input (effectiveArgs { args with noAbbrev := b }) = prepared R input (effectiveArgs args) := by
    apply prepared_same
    rw [eff_eq, eff_eq]
    exact ⟨rfl, rfl, rfl, rfl, rfl, rfl⟩
  rw [e1, h1] at h1'
  cases h1'
  have e2 : summaryFor d (effectiveArgs { args with noAbbrev := b }) = summaryFor d (effectiveArgs args) := by
    rw [eff_eq, eff_eq]; rfl
  rw [e2, h3] at h3'
  cases h3'
  have e3 : ∀ b, getSummaryFiltered Entry.abb S (effectiveArgs { args with noAbbrev := b }) = S := by
    intro b
    unfold getSummaryFiltered
    rw [eff_eq]
    simp only [hfil]
  have e3' : getSummaryFiltered Entry.abb S (effectiveArgs args) = S := e3 args.noAbbrev
  have e4 : titleFor { args with noAbbrev := b } = titleFor args := rfl
  rw [e3, e4] at h5'
  rw [e3'] at h5
  by_cases hF : S = []
  · subst hF
    rw [detailTable_empty h5, detailTable_empty h5']
    exact ⟨rfl, rfl⟩
  · obtain ⟨i, c, hi, hc, rfl⟩ := detailTable_inv hd hF h4 h5
    obtain ⟨i', c', hi', hc', rfl⟩ := detailTable_inv hd hF h4 h5'
    have hs1 : (effectiveArgs args).sort = args.sort := by rw [eff_eq]
    have hs2 : (effectiveArgs { args with noAbbrev := b }).sort = args.sort := by rw [eff_eq]
    have hii : i' = i := by
      obtain ⟨a1, ⟨k1, b1, c1⟩ | ⟨b1, _⟩⟩ := hi
      · obtain ⟨a2, ⟨k2, b2, c2⟩ | ⟨b2, _⟩⟩ := hi'
        · rw [hs1, hn] at b1
          rw [hs2, hn] at b2
          cases b1; cases b2
          simp only [List.length_map] at a1 a2 c1 c2
          omega
        · rw [hs2, hn] at b2; cases b2
      · rw [hs1, hn] at b1; cases b1
    subst hii
    rw [hc] at hc'
    cases hc'
    have hre : (effectiveArgs { args with noAbbrev := b }).sortReverse = (effectiveArgs args).sortReverse := by rw [eff_eq, eff_eq]
    have hkey : ∀ e, cellKey (effectiveArgs { args with noAbbrev := b }) c e = cellKey (effectiveArgs args) c e := by
      intro e; rw [eff_eq, eff_eq]; rfl
    have hcols : ∀ e, entryCols (effectiveArgs { args with noAbbrev := b }) e = entryCols (effectiveArgs args) e := by
      intro e; rw [eff_eq, eff_eq]; rfl
    simp only [hre, hkey, List.map_map, List.length_cons, List.length_map, and_true]
    apply List.map_congr_left
    intro p _
    simp only [Function.comp, shownRow, List.tail_cons, hcols]

theorem colorDiff_bracket (z x : Int) : '[' ∈ colorDiff z x true ↔ x ≠ 0 := by
  unfold colorDiff
  simp only [Bool.not_true, Bool.false_eq_true, if_false]
  by_cases h1 : x < 0
  · rw [if_pos h1]
    constructor
    · intro _; omega
    · intro _
      simp only [List.mem_append]
      exact .inl (.inl (.inr (by decide)))
  · rw [if_neg h1]
    by_cases h2 : x > 0
    · rw [if_pos h2]
      constructor
      · intro _; omega
      · intro _
        simp only [List.mem_append]
        exact .inl (.inl (.inr (by decide)))
    · rw [if_neg h2]
      have h0 : x = 0 := by omega
      subst h0
      constructor
      · intro h
        simp only [List.mem_append] at h
        rcases h with (h | h) | h
        · exact absurd (intStr_chars z _ h) (by unfold NumChar; decide)
        · exact absurd h (by decide)
        · exact absurd h (by decide +kernel)
      · intro h; exact absurd rfl h

/-- Selection of entries by what is shown of them is selection of rows. -/
theorem select_rows {d : MemMap} (hd : d.WF) {title : Str} {S : Dict Str Entry} (hs : ∀ p ∈ S, Skeleton d p.2) {args : Args} {t : Table}
    (h : detailTable title S args = .ok t) (keep : List Str → Bool) :
    ((∃ row ∈ t.rows, keep row = true) → detailTable title (S.filter fun p => keep (shownRow args p)) args =
      .ok { headers := t.headers, rows := t.rows.filter keep }) ∧
    ((∀ row ∈ t.rows, keep row = false) → (S.filter fun p => keep (shownRow args p)) = []) := by
  by_cases hS : S = []
  · subst hS
    rw [detailTable_empty h]
    refine ⟨?_, fun _ => rfl⟩
    rintro ⟨row, hr, _⟩
    cases hr
  obtain ⟨i, c, hi, hc, rfl⟩ := detailTable_inv hd hS hs h
  have hmem : ∀ row, row ∈ (sortedBy (fun p => cellKey args c p.2) args.sortReverse S).map (shownRow args) ↔
      ∃ p ∈ S, shownRow args p = row := by
    intro row
    rw [List.mem_map]
    constructor <;> rintro ⟨p, hp, rfl⟩
    · exact ⟨p, (sortedBy_stable _ _ S).perm.mem_iff.mp hp, rfl⟩
    · exact ⟨p, (sortedBy_stable _ _ S).perm.mem_iff.mpr hp, rfl⟩
  constructor
  · rintro ⟨row, hr, hpass⟩
    obtain ⟨p, hp, rfl⟩ := (hmem row).mp hr
    have hne : (S.filter fun p => keep (shownRow args p)) ≠ [] := by
      intro hnil
      have : p ∈ S.filter fun p => keep (shownRow args p) := List.mem_filter.mpr ⟨hp, hpass⟩
      rw [hnil] at this
      cases this
    rw [detailTable_rows hd title _ hne (fun p hp => hs p (List.mem_filter.mp hp).1) args hi hc]
    rw [List.filter_map, sortedBy_select]
    rfl
  · intro hno
    rw [List.filter_eq_nil_iff]
    intro p hp hx
    have := hno _ ((hmem _).mpr ⟨p, hp, rfl⟩)
    rw [this] at hx
    cases hx

theorem getSummaryFiltered_filter (S : Dict Str Entry) (args : Args) (q : Str × Entry → Bool) :
    getSummaryFiltered Entry.abb (S.filter q) args = (getSummaryFiltered Entry.abb S args).filter q := by
  rw [C38_filter, C38_filter, List.filter_filter, List.filter_filter]
  apply List.filter_congr
  intro p _
  rw [Bool.and_comm]

theorem summaryFor_unchanged (d : MemMap) (args : Args) (ht : truthy args.diff = true) (S : Dict Str Entry)
    (h : summaryFor d { args with showUnchanged := true } = .ok S) :
    summaryFor d { args with showUnchanged := false } = .ok (S.filter fun p => decide (p.2.sizeDiff ≠ 0)) := by
  have hrem : ∀ E, remSummaryUnchanged E { args with showUnchanged := true } = E := by
    intro E; unfold remSummaryUnchanged; simp
  have hrem' : ∀ E, remSummaryUnchanged E { args with showUnchanged := false } = E.filter fun p => decide (p.2.sizeDiff ≠ 0) := by
    intro E
    unfold remSummaryUnchanged
    rw [if_neg (by simp [ht])]
    rfl
  unfold summaryFor at h ⊢
  simp only [] at h ⊢
  split
  · rename_i ha
    rw [if_pos ha] at h
    unfold getArchivesSummary at h ⊢
    simp only [bind, Except.bind, hrem, hrem'] at h ⊢
    split at h
    · cases h
    · cases h; rfl
  · rename_i ha
    rw [if_neg ha] at h
    split
    · rename_i hb
      rw [if_pos hb] at h
      unfold getSymbolsSummary at h ⊢
      simp only [bind, Except.bind, hrem, hrem'] at h ⊢
      split at h
      · cases h
      · split at h
        · cases h
        · rename_i hz
          cases h
          simp only [hz]
          rfl
    · rename_i hb
      rw [if_neg hb] at h
      unfold getObjectFilesSummary at h ⊢
      simp only [bind, Except.bind, hrem, hrem'] at h ⊢
      split at h
      · cases h
      · cases h; rfl

/-- **C83** without `--show-unchanged` exactly the rows whose total is unchanged are left out. -/
theorem C83_unchanged_partial (R : RunIn) (input : Str) (args : Args) (t : Table) (keep : List Str → Bool)
    (hl : Listing args) (hf : TableFormat args) (hdiff : truthy args.diff = true) (hdep : args.archiveDependencies = false)
    (hk : ∀ row, keep row = true ↔ RowChanged row)
    (h : makeReport R input { args with showUnchanged := true } = some (.ok (.table t))) :
    ((∃ row ∈ t.rows, RowChanged row) →
      makeReport R input { args with showUnchanged := false } = some (.ok (.table { headers := t.headers, rows := t.rows.filter keep }))) ∧
    ((∀ row ∈ t.rows, ¬ RowChanged row) →
      makeReport R input { args with showUnchanged := false } = some (.error .exit) ∨
      ∃ headers, makeReport R input { args with showUnchanged := false } = some (.ok (.table { headers := headers, rows := [] }))) := by
  obtain ⟨crt, elf, d, S, h1, hd, h3, h4, h5⟩ := listing_ok (args := { args with showUnchanged := true }) hl hf h
  have e1 : prepared R input (effectiveArgs { args with showUnchanged := false }) = some (.ok (crt, elf, d)) := by
    rw [← h1]
    apply prepared_same
    rw [eff_eq, eff_eq]
    exact ⟨rfl, rfl, rfl, rfl, rfl, rfl⟩
  have hx : ∀ b, effectiveArgs { args with showUnchanged := b } = { effectiveArgs args with showUnchanged := b } := by
    intro b; rw [eff_eq, eff_eq]
  have ht : truthy (effectiveArgs args).diff = true := by rw [eff_eq]; simp [hdep, hdiff]
  rw [hx] at h3 h5
  have e2 := summaryFor_unchanged d (effectiveArgs args) ht S h3
  rw [listing_run (args := { args with showUnchanged := false }) hl hf e1, hx, e2]
  simp only []
  have e3 : getSummaryFiltered Entry.abb (S.filter fun p => decide (p.2.sizeDiff ≠ 0)) { effectiveArgs args with showUnchanged := false } =
      (getSummaryFiltered Entry.abb S { effectiveArgs args with showUnchanged := true }).filter fun p =>
        keep (shownRow { effectiveArgs args with showUnchanged := true } p) := by
    rw [getSummaryFiltered_filter]
    have : getSummaryFiltered Entry.abb S { effectiveArgs args with showUnchanged := false } =
        getSummaryFiltered Entry.abb S { effectiveArgs args with showUnchanged := true } := rfl
    rw [this]
    apply List.filter_congr
    intro p _
    rw [Bool.eq_iff_iff, hk, decide_eq_true_iff]
    have hr : shownRow { effectiveArgs args with showUnchanged := true } p =
        (if (effectiveArgs args).abbrev_ then p.2.abb else p.1) :: colorDiff p.2.size p.2.sizeDiff true ::
          (((entryCols { effectiveArgs args with showUnchanged := true } p.2).map (·.info)).tail) := by
      unfold shownRow entryCols
      simp only [List.map_cons, List.tail_cons, tcol, ht]
    rw [hr]
    constructor
    · intro hz
      exact ⟨_, _, _, _, rfl, hz⟩
    · rintro ⟨name, z, x, cells, hrow, hxz⟩
      have := (List.cons.inj (List.cons.inj hrow).2).1
      rw [← colorDiff_bracket p.2.size, this, colorDiff_bracket]
      exact hxz
  have e4 : titleFor { args with showUnchanged := true } = titleFor { args with showUnchanged := false } := rfl
  have e5 : ∀ F, detailTable (titleFor { args with showUnchanged := false }) F { effectiveArgs args with showUnchanged := false } =
    detailTable (titleFor { args with showUnchanged := false }) F { effectiveArgs args with showUnchanged := true } := fun _ => rfl
  rw [e4] at h5
  rw [e3, e5]
  obtain ⟨r1, r2⟩ := select_rows hd (fun p hp => h4 p (mem_filtered hp)) h5 keep
  constructor
  · rintro ⟨row, hr, hp⟩
    rw [r1 ⟨row, hr, (hk row).mpr hp⟩]
    rfl
  · intro hno
    rw [r2 fun row hr => by
      cases hq : keep row with
      | false => rfl
      | true => exact absurd ((hk row).mp hq) (hno row hr)]
    rcases detailTable_nil (titleFor { args with showUnchanged := false }) { effectiveArgs args with showUnchanged := true } with h | h <;> rw [h]
    · exact .inr ⟨_, rfl⟩
    · exact .inl rfl

theorem depRows_format (args : Args) (f name : Str) (size : Int) (first : Bool) (l : Dict Str DepInfo) :
    depRows { args with format := f } name size first l = depRows args name size first l := by
  induction l generalizing first with
  | nil => rfl
  | cons x t ih => unfold depRows; rw [ih]

theorem selectTable_format (R : RunIn) (crt : Option Crt) (elf : Option (List ElfSym)) (args : Args) (d : MemMap) (f : Str) :
    selectTable R crt elf { args with format := f } d = selectTable R crt elf args d := by
  have h1 : getArchivesTable d { args with format := f } = getArchivesTable d args := rfl
  have h2 : getSymbolsTable d { args with format := f } = getSymbolsTable d args := rfl
  have h3 : getObjectFilesTable d { args with format := f } = getObjectFilesTable d args := rfl
  have h4 : getArchivesDependencies R.ord crt d elf { args with format := f } = getArchivesDependencies R.ord crt d elf args := rfl
  have h5 : ∀ x, depsTable { args with format := f } x = depsTable args x := by
    intro x
    unfold depsTable
    simp only [depRows_format]
    rfl
  have h6 : getSummaryTable R.F d { args with format := f } = getSummaryTable R.F d args := rfl
  unfold selectTable
  rw [h1, h2, h3, h4, h6]
  simp only [h5]

/-- **C83** the CSV report has the content of the table. -/
theorem C83_csv (R : RunIn) (input : Str) (args : Args) :
    makeReport R input { args with format := str "csv" } =
      (makeReport R input { args with format := str "table" }).map fun r => r.map asCsv := by
  have e1 : prepared R input (effectiveArgs { args with format := str "csv" }) = prepared R input (effectiveArgs { args with format := str "table" }) := by
    apply prepared_same
    rw [eff_eq, eff_eq]
    refine ⟨?_, ?_, rfl, rfl, rfl, rfl⟩
    · unfold loadSymbolsOf; simp only []; rw [show decide (str "csv" = str "raw") = decide (str "table" = str "raw") by decide]
    · unfold useDwarfOf; simp only []; rw [show decide (str "csv" = str "raw") = decide (str "table" = str "raw") by decide]
  rw [makeReport_presented, makeReport_presented, e1]
  cases prepared R input (effectiveArgs { args with format := str "table" }) with
  | none => rfl
  | some r =>
    cases r with
    | error x => rfl
    | ok x =>
      obtain ⟨crt, elf, d⟩ := x
      simp only [presented, Option.map_some, Option.some.injEq]
      have hx : ∀ f, selectTable R crt elf (effectiveArgs { args with format := f }) d = selectTable R crt elf (effectiveArgs args) d := by
        intro f
        have : effectiveArgs { args with format := f } = { effectiveArgs args with format := f } := by rw [eff_eq, eff_eq]
        rw [this, selectTable_format]
      have hfm : ∀ f, (effectiveArgs { args with format := f }).format = f := fun f => eff_format _
      unfold showReport
      simp only [hx, hfm]
      rw [if_neg (by decide), if_neg (by decide), if_neg (by decide), if_pos trivial, if_pos (.inl trivial)]
      cases selectTable R crt elf (effectiveArgs args) d <;> rfl

/-- **C83** the formats `table` and `text` show the same. -/
theorem C83_text (R : RunIn) (input : Str) (args : Args) :
    makeReport R input { args with format := str "text" } = makeReport R input { args with format := str "table" } := by
  have e1 : prepared R input (effectiveArgs { args with format := str "text" }) = prepared R input (effectiveArgs { args with format := str "table" }) := by
    apply prepared_same
    rw [eff_eq, eff_eq]
    refine ⟨?_, ?_, rfl, rfl, rfl, rfl⟩
    · unfold loadSymbolsOf; simp only []; rw [show decide (str "text" = str "raw") = decide (str "table" = str "raw") by decide]
    · unfold useDwarfOf; simp only []; rw [show decide (str "text" = str "raw") = decide (str "table" = str "raw") by decide]
  rw [makeReport_presented, makeReport_presented, e1]
  cases prepared R input (effectiveArgs { args with format := str "table" }) with
  | none => rfl
  | some r =>
    cases r with
    | error x => rfl
    | ok x =>
      obtain ⟨crt, elf, d⟩ := x
      simp only [presented, Option.some.injEq]
      have hx : ∀ f, selectTable R crt elf (effectiveArgs { args with format := f }) d = selectTable R crt elf (effectiveArgs args) d := by
        intro f
        have : effectiveArgs { args with format := f } = { effectiveArgs args with format := f } := by rw [eff_eq, eff_eq]
        rw [this, selectTable_format]
      have hfm : ∀ f, (effectiveArgs { args with format := f }).format = f := fun f => eff_format _
      unfold showReport
      simp only [hx, hfm]
      rw [if_pos (.inr trivial), if_pos (.inl trivial)]

/-! ### Examples -/

/-- Patterns that match parts of names. -/
theorem rowPasses_iff (pats : List Str) (row : List Str) :
    RowPasses pats row ↔ (match row with | [] => false | name :: _ => pats.any fun p => fnmatch name (str "*" ++ p ++ str "*")) = true := by
  cases row with
  | nil => simp [RowPasses]
  | cons name cells =>
    simp only [List.any_eq_true, C38_pattern]
    constructor
    · rintro ⟨_, _, h, hp⟩
      cases h
      exact hp
    · intro h
      exact ⟨_, _, rfl, h⟩

/-- The hypotheses of the theorem about filters can be fulfilled, with rows that pass and rows that do not. -/
example : exTable (makeReport (exRun exTwoWorld) (str "/b/x.map") { archives := true }) =
      some [[str "Archive File", str "Total Size", str "IRAM", str ".data", str ".text"],
        [str "liba.a", str "28", str "28", str "4", str "24"], [str "libb.a", str "8", str "8", str "0", str "8"]] ∧
    exTable (makeReport (exRun exTwoWorld) (str "/b/x.map") { archives := true, filter := some [str "bb"] }) =
      some [[str "Archive File", str "Total Size", str "IRAM", str ".data", str ".text"], [str "libb.a", str "8", str "8", str "0", str "8"]] := by
  decide +kernel

/-- A run with another order and one without abbreviations. -/
example : exTable (makeReport (exRun exTwoWorld) (str "/b/x.map") { archives := true, sortReverse := false }) =
      some [[str "Archive File", str "Total Size", str "IRAM", str ".data", str ".text"],
        [str "libb.a", str "8", str "8", str "0", str "8"], [str "liba.a", str "28", str "28", str "4", str "24"]] ∧
    exTable (makeReport (exRun exTwoWorld) (str "/b/x.map") { archives := true, noAbbrev := true }) =
      some [[str "Archive File", str "Total Size", str "IRAM", str ".iram0.data", str ".iram0.text"],
        [str "lib/liba.a", str "28", str "28", str "4", str "24"], [str "lib/libb.a", str "8", str "8", str "0", str "8"]] := by
  decide +kernel

/-- Two projects with an archive that changed and one that did not. -/
example : (exTable (makeReport (exRun exTwoWorld) (str "/b/x.map")
      { archives := true, diff := some (str "/o/x.map"), unify := true, showUnchanged := true })).map (·.map List.head?) =
      some [some (str "Archive File"), some (str "liba.a"), some (str "libb.a")] ∧
    (exTable (makeReport (exRun exTwoWorld) (str "/b/x.map")
      { archives := true, diff := some (str "/o/x.map"), unify := true })).map (·.map List.head?) =
      some [some (str "Archive File"), some (str "liba.a")] := by
  decide +kernel

/-- **C83** fails if no row passes and the rows are sorted by the name of a section: the run fails. -/
theorem C83_filter_fails :
    (exTable (makeReport (exRun exTwoWorld) (str "/b/x.map") { archives := true, sort := str ".data" })).isSome = true ∧
    makeReport (exRun exTwoWorld) (str "/b/x.map") { archives := true, sort := str ".data", filter := some [str "libx"] } = some (.error .exit) := by
  decide +kernel

end EspSize
