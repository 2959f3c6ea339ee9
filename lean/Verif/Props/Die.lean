import Verif.Spec.Die
import Verif.Proofs.Escape
import Verif.Props.Refused
import Verif.Props.Frame
import Verif.Props.Deps
/-! # C113: the message says why there is no report -/
namespace EspSize

/-! ### The option `--sort` -/

theorem sortSays_ok (esc : Str → Str) (headers : List Str) (sort : Str) (n : Int) : sortSays esc headers sort = .ok n ↔ sortNumber headers sort = .ok n := by
  unfold sortSays sortNumber
  cases pyInt10 sort with
  | some k =>
    simp only
    split <;> simp
  | none =>
    cases headers.findIdx? (· = sort) with
    | none => simp
    | some j => cases j <;> simp

/-- A name that is no column, the first column, or a number that is no column. -/
theorem sortSays_none (esc : Str → Str) {first : Str} {cols : List Str} {sort : Str} (h : ¬ ∃ i, Selects first cols sort i) :
    (pyInt10 sort = none ∧ sort ≠ first ∧ sort ∉ cols ∧ sortSays esc (first :: cols) sort = .error [noColumnText (esc sort)]) ∨
    ((pyInt10 sort = some 0 ∨ sort = first) ∧ sortSays esc (first :: cols) sort = .error [firstColumnText]) ∨
    ∃ k, pyInt10 sort = some k ∧ (k < -cols.length ∨ (cols.length : Int) < k) ∧ sortSays esc (first :: cols) sort = .ok k ∧
      ∀ {α : Type} (l : List α), l.length = cols.length → pyIndex l (if k > 0 then k - 1 else k) = .error .indexError := by
  cases hk : pyInt10 sort with
  | some k =>
    by_cases h0 : k = 0
    · subst h0
      exact .inr (.inl ⟨.inl rfl, by unfold sortSays; rw [hk]; rfl⟩)
    · refine .inr (.inr ⟨k, rfl, ?_, ?_, ?_⟩)
      · by_cases hp : k > 0
        · right
          apply Int.lt_of_not_ge
          intro hlt
          exact h ⟨(k - 1).toNat, by omega, .inl ⟨k, hk, .inl (by omega)⟩⟩
        · left
          apply Int.lt_of_not_ge
          intro hlt
          exact h ⟨(k + cols.length).toNat, by omega, .inl ⟨k, hk, .inr (by omega)⟩⟩
      · unfold sortSays
        rw [hk]
        simp only [if_neg h0]
      · rcases selects_none h with h' | ⟨n, hn, hidx⟩
        · unfold sortNumber at h'
          rw [hk] at h'
          simp only [if_neg h0] at h'
          cases h'
        · unfold sortNumber at hn
          rw [hk] at hn
          simp only [if_neg h0] at hn
          cases hn
          exact hidx
  | none =>
    by_cases he : sort = first
    · refine .inr (.inl ⟨.inr he, ?_⟩)
      unfold sortSays
      rw [hk, he]
      simp only [List.findIdx?_cons, decide_true, if_true]
    · have hc : sort ∉ cols := by
        intro hmem
        have : ∃ i, (first :: cols).findIdx? (· = sort) = some (i + 1) := by
          cases hf : (first :: cols).findIdx? (· = sort) with
          | none =>
            rw [List.findIdx?_eq_none_iff] at hf
            have := hf sort (by simp [hmem])
            simp at this
          | some j =>
            cases j with
            | zero =>
              rw [findIdx?_spec] at hf
              simp only [List.getElem?_cons_zero, Option.some.injEq] at hf
              exact absurd hf.1.symm he
            | succ i => exact ⟨i, rfl⟩
        obtain ⟨i, hi⟩ := this
        rw [findIdx?_spec] at hi
        simp only [List.getElem?_cons_succ, List.take_succ_cons, List.mem_cons, not_or] at hi
        exact h ⟨i, (List.getElem?_eq_some_iff.mp hi.1).1, .inr ⟨hk, hi.2.1, hi.1, hi.2.2⟩⟩
      refine .inl ⟨rfl, he, hc, ?_⟩
      unfold sortSays
      rw [hk]
      have hf : (first :: cols).findIdx? (· = sort) = none := by
        rw [List.findIdx?_eq_none_iff]
        intro x hx
        rcases List.mem_cons.mp hx with rfl | hx
        · simpa using fun e => he e.symm
        · simp only [decide_eq_false_iff_not]
          rintro rfl
          exact hc hx
      simp only [hf]

/-! ### How the messages are shown -/

theorem shown_lit {s : Str} (h : s.all (fun c => c != '[' && c != '\\') = true) : render s = s := by
  have := render_neutral (neutral_lit h) []
  rw [List.append_nil, render_nil, List.append_nil] at this
  exact this

theorem shown_noColumn {s : Str} (h : NoMarkup s) : render (noColumnText s) = str "Column \"" ++ s ++ str "\" not found" := by
  show render (str "Column \"" ++ s ++ '"' :: str " not found") = _
  rw [List.append_assoc, render_neutral (neutral_lit (by decide)), render_noMarkup h (by decide) (by decide) (by decide), shown_lit (by decide)]
  simp [str]

theorem shown_noColumn_escaped {s : Str} (h : ¬ HasEscape s) (hl : s.getLast? ≠ some '\\') :
    render (noColumnText (escapeMarkup s)) = str "Column \"" ++ s ++ str "\" not found" := by
  show render (str "Column \"" ++ escapeMarkup s ++ '"' :: str " not found") = _
  rw [List.append_assoc, render_neutral (neutral_lit (by decide)), escapeMarkup_eq hl,
    render_escapeTags (by decide) (by decide) (by decide) (by decide) _ s (Nat.le_refl _) h, shown_lit (s := '"' :: str " not found") (by decide)]
  simp [str]

theorem shown_noArchive {s : Str} (h : NoMarkup s) : render (str "Archive \"" ++ s ++ str "\" not found.") = str "Archive \"" ++ s ++ str "\" not found." := by
  show render (str "Archive \"" ++ s ++ '"' :: str " not found.") = _
  rw [List.append_assoc, render_neutral (neutral_lit (by decide)), render_noMarkup h (by decide) (by decide) (by decide), shown_lit (by decide)]
  simp [str]

theorem shown_range (k a b : Int) : (columnRangeText k a b).map render = columnRangeText k a b := by
  have lit : ∀ {s : Str}, s.all (fun c => c != '[' && c != '\\') = true → ∀ t, render (s ++ t) = s ++ render t := fun h t => render_neutral (neutral_lit h) t
  unfold columnRangeText
  simp only [List.map_cons, List.map_nil, List.append_assoc]
  rw [lit (by decide), render_neutral (intStr_neutral k), shown_lit (by decide), lit (by decide), render_neutral (intStr_neutral b), lit (by decide),
    render_neutral (intStr_neutral a), shown_lit (by decide)]

/-! ### The tables -/

/-- The summary. -/
theorem summary_says (args : Args) :
    ((∃ i, Selects (str "Memory Type/Section") sumColTitles args.sort i) → summarySays args = none) ∧
    ((¬ ∃ i, Selects (str "Memory Type/Section") sumColTitles args.sort i) → ∃ ls, summarySays args = some ls ∧
      (¬ HasEscape args.sort → args.sort.getLast? ≠ some '\\' → ColumnSays (str "Memory Type/Section") sumColTitles 4 args.sort (ls.map render))) := by
  have hcols : summaryTitles = str "Memory Type/Section" :: sumColTitles := rfl
  unfold summarySays
  rw [hcols]
  constructor
  · rintro ⟨i, hi⟩
    obtain ⟨n, hn, _, hidx⟩ := selects_index hi
    have hi4 : i < sumKeys.length := hi.1
    have hk : sumKeys[i]? = some sumKeys[i] := List.getElem?_eq_getElem hi4
    rw [(sortSays_ok escapeMarkup _ _ n).mpr hn]
    simp only [hidx sumKeys _ rfl hk]
  · intro h
    rcases sortSays_none escapeMarkup h with ⟨h1, h2, h3, e⟩ | ⟨h1, e⟩ | ⟨k, h1, h2, e, hidx⟩
    · rw [e]
      refine ⟨_, rfl, fun h4 h5 => ?_⟩
      rw [List.map_cons, List.map_nil, shown_noColumn_escaped h4 h5]
      exact .unknown h1 h2 h3
    · rw [e]
      refine ⟨_, rfl, fun _ _ => ?_⟩
      rw [List.map_cons, List.map_nil, shown_lit (by decide)]
      exact .first h1
    · rw [e]
      simp only [hidx sumKeys rfl]
      refine ⟨_, rfl, fun _ _ => ?_⟩
      rw [shown_range]
      exact .range (cols := sumColTitles) h1 h2

/-- A table of entries. -/
theorem detail_says {m : MemMap} (hm : m.WF) {title : Str} (ht : title ≠ str "Total Size") {F : Dict Str Entry}
    (hs : ∀ p ∈ F, Skeleton m p.2) (args : Args) :
    (Sortable title ((reportCols m).map (colTitle m args.abbrev_)) F.isEmpty args.sort → detailSays title F args = none) ∧
    (¬ Sortable title ((reportCols m).map (colTitle m args.abbrev_)) F.isEmpty args.sort → ∃ ls, detailSays title F args = some ls ∧
      (NoMarkup args.sort → ColumnSays title (listedCols m args.abbrev_ F.isEmpty) ((listedCols m args.abbrev_ F.isEmpty).length - 1) args.sort (ls.map render))) := by
  have done : ∀ {cols : List Str} {t : List Str},
      (pyInt10 args.sort = none ∧ args.sort ≠ title ∧ args.sort ∉ cols ∧ t = [noColumnText (id args.sort)]) ∨
        ((pyInt10 args.sort = some 0 ∨ args.sort = title) ∧ t = [firstColumnText]) →
      NoMarkup args.sort → ColumnSays title cols (cols.length - 1) args.sort (t.map render) := by
    intro cols t h hq
    rcases h with ⟨h1, h2, h3, rfl⟩ | ⟨h1, rfl⟩
    · rw [List.map_cons, List.map_nil, id, shown_noColumn hq]
      exact .unknown h1 h2 h3
    · rw [List.map_cons, List.map_nil, shown_lit (by decide)]
      exact .first h1
  cases F with
  | nil =>
    have hrows : ∀ n, sortRows args n (([] : Dict Str Entry).map (entryRow args)) = .ok [] := fun n => by
      unfold sortRows
      simp [sortedBy]
      rfl
    have hh := sortNumber_nil title args.sort ht
    have hsort : ∀ c, Sortable title c (List.isEmpty ([] : Dict Str Entry)) args.sort = Sortable title [] true args.sort := fun _ => rfl
    rw [hsort]
    unfold detailSays tableSays
    constructor
    · intro h
      obtain ⟨n, hn⟩ := hh.1 h
      simp only [List.append_nil, (sortSays_ok id _ _ n).mpr hn, hrows]
    · intro h
      have he := hh.2 h
      have hno : ¬ ∃ i, Selects title [str "Total Size"] args.sort i := by
        rintro ⟨i, hi⟩
        obtain ⟨n, hn, _⟩ := selects_index hi
        rw [hn] at he
        cases he
      rcases sortSays_none id hno with ⟨h1, h2, h3, e⟩ | ⟨h1, e⟩ | ⟨k, h1, h2, e, _⟩
      · simp only [List.append_nil, e]
        exact ⟨_, rfl, done (.inl ⟨h1, h2, h3, rfl⟩)⟩
      · simp only [List.append_nil, e]
        exact ⟨_, rfl, done (.inr ⟨h1, rfl⟩)⟩
      · rw [(sortSays_ok id _ _ k).mp e] at he
        cases he
  | cons p0 F0 =>
    have hdef : detailSays title (p0 :: F0) args = tableSays (p0 :: F0) (title :: (reportCols m).map (colTitle m args.abbrev_)) args := by
      unfold detailSays
      rw [← skeleton_headers hm (hs p0 (by simp)) args]
      rfl
    have hlen : ∀ p ∈ p0 :: F0, (entryCols args p.2).length = ((reportCols m).map (colTitle m args.abbrev_)).length := by
      intro p hp
      rw [← (skeleton_cols hm (hs p hp) args).length_eq, List.length_map]
    have hsort : ∀ c, Sortable title c (List.isEmpty (p0 :: F0)) args.sort = ∃ i, Selects title c args.sort i := fun _ => rfl
    have hl : listedCols m args.abbrev_ (p0 :: F0).isEmpty = (reportCols m).map (colTitle m args.abbrev_) := rfl
    rw [hsort, hl, hdef]
    generalize (reportCols m).map (colTitle m args.abbrev_) = cols at *
    unfold tableSays
    constructor
    · rintro ⟨i, hi⟩
      obtain ⟨n, hn, _, hidx⟩ := selects_index hi
      have hrow : ∀ p ∈ p0 :: F0, ∃ z, rowKey args n (entryRow args p) = .ok z := by
        intro p hp
        have hlt : i < (entryCols args p.2).length := by rw [hlen p hp]; exact hi.1
        unfold rowKey entryRow
        simp only [hidx _ _ (hlen p hp) (List.getElem?_eq_getElem hlt), bind, Except.bind]
        exact ⟨_, rfl⟩
      have hmap : ∃ keyed, ((p0 :: F0).map (entryRow args)).mapM (fun r => (rowKey args n r).map fun k => (k, r)) = .ok keyed := by
        generalize p0 :: F0 = F at hrow
        induction F with
        | nil => exact ⟨[], rfl⟩
        | cons p F ih =>
          obtain ⟨z, hz⟩ := hrow p (by simp)
          obtain ⟨l, hl⟩ := ih fun q hq => hrow q (by simp [hq])
          refine ⟨(z, entryRow args p) :: l, ?_⟩
          rw [List.map_cons, List.mapM_cons, hz, hl]
          rfl
      obtain ⟨keyed, hk⟩ := hmap
      rw [(sortSays_ok id _ _ n).mpr hn]
      unfold sortRows
      simp only [hk]
    · intro h
      rcases sortSays_none id h with ⟨h1, h2, h3, e⟩ | ⟨h1, e⟩ | ⟨k, h1, h2, e, hidx⟩
      · simp only [e]
        exact ⟨_, rfl, done (.inl ⟨h1, h2, h3, rfl⟩)⟩
      · simp only [e]
        exact ⟨_, rfl, done (.inr ⟨h1, rfl⟩)⟩
      · have hr : sortRows args k ((p0 :: F0).map (entryRow args)) = .error .exit := by
          unfold sortRows
          rw [List.map_cons, mapM_error (e := .indexError)]
          unfold rowKey entryRow
          rw [hidx _ (hlen p0 (by simp))]
          rfl
        obtain ⟨p, hp, hlast⟩ : ∃ p ∈ p0 :: F0, ((p0 :: F0).map (entryRow args)).getLast? = some (entryRow args p) := by
          refine ⟨(p0 :: F0).getLast (by simp), List.getLast_mem _, ?_⟩
          rw [List.getLast?_map, List.getLast?_eq_some_getLast (by simp)]
          rfl
        have hc : (entryRow args p).2.length = cols.length := hlen p hp
        have hpos : cols.length ≠ 0 := by
          rw [← hlen p0 (by simp)]
          simp [entryCols]
        simp only [e, hr, hlast, hc]
        refine ⟨_, rfl, fun _ => ?_⟩
        rw [shown_range, show ((cols.length : Int) - 1) = ((cols.length - 1 : Nat) : Int) by omega]
        exact .range h1 h2

/-! ### The whole report -/

theorem deps_say {crt : Option Crt} {elf : Option ElfFile} {args : Args} (m : MemMap) (ha : AsksDeps args) (last : Nat → Nat) :
    (¬ (crt = none ∨ elf = none) → depsSay crt elf = none) ∧
    (crt = none ∨ elf = none → ∃ ls, depsSay crt elf = some ls ∧ Says last crt elf args m (ls.map render)) := by
  cases crt with
  | none =>
    refine ⟨fun h => absurd (.inl rfl) h, fun _ => ⟨_, rfl, ?_⟩⟩
    rw [List.map_cons, List.map_nil, shown_lit (by decide)]
    exact .noCrt ha rfl
  | some c =>
    cases elf with
    | none =>
      refine ⟨fun h => absurd (.inr rfl) h, fun _ => ⟨_, rfl, ?_⟩⟩
      rw [List.map_cons, List.map_nil, shown_lit (by decide)]
      exact .noElf ha (by simp) rfl
    | some e => exact ⟨fun _ => rfl, fun h => by rcases h with h | h <;> cases h⟩

theorem symbols_say {crt : Option Crt} {elf : Option ElfFile} {args : Args} {m : MemMap} (hm : m.WF) (ha : AsksSymbols args) (last : Nat → Nat) :
    (SymbolIn m args.archiveDetails → symbolsSay m args = none ∧ ∃ S, getSymbolsSummary m args = .ok S) ∧
    (¬ SymbolIn m args.archiveDetails → ∃ ls, symbolsSay m args = some ls ∧
      ((∀ a, args.archiveDetails = some a → NoMarkup a) → Says last crt elf args m (ls.map render))) := by
  have hf := symbols_found hm args
  unfold symbolsSay
  constructor
  · intro h
    obtain ⟨S, hS⟩ := hf.1 h
    rw [hS]
    exact ⟨rfl, S, rfl⟩
  · intro h
    rw [hf.2 h]
    refine ⟨_, rfl, fun hq => ?_⟩
    have ht := ha.2.2
    cases hd : args.archiveDetails with
    | none => rw [hd] at ht; cases ht
    | some a =>
      rw [hd] at h
      rw [List.map_cons, List.map_nil]
      show Says last crt elf args m [render (str "Archive \"" ++ a ++ str "\" not found.")]
      rw [shown_noArchive (hq a hd)]
      exact .noSymbol ha hd h

/-- The listing of a summary. -/
theorem listing_says {crt : Option Crt} {elf : Option ElfFile} {args : Args} {m : MemMap} (hm : m.WF) {title : Str} (ht : title ≠ str "Total Size")
    {S : Dict Str Entry} (hs : ∀ p ∈ getSummaryFiltered Entry.abb S args, Skeleton m p.2) (hl : ListsEntries m args title S) (hn : ¬ AsksSummary args) :
    (Sortable title ((reportCols m).map (colTitle m args.abbrev_)) (getSummaryFiltered Entry.abb S args).isEmpty args.sort →
      listingSays title (.ok S) args = none) ∧
    (¬ Sortable title ((reportCols m).map (colTitle m args.abbrev_)) (getSummaryFiltered Entry.abb S args).isEmpty args.sort →
      ∃ ls, listingSays title (.ok S) args = some ls ∧ (Quotable args → Says (· - 1) crt elf args m (ls.map render))) := by
  have h := detail_says hm ht hs args
  refine ⟨h.1, fun hx => ?_⟩
  obtain ⟨ls, e, hq⟩ := h.2 hx
  exact ⟨ls, e, fun q => .column hl (hq (q.sort hn))⟩

/-- The tables. -/
theorem select_says {crt : Option Crt} {elf : Option ElfFile} {args : Args} {m : MemMap} (hm : m.WF) (hf : InTable args) :
    (¬ Refused crt elf args m → selectSays crt elf args m = none) ∧
    (Refused crt elf args m → ∃ ls, selectSays crt elf args m = some ls ∧ (Quotable args → Says (· - 1) crt elf args m (ls.map render))) := by
  have hd : args.format ≠ str "dot" := by
    intro h
    unfold InTable at hf
    rw [h] at hf
    revert hf
    decide
  have h4 : args.format ∈ [str "table", str "text", str "csv", str "json2"] :=
    (by decide : [str "table", str "text", str "csv"] ⊆ [str "table", str "text", str "csv", str "json2"]) hf
  unfold selectSays
  cases ha : args.archives with
  | true =>
    simp only [if_true]
    obtain ⟨S, hS⟩ := archivesSummary_total hm args
    have ht := listing_says (crt := crt) (elf := elf) hm (by decide) (archives_skeleton hm hS) (.archives hf ha hS) (fun h => by rw [h.1] at ha; cases ha)
    rw [hS]
    constructor
    · intro h
      exact ht.1 (Classical.byContradiction fun hn => h (.column (.archives hf ha hS) hn))
    · intro h
      apply ht.2
      cases h with
      | dot h => exact absurd h hd
      | noCrt h => have := (h.2 h4).1; rw [ha] at this; cases this
      | noElf h => have := (h.2 h4).1; rw [ha] at this; cases this
      | noSymbol h => have := h.2.1; rw [ha] at this; cases this
      | column hl hn =>
        cases hl with
        | archives _ _ h => rw [hS] at h; cases h; exact hn
        | symbols _ h => rw [ha] at h; cases h
        | files _ h => rw [ha] at h; cases h
      | summary _ h => have := h.1; rw [ha] at this; cases this
  | false =>
    simp only [Bool.false_eq_true, if_false]
    cases hs : truthy args.archiveDetails with
    | true =>
      simp only [if_true]
      have hask : AsksSymbols args := ⟨h4, ha, hs⟩
      have hsy := symbols_say (crt := crt) (elf := elf) hm hask (· - 1)
      by_cases hin : SymbolIn m args.archiveDetails
      · obtain ⟨hnone, S, hS⟩ := hsy.1 hin
        have ht := listing_says (crt := crt) (elf := elf) hm (by decide) (symbols_skeleton hm hS) (.symbols hf ha hs hS) (fun h => by rw [h.2.1] at hs; cases hs)
        simp only [hnone, hS]
        constructor
        · intro h
          exact ht.1 (Classical.byContradiction fun hn => h (.column (.symbols hf ha hs hS) hn))
        · intro h
          apply ht.2
          cases h with
          | dot h => exact absurd h hd
          | noCrt h => have := (h.2 h4).2; rw [hs] at this; cases this
          | noElf h => have := (h.2 h4).2; rw [hs] at this; cases this
          | noSymbol _ h => exact absurd hin h
          | column hl hn =>
            cases hl with
            | archives _ h => rw [ha] at h; cases h
            | symbols _ _ _ h => rw [hS] at h; cases h; exact hn
            | files _ _ h => rw [hs] at h; cases h
          | summary _ h => have := h.2.1; rw [hs] at this; cases this
      · obtain ⟨ls, e, hq⟩ := hsy.2 hin
        simp only [e]
        exact ⟨fun h => absurd (.noSymbol hask hin) h, fun _ => ⟨ls, rfl, fun q => hq q.archive⟩⟩
    | false =>
      simp only [Bool.false_eq_true, if_false]
      cases hq : args.archiveDependencies with
      | true =>
        simp only [if_true]
        have hask : AsksDeps args := ⟨hq, fun _ => ⟨ha, hs⟩⟩
        have hr := refused_deps (crt := crt) (elf := elf) (m := m) hask
        have hx := deps_say (crt := crt) (elf := elf) m hask (· - 1)
        refine ⟨fun h => hx.1 fun h' => h (hr.mpr h'), fun h => ?_⟩
        obtain ⟨ls, e, hy⟩ := hx.2 (hr.mp h)
        exact ⟨ls, e, fun _ => hy⟩
      | false =>
        simp only [Bool.false_eq_true, if_false]
        cases hfi : args.files with
        | true =>
          simp only [if_true]
          obtain ⟨S, hS⟩ := filesSummary_total hm args
          have ht := listing_says (crt := crt) (elf := elf) hm (by decide) (files_skeleton hm hS) (.files hf ha hs hq hfi hS)
            (fun h => by rw [h.2.2.2] at hfi; cases hfi)
          rw [hS]
          constructor
          · intro h
            exact ht.1 (Classical.byContradiction fun hn => h (.column (.files hf ha hs hq hfi hS) hn))
          · intro h
            apply ht.2
            cases h with
            | dot h => exact absurd h hd
            | noCrt h => have := h.1; rw [hq] at this; cases this
            | noElf h => have := h.1; rw [hq] at this; cases this
            | noSymbol h => have := h.2.2; rw [hs] at this; cases this
            | column hl hn =>
              cases hl with
              | archives _ h => rw [ha] at h; cases h
              | symbols _ _ h => rw [hs] at h; cases h
              | files _ _ _ _ _ h => rw [hS] at h; cases h; exact hn
            | summary _ h => have := h.2.2.2; rw [hfi] at this; cases this
        | false =>
          simp only [Bool.false_eq_true, if_false]
          have hask : AsksSummary args := ⟨ha, hs, hq, hfi⟩
          have ht := summary_says args
          constructor
          · intro h
            exact ht.1 (Classical.byContradiction fun hn => h (.summary hf hask hn))
          · intro h
            have hno : ¬ ∃ i, Selects (str "Memory Type/Section") sumColTitles args.sort i := by
              cases h with
              | dot h => exact absurd h hd
              | noCrt h => have := h.1; rw [hq] at this; cases this
              | noElf h => have := h.1; rw [hq] at this; cases this
              | noSymbol h => have := h.2.2; rw [hs] at this; cases this
              | column hl hn =>
                cases hl with
                | archives _ h => rw [ha] at h; cases h
                | symbols _ _ h => rw [hs] at h; cases h
                | files _ _ _ _ h => rw [hfi] at h; cases h
              | summary _ _ h => exact h
            obtain ⟨ls, e, hx⟩ := ht.2 hno
            exact ⟨ls, e, fun q => .summary hf hask (hx (q.summary hask).1 (q.summary hask).2)⟩

theorem refused_json {crt : Option Crt} {elf : Option ElfFile} {args : Args} {m : MemMap} (hf : args.format = str "json2") :
    Refused crt elf args m ↔ (AsksDeps args ∧ (crt = none ∨ elf = none)) ∨ (AsksSymbols args ∧ ¬ SymbolIn m args.archiveDetails) := by
  have hd : args.format ≠ str "dot" := by rw [hf]; decide
  have h3 : ¬ InTable args := by unfold InTable; rw [hf]; decide
  constructor
  · intro h
    cases h with
    | dot h => exact absurd h hd
    | noCrt h1 h2 => exact .inl ⟨h1, .inl h2⟩
    | noElf h1 h2 => exact .inl ⟨h1, .inr h2⟩
    | noSymbol h1 h2 => exact .inr ⟨h1, h2⟩
    | column hl =>
      cases hl with
      | archives h => exact absurd h h3
      | symbols h => exact absurd h h3
      | files h => exact absurd h h3
    | summary h => exact absurd h h3
  · rintro (⟨h1, h2 | h2⟩ | ⟨h1, h2⟩)
    · exact .noCrt h1 h2
    · exact .noElf h1 h2
    · exact .noSymbol h1 h2

theorem refused_other {crt : Option Crt} {elf : Option ElfFile} {args : Args} {m : MemMap} (hl : args.format ∉ [str "table", str "text", str "csv", str "json2"]) :
    Refused crt elf args m ↔ (args.format = str "dot" ∧ args.archiveDependencies = false) ∨ (args.archiveDependencies = true ∧ (crt = none ∨ elf = none)) := by
  have hi : ¬ InTable args := fun h => hl ((by decide : [str "table", str "text", str "csv"] ⊆ [str "table", str "text", str "csv", str "json2"]) h)
  constructor
  · intro h
    cases h with
    | dot h1 h2 => exact .inl ⟨h1, h2⟩
    | noCrt h1 h2 => exact .inr ⟨h1.1, .inl h2⟩
    | noElf h1 h2 => exact .inr ⟨h1.1, .inr h2⟩
    | noSymbol h => exact absurd h.1 hl
    | column hl =>
      cases hl with
      | archives h => exact absurd h hi
      | symbols h => exact absurd h hi
      | files h => exact absurd h hi
    | summary h => exact absurd h hi
  · rintro (⟨h1, h2⟩ | ⟨h1, h2 | h2⟩)
    · exact .dot h1 h2
    · exact .noCrt ⟨h1, fun h => absurd h hl⟩ h2
    · exact .noElf ⟨h1, fun h => absurd h hl⟩ h2

/-- **C113** `log.die` is called exactly if there is a reason not to print a report, and what it shows states that reason.  The names given by the user are
shown as they are if they do not look like markup; in a table of entries with `n` columns, the numbers that may be used are said to be `1..n-1` and `-n..-1`
(see `C113_wrong_range`), in the summary they are correct. -/
theorem C113_message_partial (crt : Option Crt) (elf : Option ElfFile) (args : Args) (hf : args.format ∈ formats) (m : MemMap) (hm : m.WF) :
    (¬ Refused crt elf args m → showSays crt elf args m = none) ∧
    (Refused crt elf args m → ∃ ls, showSays crt elf args m = some ls ∧ (Quotable args → Says (· - 1) crt elf args m (ls.map render))) := by
  unfold showSays
  by_cases h1 : args.format = str "table" ∨ args.format = str "text" ∨ args.format = str "csv"
  · rw [if_pos h1]
    exact select_says hm (by unfold InTable; simpa using h1)
  rw [if_neg h1]
  by_cases h2 : args.format = str "json2"
  · rw [if_pos h2]
    have hin := refused_json (crt := crt) (elf := elf) (m := m) h2
    have h4 : args.format ∈ [str "table", str "text", str "csv", str "json2"] := by rw [h2]; decide
    cases ha : args.archives with
    | true =>
      simp only [if_true]
      refine ⟨fun _ => trivial, fun h => ?_⟩
      rcases hin.mp h with ⟨h, _⟩ | ⟨h, _⟩
      · have := (h.2 h4).1; rw [ha] at this; cases this
      · have := h.2.1; rw [ha] at this; cases this
    | false =>
      simp only [Bool.false_eq_true, if_false]
      cases hs : truthy args.archiveDetails with
      | true =>
        simp only [if_true]
        have hask : AsksSymbols args := ⟨h4, ha, hs⟩
        have hsy := symbols_say (crt := crt) (elf := elf) hm hask (· - 1)
        refine ⟨fun h => (hsy.1 (Classical.byContradiction fun hn => h (.noSymbol hask hn))).1, fun h => ?_⟩
        have hno : ¬ SymbolIn m args.archiveDetails := by
          rcases hin.mp h with ⟨h, _⟩ | ⟨_, h⟩
          · have := (h.2 h4).2; rw [hs] at this; cases this
          · exact h
        obtain ⟨ls, e, hq⟩ := hsy.2 hno
        exact ⟨ls, e, fun q => hq q.archive⟩
      | false =>
        simp only [Bool.false_eq_true, if_false]
        cases hq : args.archiveDependencies with
        | true =>
          simp only [if_true]
          have hask : AsksDeps args := ⟨hq, fun _ => ⟨ha, hs⟩⟩
          have hr := refused_deps (crt := crt) (elf := elf) (m := m) hask
          have hx := deps_say (crt := crt) (elf := elf) m hask (· - 1)
          refine ⟨fun h => hx.1 fun h' => h (hr.mpr h'), fun h => ?_⟩
          obtain ⟨ls, e, hy⟩ := hx.2 (hr.mp h)
          exact ⟨ls, e, fun _ => hy⟩
        | false =>
          simp only [Bool.false_eq_true, if_false]
          refine ⟨fun _ => trivial, fun h => ?_⟩
          rcases hin.mp h with ⟨h, _⟩ | ⟨h, _⟩
          · have := h.1; rw [hq] at this; cases this
          · have := h.2.2; rw [hs] at this; cases this
  rw [if_neg h2]
  have hl : args.format ∉ [str "table", str "text", str "csv", str "json2"] := by
    intro h
    simp only [List.mem_cons, List.not_mem_nil, or_false] at h
    rcases h with h | h | h | h
    · exact h1 (.inl h)
    · exact h1 (.inr (.inl h))
    · exact h1 (.inr (.inr h))
    · exact h2 h
  have hin := refused_other (crt := crt) (elf := elf) (m := m) hl
  have deps : args.archiveDependencies = true → (¬ Refused crt elf args m → depsSay crt elf = none) ∧
      (Refused crt elf args m → ∃ ls, depsSay crt elf = some ls ∧ (Quotable args → Says (· - 1) crt elf args m (ls.map render))) := by
    intro hq
    have hask : AsksDeps args := ⟨hq, fun h => absurd h hl⟩
    have hr := refused_deps (crt := crt) (elf := elf) (m := m) hask
    have hx := deps_say (crt := crt) (elf := elf) m hask (· - 1)
    refine ⟨fun h => hx.1 fun h' => h (hr.mpr h'), fun h => ?_⟩
    obtain ⟨ls, e, hy⟩ := hx.2 (hr.mp h)
    exact ⟨ls, e, fun _ => hy⟩
  by_cases h3 : args.format = str "raw" ∨ args.format = str "tree"
  · rw [if_pos h3]
    cases hq : args.archiveDependencies with
    | true => simp only [if_true]; exact deps hq
    | false =>
      simp only [Bool.false_eq_true, if_false]
      refine ⟨fun _ => trivial, fun h => ?_⟩
      rcases hin.mp h with ⟨h, _⟩ | ⟨h, _⟩
      · rw [h] at h3; exact absurd h3 (by decide)
      · rw [hq] at h; cases h
  rw [if_neg h3]
  have h6 : args.format = str "dot" := by
    simp only [formats, List.mem_cons, List.not_mem_nil, or_false] at hf
    rcases hf with h | h | h | h | h | h | h
    · exact absurd (.inr (.inl h)) h1
    · exact absurd (.inl h) h1
    · exact absurd h h2
    · exact absurd (.inl h) h3
    · exact absurd (.inr (.inr h)) h1
    · exact absurd (.inr h) h3
    · exact h
  rw [if_pos h6]
  cases hq : args.archiveDependencies with
  | true => simp only [if_true]; exact deps hq
  | false =>
    simp only [Bool.false_eq_true, if_false]
    refine ⟨fun h => absurd (.dot h6 hq) h, fun _ => ⟨_, rfl, fun _ => ?_⟩⟩
    rw [List.map_cons, List.map_nil, shown_lit (by decide)]
    exact .dot h6 hq

/-- **C113** for a run: once everything is loaded, it ends with an error message exactly if `log.die` is called, unless what is needed for dependencies cannot
be read. -/
theorem C113_run_partial (zero : Str → Bool) (cwd : Str) (R : RunIn) (hord : SetOrder R.ord) (json : Str → Option JVal) (files : Str → Option (Except Err ElfFile))
    (input : Str) (args : Args) (hf : args.format ∈ formats) (mf : MapFile) (elf : Option ElfFile) (d : MemMap)
    (h : RunLoaded zero cwd R json files input (effectiveArgs args) mf elf d) (he : AsksDeps args → ∀ e, elf = some e → ∀ y, ¬ LinkedUnreadable e y) :
    (showSays mf.crt elf (effectiveArgs args) d = none → ∃ r, reportOf zero cwd R json files input args = some (.ok r)) ∧
    (∀ ls, showSays mf.crt elf (effectiveArgs args) d = some ls → reportOf zero cwd R json files input args = some (.error .exit) ∧
      (Quotable (effectiveArgs args) → Says (· - 1) mf.crt elf (effectiveArgs args) d (ls.map render))) := by
  obtain ⟨wd, hcrt, hrep⟩ := run_loaded h
  have hff : (effectiveArgs args).format ∈ formats := by rw [eff_eq]; exact hf
  have hask : AsksDeps (effectiveArgs args) → AsksDeps args := by rw [eff_eq]; exact id
  have hm := C113_message_partial mf.crt elf (effectiveArgs args) hff d wd
  have hs := C111_show R.F R.ord hord mf.crt hcrt elf (effectiveArgs args) hff d wd fun h => he (hask h)
  constructor
  · intro hn
    refine C111_report zero cwd R hord json files input args hf mf elf d h he fun hr => ?_
    obtain ⟨ls, e, _⟩ := hm.2 hr
    rw [hn] at e
    cases e
  · intro ls hls
    have hr : Refused mf.crt elf (effectiveArgs args) d := Classical.byContradiction fun hr => by
      rw [hm.1 hr] at hls
      cases hls
    obtain ⟨ls', e, hq⟩ := hm.2 hr
    rw [hls] at e
    cases e
    exact ⟨by rw [hrep, hs.1 hr], hq⟩

/-- **C113** the numbers that can be used for a table with `n` columns besides the first are `1..n` and `-n..-1`. -/
theorem C113_numbers (title : Str) (cols : List Str) (sort : Str) (k : Int) (hk : pyInt10 sort = some k) :
    (∃ i, Selects title cols sort i) ↔ (1 ≤ k ∧ k ≤ cols.length) ∨ (-cols.length ≤ k ∧ k ≤ -1) := by
  constructor
  · rintro ⟨i, hi, ⟨k', hk', h⟩ | ⟨h, _⟩⟩
    · rw [hk] at hk'
      cases hk'
      omega
    · rw [hk] at h
      cases h
  · rintro (h | h)
    · exact ⟨(k - 1).toNat, by omega, .inl ⟨k, hk, .inl (by omega)⟩⟩
    · exact ⟨(k + cols.length).toNat, by omega, .inl ⟨k, hk, .inr (by omega)⟩⟩

/-- **C113** the numbers that are said to be usable are not those that are: in a table of archives with three columns, column 3 is said to be out of range, yet it
can be used. -/
theorem C113_wrong_range :
    showSays none none { format := str "table", archives := true, sort := str "9" } exMapD =
      some [str "Column index 9 is out of range.", str "Please use 1..2 or -3..-1 range."] ∧
    showSays none none { format := str "table", archives := true, sort := str "3" } exMapD = none ∧
    ¬ Says id none none { format := str "table", archives := true, sort := str "9" } exMapD
      [str "Column index 9 is out of range.", str "Please use 1..2 or -3..-1 range."] := by
  refine ⟨by decide +kernel, by decide +kernel, ?_⟩
  intro h
  generalize hls : [str "Column index 9 is out of range.", str "Please use 1..2 or -3..-1 range."] = ls at h
  cases h with
  | dot h => revert h; decide
  | noCrt h => exact absurd h.1 (by decide)
  | noElf h => exact absurd h.1 (by decide)
  | noSymbol h => exact absurd h.2.1 (by decide)
  | summary _ h => exact absurd h.1 (by decide)
  | column hl hc =>
    cases hl with
    | symbols _ h => exact absurd h (by decide)
    | files _ h => exact absurd h (by decide)
    | archives _ _ hS =>
      have key : ∀ b, str "Please use 1..2 or -3..-1 range." ≠ str "Please use 1.." ++ intStr ((id (listedCols exMapD true b).length : Nat) : Int) ++ str " or " ++
          intStr (-(listedCols exMapD true b).length) ++ str "..-1 range." := by
        intro b
        cases b <;> decide +kernel
      cases hc with
      | unknown => simp at hls
      | first => simp at hls
      | range h1 h2 => exact key _ (List.cons.inj (List.cons.inj hls).2).1

/-- **C113** a name that looks like markup is not shown in a table of entries, but it is in the summary. -/
theorem C113_hidden_name :
    (showSays none none { format := str "table", archives := true, sort := str "[x]" } exMapD).map (·.map render) = some [str "Column \"\" not found"] ∧
    (showSays none none { format := str "table", sort := str "[x]" } exMapD).map (·.map render) = some [str "Column \"[x]\" not found"] := by
  exact ⟨by decide +kernel, by decide +kernel⟩

/-- **C113** `escape` doubles a backslash at the end, which is shown. -/
theorem C113_extra_backslash :
    (showSays none none { format := str "table", sort := str "x\\" } exMapD).map (·.map render) = some [str "Column \"x\\\\\" not found"] := by
  decide +kernel

/-- Names that can be quoted. -/
example : Quotable { archives := true, sort := str "operator[]", archiveDetails := some (str "libx.a") } :=
  ⟨fun a h => (by cases h; exact .of_noBracket (by decide)), fun _ => noMarkup_operator, fun h => absurd h.1 (by decide)⟩

example : Quotable { sort := str "[x]" } :=
  ⟨fun a h => (by cases h), fun h => absurd ⟨rfl, rfl, rfl, rfl⟩ h, fun _ => ⟨fun ⟨a, r, e⟩ =>
    absurd (show '\\' ∈ str "[x]" by rw [show str "[x]" = a ++ '\\' :: '[' :: r from e]; simp) (by decide), by decide⟩⟩

/-- All the messages. -/
example : showSays none none { format := str "dot" } exMapD = some [str "The DOT output format is available only for the --archive-dependencies option."] ∧
    showSays none none { format := str "raw", archiveDependencies := true } exMapD = some [str "The cross-reference table is not available."] ∧
    showSays (some exCrt) none { format := str "csv", archiveDependencies := true } exMapD =
      some [str "Displaying archives dependencies requires an ELF file to work properly."] ∧
    showSays none none { format := str "json2", archiveDetails := some (str "libq.a") } exMapD = some [str "Archive \"libq.a\" not found."] ∧
    showSays none none { format := str "csv", sort := str "0" } exMapD =
      some [str "Sorting based on column 0, which contains row description, is not supported."] ∧
    showSays none none { format := str "csv", sort := str "-5" } exMapD =
      some [str "Column index -5 is out of range.", str "Please use 1..4 or -4..-1 range."] := by
  refine ⟨by decide +kernel, by decide +kernel, by decide +kernel, by decide +kernel, by decide +kernel, by decide +kernel⟩

end EspSize
