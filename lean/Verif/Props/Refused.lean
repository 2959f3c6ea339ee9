import Verif.Spec.Refused
import Verif.Props.RunErrors
/-! # C111: error messages instead of reports -/
namespace EspSize

theorem sortNumber_nil (title sort : Str) (ht : title ≠ str "Total Size") :
    (Sortable title [] true sort → ∃ n, sortNumber [title, str "Total Size"] sort = .ok n) ∧
    (¬ Sortable title [] true sort → sortNumber [title, str "Total Size"] sort = .error .exit) := by
  unfold Sortable sortNumber
  simp only [if_true]
  cases hk : pyInt10 sort with
  | some k =>
    have hs : sort ≠ str "Total Size" := by
      rintro rfl
      have h : pyInt10 (str "Total Size") = none := by decide
      rw [h] at hk
      cases hk
    constructor
    · rintro (⟨j, hj, h0⟩ | h)
      · cases hj
        exact ⟨k, if_neg h0⟩
      · exact absurd h hs
    · intro h
      by_cases h0 : k = 0
      · exact if_pos h0
      · exact absurd (.inl ⟨k, rfl, h0⟩) h
  | none =>
    simp only [List.findIdx?_cons, List.findIdx?_nil]
    by_cases h1 : title = sort
    · subst h1
      simp [ht]
    · by_cases h2 : str "Total Size" = sort
      · simp [h1, h2]
      · have h3 : ¬ sort = str "Total Size" := fun h => h2 h.symm
        simp [h1, h2, h3]

theorem detailTable_sortable {m : MemMap} (hm : m.WF) {title : Str} (ht : title ≠ str "Total Size") {F : Dict Str Entry}
    (hs : ∀ p ∈ F, Skeleton m p.2) (args : Args) :
    (Sortable title ((reportCols m).map (colTitle m args.abbrev_)) F.isEmpty args.sort → ∃ t, detailTable title F args = .ok t) ∧
    (¬ Sortable title ((reportCols m).map (colTitle m args.abbrev_)) F.isEmpty args.sort → detailTable title F args = .error .exit) := by
  cases F with
  | nil =>
    have h := sortNumber_nil title args.sort ht
    have hsort : ∀ c, Sortable title c (List.isEmpty ([] : Dict Str Entry)) args.sort = Sortable title [] true args.sort := fun _ => rfl
    rw [hsort]
    unfold detailTable getTableSorted
    constructor
    · intro hx
      obtain ⟨n, hn⟩ := h.1 hx
      simp only [List.append_nil, hn]
      exact ⟨_, rfl⟩
    · intro hx
      simp only [List.append_nil, h.2 hx]
      rfl
  | cons p F =>
    have h := detailTable_spec hm title (p :: F) (by simp) hs args
    constructor
    · rintro ⟨i, hi⟩
      obtain ⟨c, es, rows, _, hr, _⟩ := h.1 i hi
      exact ⟨_, hr⟩
    · exact h.2

theorem archives_skeleton {m : MemMap} (hm : m.WF) {args : Args} {S : Dict Str Entry} (h : getArchivesSummary m args = .ok S) :
    ∀ p ∈ getSummaryFiltered Entry.abb S args, Skeleton m p.2 := by
  obtain ⟨E, hE, inv⟩ := summarize_inv (mtWF_summaryTypes hm) _ (archRecs_ok hm)
  unfold getArchivesSummary at h
  simp only [hE, bind, Except.bind] at h
  cases h
  exact fun p hp => sumInv_skeleton inv p (filtered_mem hp)

theorem files_skeleton {m : MemMap} (hm : m.WF) {args : Args} {S : Dict Str Entry} (h : getObjectFilesSummary m args = .ok S) :
    ∀ p ∈ getSummaryFiltered Entry.abb S args, Skeleton m p.2 := by
  obtain ⟨E, hE, inv⟩ := summarize_inv (mtWF_summaryTypes hm) _ (objRecs_ok hm args.unify)
  unfold getObjectFilesSummary at h
  simp only [hE, bind, Except.bind] at h
  cases h
  exact fun p hp => sumInv_skeleton inv p (filtered_mem hp)

theorem symbols_skeleton {m : MemMap} (hm : m.WF) {args : Args} {S : Dict Str Entry} (h : getSymbolsSummary m args = .ok S) :
    ∀ p ∈ getSummaryFiltered Entry.abb S args, Skeleton m p.2 := by
  obtain ⟨E, hE, inv⟩ := summarize_inv (mtWF_summaryTypes hm) _ (symRecs_ok hm args.unify args.archiveDetails)
  unfold getSymbolsSummary at h
  simp only [hE, bind, Except.bind] at h
  split at h
  · cases h
  · cases h
    exact fun p hp => sumInv_skeleton inv p (filtered_mem hp)

/-- The summary of symbols, by whether there are any. -/
theorem symbols_found {m : MemMap} (hm : m.WF) (args : Args) :
    (SymbolIn m args.archiveDetails → ∃ S, getSymbolsSummary m args = .ok S) ∧
    (¬ SymbolIn m args.archiveDetails → getSymbolsSummary m args = .error .exit) := by
  obtain ⟨h1, h2⟩ := C13_symbols_summary_partial m hm args
  constructor
  · intro h
    obtain ⟨_, R, hR, _⟩ := h2 h
    exact ⟨R, hR⟩
  · exact h1.mpr

/-- The result is an error message if `p`, else a report. -/
def EndsWith {α : Type} (p : Prop) (r : Except Err α) : Prop := (p → r = .error .exit) ∧ (¬ p → ∃ t, r = .ok t)

theorem EndsWith.map {α β : Type} {p : Prop} {r : Except Err α} (h : EndsWith p r) (f : α → Except Err β) (hf : ∀ x, ∃ t, f x = .ok t) : EndsWith p (r >>= f) := by
  constructor
  · intro hp
    rw [h.1 hp]
    rfl
  · intro hp
    obtain ⟨t, ht⟩ := h.2 hp
    obtain ⟨u, hu⟩ := hf t
    rw [ht]
    exact ⟨u, hu⟩

theorem EndsWith.iff {α : Type} {p q : Prop} {r : Except Err α} (h : EndsWith p r) (e : q ↔ p) : EndsWith q r :=
  ⟨fun hq => h.1 (e.mp hq), fun hq => h.2 fun hp => hq (e.mpr hp)⟩

theorem EndsWith.never {α : Type} {p : Prop} {r : Except Err α} {t : α} (hp : ¬ p) (h : r = .ok t) : EndsWith p r :=
  ⟨fun h => absurd h hp, fun _ => ⟨t, h⟩⟩

/-- The dependencies. -/
theorem deps_end {ord : List Str → List Str} (hord : SetOrder ord) {crt : Option Crt} {m : MemMap} (hm : m.WF)
    (hcrt : ∀ c, crt = some c → KeysNodup c ∧ ∀ p ∈ c, p.2 ≠ []) {elf : Option ElfFile} {args : Args}
    (he : ∀ e, elf = some e → ∀ y, ¬ LinkedUnreadable e y) : EndsWith (crt = none ∨ elf = none) (dependenciesAt ord crt m elf args) := by
  cases crt with
  | none => exact ⟨fun _ => rfl, fun h => absurd (.inl rfl) h⟩
  | some c =>
    cases elf with
    | none =>
      obtain ⟨R, hR⟩ := archivesSummary_total hm args
      refine ⟨fun _ => ?_, fun h => absurd (.inr rfl) h⟩
      unfold dependenciesAt
      simp only [hR]
      rfl
    | some e =>
      refine ⟨(by rintro (h | h) <;> cases h), fun _ => ?_⟩
      cases hn : crtSymbolsAt e with
      | error x => exact absurd (crtSymbolsAt_only (he e rfl) x hn) id
      | ok names => exact dependenciesAt_total hord hm (hcrt c rfl) args hn

/-- The table. -/
theorem select_end {F : FloatOps} {D : Except Err Deps} {crt : Option Crt} {elf : Option ElfFile} {args : Args} {m : MemMap} (hm : m.WF)
    (hD : AsksDeps args → EndsWith (crt = none ∨ elf = none) D) (hf : InTable args) : EndsWith (Refused crt elf args m) (selectTableOf F D args m) := by
  have hd : args.format ≠ str "dot" := by
    intro h
    unfold InTable at hf
    rw [h] at hf
    revert hf
    decide
  have h4 : args.format ∈ [str "table", str "text", str "csv", str "json2"] :=
    (by decide : [str "table", str "text", str "csv"] ⊆ [str "table", str "text", str "csv", str "json2"]) hf
  unfold selectTableOf
  cases ha : args.archives with
  | true =>
    simp only [if_true]
    obtain ⟨S, hS⟩ := archivesSummary_total hm args
    have ht := detailTable_sortable hm (title := str "Archive File") (by decide) (archives_skeleton hm hS) args
    have hr : getArchivesTable m args = detailTable (str "Archive File") (getSummaryFiltered Entry.abb S args) args := by
      unfold getArchivesTable
      rw [hS]
      rfl
    rw [hr]
    constructor
    · intro h
      apply ht.2
      cases h with
      | dot h => exact absurd h hd
      | noCrt h => have := (h.2 h4).1; rw [ha] at this; cases this
      | noElf h => have := (h.2 h4).1; rw [ha] at this; cases this
      | noSymbol h => have := h.2.1; rw [ha] at this; cases this
      | column hl hn =>
        cases hl with
        | archives _ _ h => rw [hS] at h; cases h; exact hn
        | symbols _ h => rw [ha] at h; cases h
        | files _ h => rw [ha] at h; cases h
      | summary _ h => have := h.1; rw [ha] at this; cases this
    · intro h
      exact ht.1 (Classical.byContradiction fun hn => h (.column (.archives hf ha hS) hn))
  | false =>
    simp only [Bool.false_eq_true, if_false]
    cases hs : truthy args.archiveDetails with
    | true =>
      simp only [if_true]
      have hsy := symbols_found hm args
      by_cases hin : SymbolIn m args.archiveDetails
      · obtain ⟨S, hS⟩ := hsy.1 hin
        have ht := detailTable_sortable hm (title := str "Symbol") (by decide) (symbols_skeleton hm hS) args
        have hr : getSymbolsTable m args = detailTable (str "Symbol") (getSummaryFiltered Entry.abb S args) args := by
          unfold getSymbolsTable
          rw [hS]
          rfl
        rw [hr]
        constructor
        · intro h
          apply ht.2
          cases h with
          | dot h => exact absurd h hd
          | noCrt h => have := (h.2 h4).2; rw [hs] at this; cases this
          | noElf h => have := (h.2 h4).2; rw [hs] at this; cases this
          | noSymbol _ h => exact absurd hin h
          | column hl hn =>
            cases hl with
            | archives _ h => rw [ha] at h; cases h
            | symbols _ _ _ h => rw [hS] at h; cases h; exact hn
            | files _ _ h => rw [hs] at h; cases h
          | summary _ h => have := h.2.1; rw [hs] at this; cases this
        · intro h
          exact ht.1 (Classical.byContradiction fun hn => h (.column (.symbols hf ha hs hS) hn))
      · have hS := hsy.2 hin
        unfold getSymbolsTable
        rw [hS]
        exact ⟨fun _ => rfl, fun h => absurd (.noSymbol ⟨h4, ha, hs⟩ hin) h⟩
    | false =>
      simp only [Bool.false_eq_true, if_false]
      cases hq : args.archiveDependencies with
      | true =>
        simp only [if_true]
        have hask : AsksDeps args := ⟨hq, fun _ => ⟨ha, hs⟩⟩
        refine ((hD hask).map _ fun _ => ⟨_, rfl⟩).iff ⟨fun h => ?_, fun h => h.elim (.noCrt hask) (.noElf hask)⟩
        cases h with
        | dot h => exact absurd h hd
        | noCrt _ h => exact .inl h
        | noElf _ h => exact .inr h
        | noSymbol h => have := h.2.2; rw [hs] at this; cases this
        | column hl hn =>
          cases hl with
          | archives _ h => rw [ha] at h; cases h
          | symbols _ _ h => rw [hs] at h; cases h
          | files _ _ _ h => rw [hq] at h; cases h
        | summary _ h => have := h.2.2.1; rw [hq] at this; cases this
      | false =>
        simp only [Bool.false_eq_true, if_false]
        cases hfi : args.files with
        | true =>
          simp only [if_true]
          obtain ⟨S, hS⟩ := filesSummary_total hm args
          have ht := detailTable_sortable hm (title := str "Object File") (by decide) (files_skeleton hm hS) args
          have hr : getObjectFilesTable m args = detailTable (str "Object File") (getSummaryFiltered Entry.abb S args) args := by
            unfold getObjectFilesTable
            rw [hS]
            rfl
          rw [hr]
          constructor
          · intro h
            apply ht.2
            cases h with
            | dot h => exact absurd h hd
            | noCrt h => have := h.1; rw [hq] at this; cases this
            | noElf h => have := h.1; rw [hq] at this; cases this
            | noSymbol h => have := h.2.2; rw [hs] at this; cases this
            | column hl hn =>
              cases hl with
              | archives _ h => rw [ha] at h; cases h
              | symbols _ _ h => rw [hs] at h; cases h
              | files _ _ _ _ _ h => rw [hS] at h; cases h; exact hn
            | summary _ h => have := h.2.2.2; rw [hfi] at this; cases this
          · intro h
            exact ht.1 (Classical.byContradiction fun hn => h (.column (.files hf ha hs hq hfi hS) hn))
        | false =>
          simp only [Bool.false_eq_true, if_false]
          have ht := C40_summary_table_partial F m args
          constructor
          · intro h
            apply ht.2
            cases h with
            | dot h => exact absurd h hd
            | noCrt h => have := h.1; rw [hq] at this; cases this
            | noElf h => have := h.1; rw [hq] at this; cases this
            | noSymbol h => have := h.2.2; rw [hs] at this; cases this
            | column hl hn =>
              cases hl with
              | archives _ h => rw [ha] at h; cases h
              | symbols _ _ h => rw [hs] at h; cases h
              | files _ _ _ _ h => rw [hfi] at h; cases h
            | summary _ _ h => exact h
          · intro h
            have : ∃ i, Selects (str "Memory Type/Section") sumColTitles args.sort i :=
              Classical.byContradiction fun hn => h (.summary hf ⟨ha, hs, hq, hfi⟩ hn)
            obtain ⟨i, hi⟩ := this
            obtain ⟨rows, hr, _⟩ := ht.1 i hi
            exact ⟨_, hr⟩

/-- The JSON report. -/
theorem json_end {D : Except Err Deps} {crt : Option Crt} {elf : Option ElfFile} {args : Args} {m : MemMap} (hm : m.WF)
    (hD : AsksDeps args → EndsWith (crt = none ∨ elf = none) D) (hf : args.format = str "json2") : EndsWith (Refused crt elf args m) (showJsonOf D args m) := by
  have hd : args.format ≠ str "dot" := by rw [hf]; decide
  have h4 : args.format ∈ [str "table", str "text", str "csv", str "json2"] := by rw [hf]; decide
  have h3 : ¬ InTable args := by unfold InTable; rw [hf]; decide
  have hin : Refused crt elf args m ↔ (AsksDeps args ∧ (crt = none ∨ elf = none)) ∨ (AsksSymbols args ∧ ¬ SymbolIn m args.archiveDetails) := by
    constructor
    · intro h
      cases h with
      | dot h => exact absurd h hd
      | noCrt h1 h2 => exact .inl ⟨h1, .inl h2⟩
      | noElf h1 h2 => exact .inl ⟨h1, .inr h2⟩
      | noSymbol h1 h2 => exact .inr ⟨h1, h2⟩
      | column hl =>
        cases hl with
        | archives h => exact absurd h h3
        | symbols h => exact absurd h h3
        | files h => exact absurd h h3
      | summary h => exact absurd h h3
    · rintro (⟨h1, h2 | h2⟩ | ⟨h1, h2⟩)
      · exact .noCrt h1 h2
      · exact .noElf h1 h2
      · exact .noSymbol h1 h2
  unfold showJsonOf
  cases ha : args.archives with
  | true =>
    simp only [if_true]
    obtain ⟨S, hS⟩ := archivesSummary_total hm args
    rw [hS]
    refine .never (fun h => ?_) rfl
    rcases hin.mp h with ⟨h, _⟩ | ⟨h, _⟩
    · have := (h.2 h4).1; rw [ha] at this; cases this
    · have := h.2.1; rw [ha] at this; cases this
  | false =>
    simp only [Bool.false_eq_true, if_false]
    cases hs : truthy args.archiveDetails with
    | true =>
      simp only [if_true]
      have hsy := symbols_found hm args
      have hask : AsksSymbols args := ⟨h4, ha, hs⟩
      have he : EndsWith (¬ SymbolIn m args.archiveDetails) (getSymbolsSummary m args) :=
        ⟨hsy.2, fun h => hsy.1 (Classical.byContradiction h)⟩
      refine (he.map _ fun _ => ⟨_, rfl⟩).iff ⟨fun h => ?_, fun h => hin.mpr (.inr ⟨hask, h⟩)⟩
      rcases hin.mp h with ⟨h, _⟩ | ⟨_, h⟩
      · have := (h.2 h4).2; rw [hs] at this; cases this
      · exact h
    | false =>
      simp only [Bool.false_eq_true, if_false]
      have hns : ¬ AsksSymbols args := by
        intro h
        have := h.2.2
        rw [hs] at this
        cases this
      cases hq : args.archiveDependencies with
      | true =>
        simp only [if_true]
        have hask : AsksDeps args := ⟨hq, fun _ => ⟨ha, hs⟩⟩
        refine ((hD hask).map _ fun _ => ⟨_, rfl⟩).iff ⟨fun h => ?_, fun h => hin.mpr (.inl ⟨hask, h⟩)⟩
        rcases hin.mp h with ⟨_, h⟩ | ⟨h, _⟩
        · exact h
        · exact absurd h hns
      | false =>
        simp only [Bool.false_eq_true, if_false]
        have hno : ¬ Refused crt elf args m := by
          intro h
          rcases hin.mp h with ⟨h, _⟩ | ⟨h, _⟩
          · have := h.1; rw [hq] at this; cases this
          · exact hns h
        obtain ⟨S, hS⟩ := filesSummary_total hm args
        rw [hS]
        cases args.files with
        | true => exact .never hno rfl
        | false => exact .never hno rfl

/-- **C111** once the projects are loaded, the report is printed except for the reasons of `Refused`; then the program ends with an error message. -/
theorem C111_show (F : FloatOps) (ord : List Str → List Str) (hord : SetOrder ord) (crt : Option Crt) (hcrt : ∀ c, crt = some c → KeysNodup c ∧ ∀ p ∈ c, p.2 ≠ [])
    (elf : Option ElfFile) (args : Args) (hf : args.format ∈ formats) (m : MemMap) (hm : m.WF)
    (he : AsksDeps args → ∀ e, elf = some e → ∀ y, ¬ LinkedUnreadable e y) :
    (Refused crt elf args m → showOf F (dependenciesAt ord crt m elf args) args m = .error .exit) ∧
    (¬ Refused crt elf args m → ∃ r, showOf F (dependenciesAt ord crt m elf args) args m = .ok r) := by
  have hD : AsksDeps args → EndsWith (crt = none ∨ elf = none) (dependenciesAt ord crt m elf args) := fun h => deps_end hord hm hcrt (he h)
  generalize dependenciesAt ord crt m elf args = D at hD
  change EndsWith (Refused crt elf args m) (showOf F D args m)
  by_cases h1 : args.format = str "table" ∨ args.format = str "text"
  · have hi : InTable args := by
      unfold InTable
      rcases h1 with h | h <;> rw [h] <;> decide
    unfold showOf
    rw [if_pos h1]
    exact (select_end hm hD hi).map _ fun _ => ⟨_, rfl⟩
  unfold showOf
  rw [if_neg h1]
  by_cases h2 : args.format = str "json2"
  · rw [if_pos h2]
    exact json_end hm hD h2
  rw [if_neg h2]
  by_cases h4 : args.format = str "csv"
  · have hi : InTable args := by
      unfold InTable
      rw [h4]
      decide
    rw [if_neg (by rw [h4]; decide), if_pos h4]
    exact (select_end hm hD hi).map _ fun _ => ⟨_, rfl⟩
  -- the other formats
  have hl : args.format ∉ [str "table", str "text", str "csv", str "json2"] := by
    intro h
    simp only [List.mem_cons, List.not_mem_nil, or_false] at h
    rcases h with h | h | h | h
    · exact h1 (.inl h)
    · exact h1 (.inr h)
    · exact h4 h
    · exact h2 h
  have hi : ¬ InTable args := fun h => hl ((by decide : [str "table", str "text", str "csv"] ⊆ [str "table", str "text", str "csv", str "json2"]) h)
  have hin : Refused crt elf args m ↔ (args.format = str "dot" ∧ args.archiveDependencies = false) ∨ (args.archiveDependencies = true ∧ (crt = none ∨ elf = none)) := by
    constructor
    · intro h
      cases h with
      | dot h1 h2 => exact .inl ⟨h1, h2⟩
      | noCrt h1 h2 => exact .inr ⟨h1.1, .inl h2⟩
      | noElf h1 h2 => exact .inr ⟨h1.1, .inr h2⟩
      | noSymbol h => exact absurd h.1 hl
      | column hl =>
        cases hl with
        | archives h => exact absurd h hi
        | symbols h => exact absurd h hi
        | files h => exact absurd h hi
      | summary h => exact absurd h hi
    · rintro (⟨h1, h2⟩ | ⟨h1, h2 | h2⟩)
      · exact .dot h1 h2
      · exact .noCrt ⟨h1, fun h => absurd h hl⟩ h2
      · exact .noElf ⟨h1, fun h => absurd h hl⟩ h2
  have hask : args.archiveDependencies = true → AsksDeps args := fun h => ⟨h, fun h => absurd h hl⟩
  by_cases h3 : args.format = str "raw"
  · rw [if_pos h3]
    have hd : args.format ≠ str "dot" := by rw [h3]; decide
    cases hq : args.archiveDependencies with
    | true =>
      simp only [if_true]
      refine ((hD (hask hq)).map _ fun _ => ⟨_, rfl⟩).iff ⟨fun h => ?_, fun h => hin.mpr (.inr ⟨hq, h⟩)⟩
      rcases hin.mp h with ⟨h, _⟩ | ⟨_, h⟩
      · exact absurd h hd
      · exact h
    | false =>
      refine .never (fun h => ?_) rfl
      rcases hin.mp h with ⟨h, _⟩ | ⟨h, _⟩
      · exact absurd h hd
      · rw [hq] at h; cases h
  rw [if_neg h3, if_neg h4]
  by_cases h5 : args.format = str "tree"
  · rw [if_pos h5]
    have hd : args.format ≠ str "dot" := by rw [h5]; decide
    cases hq : args.archiveDependencies with
    | true =>
      simp only [if_true]
      refine ((hD (hask hq)).map _ fun _ => ⟨_, rfl⟩).iff ⟨fun h => ?_, fun h => hin.mpr (.inr ⟨hq, h⟩)⟩
      rcases hin.mp h with ⟨h, _⟩ | ⟨_, h⟩
      · exact absurd h hd
      · exact h
    | false =>
      refine .never (fun h => ?_) rfl
      rcases hin.mp h with ⟨h, _⟩ | ⟨h, _⟩
      · exact absurd h hd
      · rw [hq] at h; cases h
  rw [if_neg h5]
  have h6 : args.format = str "dot" := by
    simp only [formats, List.mem_cons, List.not_mem_nil, or_false] at hf
    rcases hf with h | h | h | h | h | h | h
    · exact absurd (.inr h) h1
    · exact absurd (.inl h) h1
    · exact absurd h h2
    · exact absurd h h3
    · exact absurd h h4
    · exact absurd h h5
    · exact h
  rw [if_pos h6]
  refine EndsWith.map ?_ _ fun _ => ⟨_, rfl⟩
  unfold showDotOf
  cases hq : args.archiveDependencies with
  | true =>
    simp only [Bool.not_true, Bool.false_eq_true, if_false]
    refine ((hD (hask hq)).map _ fun _ => ⟨_, rfl⟩).iff ⟨fun h => ?_, fun h => hin.mpr (.inr ⟨hq, h⟩)⟩
    rcases hin.mp h with ⟨_, h⟩ | ⟨_, h⟩
    · rw [hq] at h; cases h
    · exact h
  | false => exact ⟨fun _ => rfl, fun h => absurd (hin.mpr (.inl ⟨h6, hq⟩)) h⟩

/-- Before printing, a run is as described by `RunLoaded`. -/
theorem run_loaded {zero : Str → Bool} {cwd : Str} {R : RunIn} {json : Str → Option JVal} {files : Str → Option (Except Err ElfFile)} {input : Str} {args : Args}
    {mf : MapFile} {elf : Option ElfFile} {d : MemMap} (h : RunLoaded zero cwd R json files input (effectiveArgs args) mf elf d) :
    d.WF ∧ (∀ c, mf.crt = some c → KeysNodup c ∧ ∀ p ∈ c, p.2 ≠ []) ∧
    reportOf zero cwd R json files input args = some (showOf R.F (dependenciesAt R.ord mf.crt d elf (effectiveArgs args)) (effectiveArgs args) d) := by
  obtain ⟨h1, h2, m, ref, h3, h4, h5⟩ := h
  refine ⟨?_, fun c hc => loadMap_crt h1 hc, ?_⟩
  · have wr : ref.WF := by
      unfold referenceMap at h4
      split at h4
      · exact getOf_wf h4
      · cases h4; exact getOf_wf h3
    obtain ⟨d', hd, wd⟩ := prepare_total (args := effectiveArgs args) (getOf_wf h3) wr
    rw [h5] at hd
    cases hd
    exact wd
  · unfold reportOf
    simp only [h1, h2, h3, h4, h5]

/-- **C111** the same for runs: a project that can be loaded is shown except for the reasons of `Refused`. -/
theorem C111_report (zero : Str → Bool) (cwd : Str) (R : RunIn) (hord : SetOrder R.ord) (json : Str → Option JVal) (files : Str → Option (Except Err ElfFile))
    (input : Str) (args : Args) (hf : args.format ∈ formats) (mf : MapFile) (elf : Option ElfFile) (d : MemMap)
    (h : RunLoaded zero cwd R json files input (effectiveArgs args) mf elf d) (he : AsksDeps args → ∀ e, elf = some e → ∀ y, ¬ LinkedUnreadable e y)
    (hr : ¬ Refused mf.crt elf (effectiveArgs args) d) : ∃ r, reportOf zero cwd R json files input args = some (.ok r) := by
  obtain ⟨wd, hcrt, hrep⟩ := run_loaded h
  have hff : (effectiveArgs args).format ∈ formats := by rw [eff_eq]; exact hf
  have hask : AsksDeps (effectiveArgs args) → AsksDeps args := by rw [eff_eq]; exact id
  obtain ⟨r, h⟩ := (C111_show R.F R.ord hord mf.crt hcrt elf (effectiveArgs args) hff d wd fun h => he (hask h)).2 hr
  rw [hrep, h]
  exact ⟨r, rfl⟩

/-- What cannot be read for the dependencies is not a reason for an error message. -/
theorem linked_kind {e : ElfFile} {x : Err} (h : LinkedUnreadable e x) : x ∈ dwarfErrs := by
  rcases h with h | ⟨t, _, y, _, _, h⟩
  · exact (by decide : [Err.elf, .structError, .indexError] ⊆ dwarfErrs) (symbols_raises _ x h)
  · exact (by decide : [Err.indexError, .elf, .valueError, .unicode] ⊆ dwarfErrs) (stringAt_raises _ _ _ x h)

/-- Reasons if dependencies are shown. -/
theorem refused_deps {crt : Option Crt} {elf : Option ElfFile} {args : Args} {m : MemMap} (ha : AsksDeps args) : Refused crt elf args m ↔ crt = none ∨ elf = none := by
  have hin : InTable args → args.archives = false ∧ truthy args.archiveDetails = false := fun h =>
    ha.2 ((by decide : [str "table", str "text", str "csv"] ⊆ [str "table", str "text", str "csv", str "json2"]) h)
  constructor
  · intro h
    cases h with
    | dot _ h => rw [ha.1] at h; cases h
    | noCrt _ h => exact .inl h
    | noElf _ h => exact .inr h
    | noSymbol h => have := (ha.2 h.1).2; rw [h.2.2] at this; cases this
    | column hl =>
      cases hl with
      | archives h1 h2 => have := (hin h1).1; rw [h2] at this; cases this
      | symbols h1 _ h2 => have := (hin h1).2; rw [h2] at this; cases this
      | files _ _ _ h => rw [ha.1] at h; cases h
    | summary _ h => have := h.2.2.1; rw [ha.1] at this; cases this
  · exact fun h => h.elim (.noCrt ha) (.noElf ha)

theorem dependenciesAt_error {ord : List Str → List Str} {c : Crt} {m : MemMap} (hm : m.WF) {e : ElfFile} {args : Args} {x : Err} (hn : crtSymbolsAt e = .error x) :
    dependenciesAt ord (some c) m (some e) args = .error x := by
  obtain ⟨S, hS⟩ := archivesSummary_total hm args
  simp only [dependenciesAt, hS, filterCrtAt, hn, bind, Except.bind]

/-- Nothing that is needed for the dependencies is unreadable, if the names have been read. -/
theorem crtSymbolsAt_read {e : ElfFile} {names : List Str} (hn : crtSymbolsAt e = .ok names) (y : Err) : ¬ LinkedUnreadable e y := by
  unfold crtSymbolsAt at hn
  obtain ⟨t, ht, hn⟩ := bind_ok hn
  rintro (h | ⟨t', ht', s, hs, hl, h⟩)
  · rw [ht] at h
    cases h
  · rw [ht] at ht'
    cases ht'
    have hc : ((s.type = sttFunc || s.type = sttObject) && s.shndx ≠ shnAbs) = true := by
      simp only [Bool.and_eq_true, Bool.or_eq_true, decide_eq_true_eq, ne_eq, decide_not, Bool.not_eq_true', decide_eq_false_iff_not]
      rw [sym_type]
      exact ⟨hl.1.symm, hl.2⟩
    obtain ⟨z, hz⟩ := mapM_ok_all hn s (List.mem_filter.mpr ⟨hs, hc⟩)
    rw [h] at hz
    cases hz

/-- **C111** a run over any files ends with an error message instead of the report exactly if the projects are loaded and there is one of the reasons. -/
theorem C111_exit (zero : Str → Bool) (cwd : Str) (n long : Nat) (F : FloatOps) (ord : List Str → List Str) (hord : SetOrder ord) (fs : Files) (input : Str)
    (args : Args) (hf : args.format ∈ formats) :
    reportFiles zero cwd n long F ord fs input args = some (.error .exit) ↔
      ∃ mf elf d, RunLoaded zero cwd ⟨n, F, ord, worldOf long fs⟩ (loadJson fs) (fun p => (fs p).map (openElf long)) input (effectiveArgs args) mf elf d ∧
        Refused mf.crt elf (effectiveArgs args) d := by
  have hff : (effectiveArgs args).format ∈ formats := by rw [eff_eq]; exact hf
  have key : ∀ mf elf d, RunLoaded zero cwd ⟨n, F, ord, worldOf long fs⟩ (loadJson fs) (fun p => (fs p).map (openElf long)) input (effectiveArgs args) mf elf d →
      (reportFiles zero cwd n long F ord fs input args = some (.error .exit) ↔ Refused mf.crt elf (effectiveArgs args) d) := by
    intro mf elf d h
    obtain ⟨wd, hcrt, hrep⟩ := run_loaded h
    unfold reportFiles
    rw [hrep, Option.some.injEq]
    by_cases he : AsksDeps (effectiveArgs args) → ∀ e, elf = some e → ∀ y, ¬ LinkedUnreadable e y
    · have hs := C111_show F ord hord mf.crt hcrt elf (effectiveArgs args) hff d wd he
      refine ⟨fun h => Classical.byContradiction fun hn => ?_, hs.1⟩
      obtain ⟨r, hr⟩ := hs.2 hn
      rw [hr] at h
      cases h
    · have ha : AsksDeps (effectiveArgs args) := Classical.byContradiction fun hn => he fun h => absurd h hn
      rw [refused_deps ha]
      cases hc : mf.crt with
      | none =>
        refine ⟨fun _ => .inl rfl, fun _ => ?_⟩
        exact showOf_deps_error ha hff
      | some c =>
        obtain ⟨S, hS⟩ := archivesSummary_total wd (effectiveArgs args)
        cases elf with
        | none =>
          refine ⟨fun _ => .inr rfl, fun _ => ?_⟩
          unfold dependenciesAt
          simp only [hS]
          exact showOf_deps_error ha hff
        | some e =>
          constructor
          · intro h
            exfalso
            cases hn : crtSymbolsAt e with
            | error x =>
              have hx : x ∈ dwarfErrs := crtSymbolsAt_only (P := (· ∈ dwarfErrs)) (fun y hy => linked_kind hy) x hn
              rw [dependenciesAt_error wd hn, showOf_deps_error ha hff] at h
              cases h
              revert hx
              decide
            | ok names =>
              apply he
              intro _ e' he' y hy
              cases he'
              exact crtSymbolsAt_read hn y hy
          · rintro (h | h) <;> cases h
  constructor
  · intro h
    have hop : ∀ p y, (fs p).map (openElf long) = some (.error y) → y ≠ .exit := by
      intro p y hp
      obtain ⟨b, _, hb⟩ := Option.map_eq_some_iff.mp hp
      have := openElf_raises long b y hb
      rintro rfl
      revert this
      decide
    obtain ⟨hli, hch⟩ := files_raise fs
    have hget : ∀ fn ls ud mf, getOf zero n (worldOf long fs) (loadJson fs) (fun p => (fs p).map (openElf long)) fn ls ud mf ≠ some (.error .exit) := by
      intro fn ls ud mf hg
      cases C110_get_errors_partial _ _ _ _ _ _ _ _ _ (hli fn) hch _ hg with
      | expected h => revert h; decide
      | noAttr h => cases h
      | opened p _ hp => exact hop p _ hp rfl
      | unread _ _ _ _ _ _ h => have := unreadable_kind h; revert this; decide
    have hcopy := h
    unfold reportFiles reportOf at h
    simp only [] at h
    split at h
    · rename_i y hy
      cases h
      exact absurd (loadMap_raises _ _ (hli input) _ hy) (by decide)
    · rename_i mf hmf
      split at h
      · rename_i y hy
        cases h
        exact absurd rfl (getElfOf_only (P := (· ≠ .exit)) (.inl rfl) (by decide) (by decide) (fun _ _ _ => by decide) (fun p y _ hp _ => hop p y hp) _ hy)
      · rename_i elf helf
        split at h
        · cases h
        · rename_i y hy
          cases h
          exact absurd hy (hget _ _ _ _)
        · rename_i m hm
          split at h
          · cases h
          · rename_i y hy
            cases h
            unfold referenceMap at hy
            split at hy
            · exact absurd hy (hget _ _ _ _)
            · cases hy
          · rename_i ref href
            have wr : ref.WF := by
              unfold referenceMap at href
              split at href
              · exact getOf_wf href
              · cases href; exact getOf_wf hm
            obtain ⟨d, hd, _⟩ := prepare_total (args := effectiveArgs args) (getOf_wf hm) wr
            have hl : RunLoaded zero cwd ⟨n, F, ord, worldOf long fs⟩ (loadJson fs) (fun p => (fs p).map (openElf long)) input (effectiveArgs args) mf elf d :=
              ⟨hmf, helf, m, ref, hm, href, hd⟩
            exact ⟨mf, elf, d, hl, (key mf elf d hl).mp hcopy⟩
  · rintro ⟨mf, elf, d, hl, hr⟩
    exact (key mf elf d hl).mpr hr

/-- A run that prints a report has loaded the projects. -/
theorem loaded_of_ok {zero : Str → Bool} {cwd : Str} {R : RunIn} {json : Str → Option JVal} {files : Str → Option (Except Err ElfFile)} {input : Str} {args : Args} {r : Report}
    (h : reportOf zero cwd R json files input args = some (.ok r)) : ∃ mf elf d, RunLoaded zero cwd R json files input (effectiveArgs args) mf elf d := by
  unfold reportOf at h
  simp only [] at h
  split at h
  · cases h
  · rename_i mf hmf
    split at h
    · cases h
    · rename_i elf helf
      split at h
      · cases h
      · cases h
      · rename_i m hm
        split at h
        · cases h
        · cases h
        · rename_i ref href
          split at h
          · cases h
          · rename_i d hd
            exact ⟨mf, elf, d, hmf, helf, m, ref, hm, href, hd⟩

/-- **C111** conversely, if a report is printed, there is none of the reasons. -/
theorem C111_ok (zero : Str → Bool) (cwd : Str) (n long : Nat) (F : FloatOps) (ord : List Str → List Str) (hord : SetOrder ord) (fs : Files) (input : Str)
    (args : Args) (hf : args.format ∈ formats) (r : Report) (h : reportFiles zero cwd n long F ord fs input args = some (.ok r)) :
    ∃ mf elf d, RunLoaded zero cwd ⟨n, F, ord, worldOf long fs⟩ (loadJson fs) (fun p => (fs p).map (openElf long)) input (effectiveArgs args) mf elf d ∧
      ¬ Refused mf.crt elf (effectiveArgs args) d := by
  obtain ⟨mf, elf, d, hl⟩ := loaded_of_ok h
  refine ⟨mf, elf, d, hl, fun hr => ?_⟩
  have := (C111_exit zero cwd n long F ord hord fs input args hf).mpr ⟨mf, elf, d, hl, hr⟩
  rw [h] at this
  cases this

/-- **C111** with the default of `--sort`, the listings and the summary of a project that can be loaded are always shown. -/
theorem C111_default (zero : Str → Bool) (cwd : Str) (R : RunIn) (hord : SetOrder R.ord) (json : Str → Option JVal) (files : Str → Option (Except Err ElfFile))
    (input : Str) (args : Args) (hf : args.format ∈ formats) (hs : args.sort = str "1") (hq : args.archiveDependencies = false) (ht : truthy args.archiveDetails = false)
    (hd : args.format ≠ str "dot") (mf : MapFile) (elf : Option ElfFile) (d : MemMap)
    (h : RunLoaded zero cwd R json files input (effectiveArgs args) mf elf d) : ∃ r, reportOf zero cwd R json files input args = some (.ok r) := by
  have e1 : (effectiveArgs args).format = args.format := by rw [eff_eq]
  have e2 : (effectiveArgs args).sort = str "1" := by rw [eff_eq]; exact hs
  have e3 : (effectiveArgs args).archiveDependencies = false := by rw [eff_eq]; exact hq
  have e4 : truthy (effectiveArgs args).archiveDetails = false := by rw [eff_eq]; exact ht
  refine C111_report zero cwd R hord json files input args hf mf elf d h (fun ha => ?_) fun hr => ?_
  · have := ha.1
    rw [hq] at this
    cases this
  · have hone : pyInt10 (str "1") = some 1 := by decide
    cases hr with
    | dot h => rw [e1] at h; exact hd h
    | noCrt ha => have := ha.1; rw [e3] at this; cases this
    | noElf ha => have := ha.1; rw [e3] at this; cases this
    | noSymbol ha => have := ha.2.2; rw [e4] at this; cases this
    | column _ h =>
      apply h
      unfold Sortable
      rw [e2]
      split
      · exact .inl ⟨1, hone, by decide⟩
      · exact ⟨0, by simp [reportCols], .inl ⟨1, hone, .inl rfl⟩⟩
    | summary _ _ h => exact h ⟨0, by decide, .inl ⟨1, by rw [e2]; exact hone, .inl rfl⟩⟩

/-! ### Examples -/

/-- The project of `C110_witness` is loaded; its summary is shown. -/
example : ∃ mf elf d, RunLoaded (fun _ => false) (str "/") exFilesRun (exJson (exDesc [])) (exLazyFiles 4) (str "/b/x.map") (effectiveArgs { format := str "json2" }) mf elf d := by
  obtain ⟨⟨r, h⟩, _⟩ := C110_witness
  exact loaded_of_ok h

/-- The reasons: the format `dot`, an archive without symbols, a column that does not exist, dependencies without ELF file. -/
theorem C111_witness :
    reportOf (fun _ => false) (str "/") exFilesRun (exJson (exDesc [])) (exLazyFiles 4) (str "/b/x.map") { format := str "dot" } = some (.error .exit) ∧
    reportOf (fun _ => false) (str "/") exFilesRun (exJson (exDesc [])) (fun _ => none) (str "/b/x.map") { format := str "json2", archiveDetails := some (str "libx.a") } = some (.error .exit) ∧
    reportOf (fun _ => false) (str "/") exFilesRun (exJson (exDesc [])) (exLazyFiles 4) (str "/b/x.map") { format := str "csv", sort := str "99" } = some (.error .exit) ∧
    reportOf (fun _ => false) (str "/") exFilesRun (exJson (exDesc [])) (fun _ => none) (str "/b/x.map") { format := str "json2", archiveDependencies := true } = some (.error .exit) := by
  refine ⟨by decide +kernel, by decide +kernel, by decide +kernel, by decide +kernel⟩

/-- A column that does not exist is accepted if there is no row. -/
example : (match reportOf (fun _ => false) (str "/") exFilesRun (exJson (exDesc [])) (exLazyFiles 4) (str "/b/x.map")
    { format := str "csv", files := true, sort := str "99" } with | some (.ok _) => true | _ => false) = true := by decide +kernel

end EspSize
