import Verif.Props.TreeShow
/-! # C98: exactly when a CSV report of sizes is printed -/
namespace EspSize

theorem space_plain {c : Char} (h : isSpace c = true) : c ≠ '[' ∧ c ≠ ']' ∧ c ≠ '\\' ∧ tagStart c = false := by
  refine ⟨?_, ?_, ?_, ?_⟩
  · rintro rfl; revert h; decide
  · rintro rfl; revert h; decide
  · rintro rfl; revert h; decide
  · cases ht : tagStart c with
    | false => rfl
    | true =>
      unfold tagStart at ht
      simp only [Bool.or_eq_true, Bool.and_eq_true, decide_eq_true_eq] at ht
      rcases ht with ((⟨h1, h2⟩ | rfl) | rfl) | rfl
      · have h1 : 97 ≤ c.toNat := h1
        have h2 : c.toNat ≤ 122 := h2
        unfold isSpace at h
        simp only [Bool.or_eq_true, Bool.and_eq_true, decide_eq_true_eq] at h
        omega
      · revert h; decide
      · revert h; decide
      · revert h; decide

theorem body_blank {w : Str} (hw : Blank w) (t : Str) (h : tagBody (w ++ t) = none) : tagBody t = none := by
  induction w with
  | nil => exact h
  | cons c w ih =>
    obtain ⟨h1, h2, _⟩ := space_plain (hw c (by simp))
    rw [List.cons_append, tagBody_step h2 h1] at h
    refine ih (fun c hc => hw c (List.mem_cons_of_mem _ hc)) ?_
    cases hb : tagBody (w ++ t) with
    | none => rfl
    | some p => rw [hb] at h; cases h

theorem body_front {a b : Str} (h : tagBody (a ++ b) = none) : tagBody a = none := by
  induction a with
  | nil => rfl
  | cons c a ih =>
    by_cases h1 : c = ']'
    · subst h1; cases h
    · by_cases h2 : c = '['
      · subst h2; rfl
      · rw [List.cons_append, tagBody_step h1 h2] at h
        rw [tagBody_step h1 h2, ih (by
          cases hb : tagBody (a ++ b) with
          | none => rfl
          | some p => rw [hb] at h; cases h)]
        rfl

theorem body_both {a b : Str} (ha : tagBody a = none) (hb : tagBody b = none) : tagBody (a ++ b) = none := by
  induction a with
  | nil => exact hb
  | cons c a ih =>
    by_cases h1 : c = ']'
    · subst h1; cases ha
    · by_cases h2 : c = '['
      · subst h2; rfl
      · rw [tagBody_step h1 h2] at ha
        rw [List.cons_append, tagBody_step h1 h2, ih (by
          cases hb : tagBody a with
          | none => rfl
          | some p => rw [hb] at ha; cases ha)]
        rfl

theorem body_strip {c : Str} (h : tagBody c = none) : tagBody (strip c) = none := by
  obtain ⟨w, w', hw, _, e⟩ := strip_decomp c
  rw [e] at h
  exact body_front (body_blank hw _ h)

theorem apart_blank {c : Char} {w : Str} (hw : Blank (c :: w)) : StandsApart (c :: w) := by
  obtain ⟨h1, h2, h3, h4⟩ := space_plain (hw c (by simp))
  refine ⟨?_, by simp only [tagText, h4]; rfl, tagAt_plain h1 h3 w⟩
  have := body_append (a := c :: w) (t := []) (fun hm => (space_plain (hw _ hm)).2.1 rfl) rfl
  rwa [List.append_nil] at this

theorem neutral_blank {w : Str} (hw : Blank w) : Neutral w := fun c hc => ⟨(space_plain (hw c hc)).1, (space_plain (hw c hc)).2.2.1⟩

/-- Blanks around a text do not change whether it can be rendered. -/
theorem render_strip (norm : Str → Str) (s : Str) : renderE norm (strip s) ≠ none ↔ renderE norm s ≠ none := by
  obtain ⟨w, w', hw, hw', e⟩ := strip_decomp s
  have h1 : renderE norm (strip s ++ w') ≠ none ↔ renderE norm (strip s) ≠ none := by
    cases w' with
    | nil => rw [List.append_nil]
    | cons c w' => exact render_apart norm (apart_blank hw') (never_neutral norm (neutral_blank hw')) _
  have h2 : renderE norm (w ++ (strip s ++ w')) ≠ none ↔ renderE norm (strip s ++ w') ≠ none := by
    unfold renderE
    rw [tags_neutral (neutral_blank hw)]
    cases tags norm [] (strip s ++ w') <;> simp
  rw [← h1, ← h2, ← e]

theorem body_join : ∀ cs : List Str, (∀ c ∈ cs, tagBody c = none) → tagBody (joinWith [','] (cs.map quoteCell)) = none
  | [], _ => rfl
  | [c], h => body_append (a := ['"']) (by decide) (body_both (h c (by simp)) rfl)
  | c :: d :: cs, h => by
    have e : joinWith [','] ((c :: d :: cs).map quoteCell) = ['"'] ++ (c ++ (['"', ','] ++ joinWith [','] ((d :: cs).map quoteCell))) := by
      simp [joinWith, quoteCell]
    rw [e]
    exact body_append (by decide) (body_both (h c (by simp)) (body_append (by decide) (body_join (d :: cs) fun c hc => h c (List.mem_cons_of_mem _ hc))))

/-- A line whose cells after the first are numbers. -/
theorem line_iff (norm : Str → Str) (name : Str) (cells : List Str) (hb : ∀ c ∈ cells, tagBody c = none) (hq : ∀ c ∈ cells, QuietCell norm c) :
    renderE norm (joinWith [','] ((name :: cells).map quoteCell)) ≠ none ↔ renderE norm name ≠ none := by
  have hT : ∃ T, joinWith [','] ((name :: cells).map quoteCell) = '"' :: (name ++ '"' :: T) ∧ tagBody T = none ∧ ∀ o, ∃ o', tags norm o T = some o' := by
    cases cells with
    | nil => exact ⟨[], rfl, rfl, fun o => ⟨o, rfl⟩⟩
    | cons d ds =>
      refine ⟨',' :: joinWith [','] ((d :: ds).map quoteCell), by simp [joinWith, quoteCell], body_append (a := [',']) (by decide) (body_join _ hb), fun o => ?_⟩
      rw [tags_cons (tagAt_plain (by decide) (by decide) _)]
      exact quiet_join norm (d :: ds) hq o
  obtain ⟨T, e, hT, ho⟩ := hT
  have ha : StandsApart ('"' :: T) := ⟨body_append (a := ['"']) (by decide) hT, rfl, tagAt_plain (by decide) (by decide) T⟩
  unfold renderE
  rw [e, tags_cons (tagAt_plain (by decide) (by decide) _), tags_apart norm ha]
  cases tags norm [] name with
  | none => simp
  | some o =>
    obtain ⟨o', ho'⟩ := ho o
    simp only [Option.bind_some]
    rw [tags_cons (tagAt_plain (by decide) (by decide) _), ho']
    simp

/-- **C98** exactly when a CSV report of archives, files or symbols is printed completely: if the line of titles can be rendered, and each name for
itself. -/
theorem C98_csv_iff (norm : Str → Str) (R : RunIn) (crt : Option Crt) (elf : Option (List ElfSym)) (args : Args) (m : MemMap) (t : Table)
    (hd : args.archiveDependencies = false) (hs : (args.archives || truthy args.archiveDetails || args.files) = true) (h : selectTable R crt elf args m = .ok t) :
    (runCalls norm (csvCalls (csvLines t))).2 = true ↔
      renderE norm (joinWith [','] (t.headers.map quoteCell)) ≠ none ∧ ∀ r ∈ t.rows, ∀ name ∈ r.head?, renderE norm name ≠ none := by
  have hdet : ∃ title es, detailTable title es args = .ok t := by
    unfold selectTable at h
    rw [hd] at h
    cases ha : args.archives with
    | true =>
      rw [ha] at h
      simp only [if_true, getArchivesTable] at h
      obtain ⟨s, _, h⟩ := bind_ok h
      exact ⟨_, _, h⟩
    | false =>
      cases hdet : truthy args.archiveDetails with
      | true =>
        rw [ha, hdet] at h
        simp only [Bool.false_eq_true, if_false, if_true, getSymbolsTable] at h
        obtain ⟨s, _, h⟩ := bind_ok h
        exact ⟨_, _, h⟩
      | false =>
        rw [ha, hdet] at hs
        simp only [Bool.false_or] at hs
        rw [ha, hdet, hs] at h
        simp only [Bool.false_eq_true, if_false, if_true, getObjectFilesTable] at h
        obtain ⟨s, _, h⟩ := bind_ok h
        exact ⟨_, _, h⟩
  obtain ⟨title, es, hdet⟩ := hdet
  have hcell := detail_cells hdet
  have hm : ∀ s, (PrintCall.print s).run norm ≠ none ↔ renderE norm s ≠ none := by
    intro s
    simp only [PrintCall.run]
    cases renderE norm s <;> simp
  rw [runCalls_true]
  unfold csvCalls csvLines
  rw [map_all]
  simp only [hm, List.forall_mem_cons]
  refine and_congr Iff.rfl ?_
  rw [map_all]
  refine forall_congr' fun r => imp_congr_right fun hr => ?_
  cases r with
  | nil => exact absurd rfl (hcell _ hr).1
  | cons name cells =>
    have e : ((name :: cells).map fun c => quoteCell (strip c)) = (strip name :: cells.map strip).map quoteCell := by simp
    have key := line_iff norm (strip name) (cells.map strip)
      ((map_all (P := fun c => tagBody c = none) strip cells).mpr fun c hc => by
        rcases (hcell _ hr).2 c hc with rfl | ⟨z, d, b, rfl⟩
        · rfl
        · refine body_strip ?_
          have := body_colorDiff z d b (t := []) rfl
          rwa [List.append_nil] at this)
      ((map_all (P := fun c => QuietCell norm c) strip cells).mpr fun c hc => (detail_quiet norm hdet _ hr).2 c hc)
    rw [e, key, render_strip]
    simp

/-- A bracket left open by a name is not closed by a number behind it. -/
example : renderE id (joinWith [','] ([str "f[a", str "5[green]     +2[/green]"].map quoteCell)) ≠ none := by decide +kernel
/-- Two titles, each of which can be rendered, in a line that cannot. -/
theorem C98_csv_titles : renderE id (str "a[/") ≠ none ∧ renderE id (str "b]") ≠ none ∧ renderE id (joinWith [','] ([str "a[/", str "b]"].map quoteCell)) = none := by
  decide +kernel

end EspSize
