import Verif.Props.CsvShown
import Verif.Props.Percent
/-! # C98: exactly when the CSV report of the summary is printed -/
namespace EspSize

/-- The texts of percentages have no closing bracket. -/
structure FloatOps.Unclosed (F : FloatOps) : Prop where
  show2 : ∀ x, ']' ∉ F.show2 x
  pad2 : ∀ x, ']' ∉ F.pad2 x

theorem centi_unclosed (n : Nat) : ']' ∉ centiStr n := by
  unfold centiStr
  intro hc
  split at hc
  · rcases List.mem_append.mp hc with h | h
    · exact close_int _ h
    · rcases List.mem_cons.mp h with h | h
      · cases h
      · exact close_int _ h
  · rcases List.mem_append.mp hc with h | h
    · exact close_int _ h
    · rcases List.mem_cons.mp h with h | h
      · cases h
      · rcases List.mem_append.mp h with h | h
        · exact close_int _ h
        · exact close_int _ h

theorem show2_unclosed (x : Rat) : ']' ∉ show2 x := by
  unfold show2
  intro hc
  split at hc
  · rcases List.mem_cons.mp hc with h | h
    · cases h
    · exact centi_unclosed _ h
  · exact centi_unclosed _ hc

theorem pyFloat_unclosed : pyFloat.Unclosed where
  show2 := show2_unclosed
  pad2 := fun x h => by
    have h : ']' ∈ padLeft 6 (show2 x) := h
    unfold padLeft at h
    rcases List.mem_append.mp h with h | h
    · exact absurd (List.eq_of_mem_replicate h) (by decide)
    · exact show2_unclosed x h

theorem shut_colorPct {F : FloatOps} (hC : F.Unclosed) (p d : Rat) (b : Bool) : tagBody (strip (colorPct F p d b)) = none := by
  refine body_strip ?_
  have e : ∀ {a : Str}, ']' ∉ a → tagBody a = none := fun {a} h => by
    have := body_append (t := []) h rfl
    rwa [List.append_nil] at this
  unfold colorPct
  split
  · exact e (hC.show2 p)
  · split
    · simp only [List.append_assoc]; exact body_append (hC.show2 p) rfl
    · split
      · simp only [List.append_assoc]; exact body_append (hC.show2 p) rfl
      · simp only [List.append_assoc]
        exact body_append (hC.show2 p) (body_append (by decide) (e (hC.pad2 d)))

theorem shut_colorDiff (z d : Int) (b : Bool) : tagBody (strip (colorDiff z d b)) = none := by
  have := body_colorDiff z d b (t := []) rfl
  rw [List.append_nil] at this
  exact body_strip this

theorem shut_colorSize (z d : Int) (b : Bool) : tagBody (strip (colorSize z d b)) = none := by
  have := body_colorSize z d b (t := []) rfl
  rw [List.append_nil] at this
  exact body_strip this

theorem summary_shut {F : FloatOps} (hC : F.Unclosed) {m : MemMap} {args : Args} {t : Table} (h : getSummaryTable F m args = .ok t) :
    CellsAfterName (fun c => tagBody (strip c) = none) t := by
  unfold getSummaryTable at h
  obtain ⟨n, _, h⟩ := bind_ok h
  split at h
  · cases h
  · rename_i k _
    cases h
    have hnil : tagBody (strip []) = none := rfl
    have key : ∀ r ∈ summaryRows F args k (trim m args), r ≠ [] ∧ ∀ c ∈ r.tail, tagBody (strip c) = none := by
      intro r hr
      simp only [summaryRows, List.mem_flatMap, List.mem_cons, List.mem_map] at hr
      obtain ⟨ty, _, rfl | ⟨s, _, rfl⟩⟩ := hr
      · refine ⟨by simp [typeRow], fun c hc => ?_⟩
        simp only [typeRow, List.tail_cons, List.mem_cons] at hc
        rcases hc with rfl | hc
        · exact shut_colorDiff _ _ _
        · split at hc
          · simp only [List.mem_cons, List.not_mem_nil, or_false] at hc
            rcases hc with rfl | rfl | rfl
            · exact shut_colorPct hC _ _ _
            · exact shut_colorSize _ _ _
            · exact shut_colorSize _ _ _
          · simp only [List.mem_cons, List.not_mem_nil, or_false, or_self] at hc
            rw [hc]; exact hnil
      · refine ⟨by simp [secRow], fun c hc => ?_⟩
        simp only [secRow, List.tail_cons, List.mem_cons, List.not_mem_nil, or_false] at hc
        rcases hc with rfl | rfl | rfl | rfl
        · exact shut_colorDiff _ _ _
        · split
          · exact shut_colorPct hC _ _ _
          · exact hnil
        · exact hnil
        · exact hnil
    exact (fold_addRow (P := fun c => tagBody (strip c) = none) hnil _ key { headers := summaryHeaders, rows := [] } (by intro r hr; cases hr)).1

/-- **C98** exactly when the CSV report of the summary is printed completely: if each name can be rendered for itself. -/
theorem C98_csv_summary_iff (norm : Str → Str) (R : RunIn) (hF : R.F.Plain) (hC : R.F.Unclosed) (crt : Option Crt) (elf : Option (List ElfSym)) (args : Args) (m : MemMap)
    (t : Table) (hd : args.archiveDependencies = false) (hs : (args.archives || truthy args.archiveDetails || args.files) = false) (h : selectTable R crt elf args m = .ok t) :
    (runCalls norm (csvCalls (csvLines t))).2 = true ↔ ∀ r ∈ t.rows, ∀ name ∈ r.head?, renderE norm name ≠ none := by
  simp only [Bool.or_eq_false_iff] at hs
  obtain ⟨⟨ha, hdet⟩, hf⟩ := hs
  have hsum : getSummaryTable R.F m args = .ok t := by
    unfold selectTable at h
    rw [hd, ha, hdet, hf] at h
    exact h
  have hq := summary_quiet norm hF hsum
  have hb := summary_shut hC hsum
  have hm : ∀ s, (PrintCall.print s).run norm ≠ none ↔ renderE norm s ≠ none := by
    intro s
    simp only [PrintCall.run]
    cases renderE norm s <;> simp
  have hhead : renderE norm (joinWith [','] (t.headers.map quoteCell)) ≠ none := by
    obtain ⟨o, ho⟩ := quiet_join norm t.headers hq.2 []
    unfold renderE
    rw [ho]
    exact fun h => (by cases h)
  rw [runCalls_true]
  unfold csvCalls csvLines
  rw [map_all]
  simp only [hm, List.forall_mem_cons]
  rw [map_all]
  refine Iff.trans (and_iff_right hhead) (forall_congr' fun r => imp_congr_right fun hr => ?_)
  cases r with
  | nil => exact absurd rfl (hb _ hr).1
  | cons name cells =>
    have e : ((name :: cells).map fun c => quoteCell (strip c)) = (strip name :: cells.map strip).map quoteCell := by simp
    have key := line_iff norm (strip name) (cells.map strip)
      ((map_all (P := fun c => tagBody c = none) strip cells).mpr fun c hc => (hb _ hr).2 c hc)
      ((map_all (P := fun c => QuietCell norm c) strip cells).mpr fun c hc => (hq.1 _ hr).2 c hc)
    rw [e, key, render_strip]
    simp

/-- The floating-point numbers of Python satisfy the conditions. -/
example : pyFloat.Plain ∧ pyFloat.Unclosed := ⟨pyFloat_plain, pyFloat_unclosed⟩

end EspSize
