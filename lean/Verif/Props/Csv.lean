import Verif.Spec.Csv
import Verif.Proofs.Fmt
import Verif.Proofs.Markup
import Verif.Props.SummaryTable
import Verif.Props.GetTotals
/-! # C41: CSV output; C64: names are shown verbatim -/
namespace EspSize

/-! ## Rendering -/

theorem tagBody_len {s b r : Str} (h : tagBody s = some (b, r)) : r.length < s.length := by
  induction s generalizing b with
  | nil => simp [tagBody] at h
  | cons c t ih =>
    unfold tagBody at h
    split at h
    · cases ‹_ = _›
    · rename_i heq; cases heq; cases h; simp
    · cases h
    · rename_i heq
      cases heq
      cases hb : tagBody t with
      | none => rw [hb] at h; cases h
      | some p =>
        rw [hb] at h; cases h
        have := ih hb
        simp only [List.length_cons]; omega

theorem tagText_len {s b r : Str} (h : tagText s = some (b, r)) : r.length < s.length := by
  cases s with
  | nil => simp [tagText] at h
  | cons c t =>
    simp only [tagText] at h
    split at h
    · cases hb : tagBody t with
      | none => rw [hb] at h; cases h
      | some p =>
        rw [hb] at h; cases h
        have := tagBody_len hb
        simp only [List.length_cons]; omega
    · cases h

theorem tagAt_len {s b r : Str} {k : Nat} (h : tagAt s = some (k, b, r)) : r.length < s.length := by
  induction s generalizing k with
  | nil => simp [tagAt] at h
  | cons c t ih =>
    unfold tagAt at h
    split at h
    · rename_i heq
      cases heq
      cases hb : tagAt t with
      | none => rw [hb] at h; cases h
      | some p =>
        obtain ⟨k', b', r'⟩ := p
        rw [hb] at h; cases h
        have := ih hb
        simp only [List.length_cons]; omega
    · rename_i heq
      cases heq
      cases hb : tagText t with
      | none => rw [hb] at h; cases h
      | some p =>
        rw [hb] at h; cases h
        have := tagText_len hb
        simp only [List.length_cons]; omega
    · cases h

theorem renderN_fuel (n m : Nat) (s : Str) (hn : s.length ≤ n) (hm : s.length ≤ m) : renderN n s = renderN m s := by
  induction n generalizing m s with
  | zero =>
    have : s = [] := List.eq_nil_of_length_eq_zero (by omega)
    subst this
    cases m <;> rfl
  | succ n ih =>
    cases m with
    | zero =>
      have : s = [] := List.eq_nil_of_length_eq_zero (by omega)
      subst this; rfl
    | succ m =>
      unfold renderN
      split
      · rename_i k tag rest h
        have := tagAt_len h
        rw [ih m rest (by omega) (by omega)]
      · split
        · rfl
        · simp only [List.length_cons] at hn hm
          rw [ih m _ (by omega) (by omega)]
        · simp only [List.length_cons] at hn hm
          rw [ih m _ (by omega) (by omega)]

/-- Ordinary characters are shown. -/
theorem render_cons {c : Char} (h1 : c ≠ '[') (h2 : c ≠ '\\') (t : Str) : render (c :: t) = c :: render t := by
  show renderN (t.length + 1) (c :: t) = _
  unfold renderN
  have : tagAt (c :: t) = none := by
    unfold tagAt
    split
    · rename_i heq; cases heq; exact absurd rfl h2
    · rename_i heq; cases heq; exact absurd rfl h1
    · rfl
  rw [this]
  simp only
  split
  · rename_i heq; cases heq
  · rename_i heq; cases heq; exact absurd rfl h2
  · rename_i heq; cases heq; rfl

/-- No character with a meaning in markup. -/
def Neutral (s : Str) : Prop := ∀ c ∈ s, c ≠ '[' ∧ c ≠ '\\'

theorem render_neutral {s : Str} (h : Neutral s) (t : Str) : render (s ++ t) = s ++ render t := by
  induction s with
  | nil => rfl
  | cons c s ih =>
    rw [List.cons_append, render_cons (h c (by simp)).1 (h c (by simp)).2, ih fun x hx => h x (by simp [hx])]
    rfl

theorem render_nil : render [] = [] := rfl

/-- A tag is not shown. -/
theorem render_tag {tag rest : Str} (t : Str) (h : tagText t = some (tag, rest)) : render ('[' :: t) = render rest := by
  have hat : tagAt ('[' :: t) = some (0, tag, rest) := by
    show (tagText t).map (fun x => (0, x)) = _
    rw [h]; rfl
  have hl := tagAt_len hat
  show renderN (t.length + 1) ('[' :: t) = renderN rest.length rest
  conv => lhs; unfold renderN
  rw [hat]
  simp only [Nat.zero_div, List.replicate_zero, Nat.zero_mod, List.nil_append]
  rw [if_neg (by decide), List.nil_append]
  simp only [List.length_cons] at hl
  exact renderN_fuel t.length rest.length rest (by omega) (Nat.le_refl _)

/-- Rendering a cell does not depend on what follows its closing quote. -/
def TidyCell (s : Str) : Prop := ∀ t, render (s ++ '"' :: t) = render s ++ '"' :: render t

theorem tagAt_noBracket {s : Str} (h : '[' ∉ s) {q : Char} (h1 : q ≠ '[') (h2 : q ≠ '\\') (t : Str) :
    tagAt (s ++ q :: t) = none := by
  induction s with
  | nil =>
    unfold tagAt
    split
    · rename_i heq; cases heq; exact absurd rfl h2
    · rename_i heq; cases heq; exact absurd rfl h1
    · rfl
  | cons c s ih =>
    have hs : '[' ∉ s := fun hx => h (by simp [hx])
    have hc : c ≠ '[' := fun hx => h (by simp [hx])
    rw [List.cons_append]
    unfold tagAt
    split
    · rename_i heq
      injection heq with _ heq
      subst heq
      rw [ih hs]; rfl
    · rename_i heq; cases heq; exact absurd rfl hc
    · rfl

theorem tagAt_noBracket' {s : Str} (h : '[' ∉ s) : tagAt s = none := by
  induction s with
  | nil => rfl
  | cons c s ih =>
    have hs : '[' ∉ s := fun hx => h (by simp [hx])
    have hc : c ≠ '[' := fun hx => h (by simp [hx])
    unfold tagAt
    split
    · rename_i heq
      cases heq
      rw [ih hs]; rfl
    · rename_i heq; cases heq; exact absurd rfl hc
    · rfl

theorem renderN_noBracket (n : Nat) (s : Str) (h : '[' ∉ s) : renderN n s = s := by
  induction n generalizing s with
  | zero => rfl
  | succ n ih =>
    unfold renderN
    rw [tagAt_noBracket' h]
    simp only
    split
    · rfl
    · exact absurd (by simp) h
    · rw [ih _ fun hx => h (by simp [hx])]

/-- **C64** (partial) a name without `[` is shown verbatim. -/
theorem C64_verbatim_partial (s : Str) (h : '[' ∉ s) : render s = s := renderN_noBracket _ s h

/-- Text without `[` before a character that is neither a bracket nor a backslash. -/
theorem render_before {s : Str} (h : '[' ∉ s) {q : Char} (h1 : q ≠ '[') (h2 : q ≠ '\\') (t : Str) :
    render (s ++ q :: t) = s ++ q :: render t := by
  induction s with
  | nil => rw [List.nil_append, render_cons h1 h2]; rfl
  | cons c s ih =>
    have hs : '[' ∉ s := fun hx => h (by simp [hx])
    have hc : c ≠ '[' := fun hx => h (by simp [hx])
    by_cases hb : c = '\\'
    · subst hb
      show renderN ((s ++ q :: t).length + 1) ('\\' :: (s ++ q :: t)) = _
      unfold renderN
      have := tagAt_noBracket h h1 h2 t
      rw [List.cons_append] at this
      rw [this]
      simp only
      split
      · rename_i heq; cases heq
      · rename_i heq
        exfalso
        injection heq with _ heq
        cases s with
        | nil => injection heq with h' _; exact h1 h'
        | cons d s => injection heq with h1 _; exact hs (by simp [h1])
      · rename_i heq
        cases heq
        show '\\' :: render (s ++ q :: t) = _
        rw [ih hs]; rfl
    · rw [List.cons_append, render_cons hc hb, ih hs]; rfl

theorem tidy_noBracket {s : Str} (h : '[' ∉ s) : TidyCell s := by
  intro t
  rw [C64_verbatim_partial s h]
  exact render_before h (by decide) (by decide) t

/-- Text without markup before a character that cannot begin a tag. -/
theorem render_noMarkup {s : Str} (h : NoMarkup s) {q : Char} (h1 : q ≠ '[') (h2 : q ≠ '\\') (h3 : tagStart q = false) (t : Str) :
    render (s ++ q :: t) = s ++ q :: render t := by
  induction s with
  | nil => rw [List.nil_append, render_cons h1 h2]; rfl
  | cons c s ih =>
    have ht := tagAt_noMarkup h h1 h2 h3 t
    rw [List.cons_append] at ht ⊢
    show renderN ((s ++ q :: t).length + 1) (c :: (s ++ q :: t)) = _
    unfold renderN
    rw [ht]
    simp only
    split
    · rename_i heq; cases heq
    · rename_i heq
      exfalso
      injection heq with hc heq
      cases s with
      | nil => injection heq with h' _; exact h1 h'
      | cons d s =>
        injection heq with h' _
        exact h.escape ⟨[], s, by rw [hc, h']; rfl⟩
    · rename_i heq
      cases heq
      show c :: render (s ++ q :: t) = _
      rw [ih h.tail]; rfl

theorem tidy_noMarkup {s : Str} (h : NoMarkup s) : TidyCell s := by
  intro t
  rw [h.shown]
  exact render_noMarkup h (by decide) (by decide) (by decide) t

theorem NoMarkup.strip {s : Str} (h : NoMarkup s) : NoMarkup (EspSize.strip s) := by
  obtain ⟨w, w', _, h2, hs⟩ := strip_decomp s
  rw [hs] at h
  refine NoMarkup.prefix (w := w') ?_ (h.suffix w)
  intro hm
  have := h2 _ hm
  revert this
  decide

theorem plain_lit {s : Str} (h : '[' ∉ s ∧ '"' ∉ s) : PlainName s := ⟨.of_noBracket h.1, h.2⟩

/-! ## Reading -/

theorem step_cell (s : Str) (h : '"' ∉ s) (st : CsvSt) (hp : st.pos = .quoted) :
    s.foldl CsvSt.step st = { st with cur := st.cur ++ s } := by
  induction s generalizing st with
  | nil => simp
  | cons c t ih =>
    have hc : c ≠ '"' := fun hx => h (by simp [hx])
    have h1 : st.step c = { st with cur := st.cur ++ [c] } := by
      unfold CsvSt.step
      rw [hp]
      simp only [hc, if_false, CsvSt.put]
    rw [List.foldl_cons, h1, ih (fun hx => h (by simp [hx])) { st with cur := st.cur ++ [c] } hp]
    simp

theorem step_quoteCell (s : Str) (h : '"' ∉ s) (st : CsvSt) (hp : st.pos = .record ∨ st.pos = .field)
    (hc : st.cur = []) : (quoteCell s).foldl CsvSt.step st = { st with pos := .quote, cur := s } := by
  unfold quoteCell
  have h1 : st.step '"' = { st with pos := .quoted } := by
    unfold CsvSt.step
    rcases hp with hp | hp <;> rw [hp] <;> rfl
  rw [List.cons_append, List.foldl_cons, h1, List.foldl_append, step_cell s h _ rfl]
  simp [CsvSt.step, hc]

theorem step_line (r : List Str) (hr : r ≠ []) (h : ∀ c ∈ r, '"' ∉ c) (st : CsvSt)
    (hp : st.pos = .record ∨ st.pos = .field) (hc : st.cur = []) :
    (joinWith [','] (r.map quoteCell) ++ ['\n']).foldl CsvSt.step st =
      { pos := .record, cur := [], row := [], out := st.out ++ [st.row ++ r] } := by
  induction r generalizing st with
  | nil => exact absurd rfl hr
  | cons x t ih =>
    have hx := step_quoteCell x (h x (by simp)) st hp hc
    cases t with
    | nil =>
      simp only [List.map_cons, List.map_nil, joinWith, List.foldl_append, hx]
      rfl
    | cons y t =>
      have hj : joinWith [','] ((x :: y :: t).map quoteCell) =
          quoteCell x ++ [','] ++ joinWith [','] ((y :: t).map quoteCell) := rfl
      rw [hj, List.append_assoc, List.append_assoc, List.foldl_append, hx, List.foldl_append,
        ih (by simp) (fun c hc' => h c (by simp [hc'])) _ (Or.inr rfl) rfl]
      simp [CsvSt.step, CsvSt.endField]

/-- Quoted cells without quotes are read back. -/
theorem csvRead_lines (rows : List (List Str)) (hr : ∀ r ∈ rows, r ≠ []) (h : ∀ r ∈ rows, ∀ c ∈ r, '"' ∉ c) :
    csvRead (rows.flatMap fun r => joinWith [','] (r.map quoteCell) ++ ['\n']) = rows := by
  have key : ∀ (rows : List (List Str)) (out : List (List Str)), (∀ r ∈ rows, r ≠ []) →
      (∀ r ∈ rows, ∀ c ∈ r, '"' ∉ c) →
      (rows.flatMap fun r => joinWith [','] (r.map quoteCell) ++ ['\n']).foldl CsvSt.step { out := out } =
        { out := out ++ rows } := by
    intro rows
    induction rows with
    | nil => intro out _ _; simp
    | cons r t ih =>
      intro out hr h
      rw [List.flatMap_cons, List.foldl_append,
        step_line r (hr r (by simp)) (h r (by simp)) _ (Or.inl rfl) rfl]
      have := ih (out ++ [r]) (fun x hx => hr x (by simp [hx])) (fun x hx => h x (by simp [hx]))
      simp only [List.append_assoc, List.singleton_append] at this
      exact this
  unfold csvRead
  rw [key rows [] hr h]
  simp

/-! ## Rendered lines -/

theorem render_line (r : List Str) (h : ∀ c ∈ r, TidyCell c) :
    render (joinWith [','] (r.map quoteCell)) = joinWith [','] ((r.map render).map quoteCell) := by
  have hq : ∀ c, TidyCell c → ∀ t, render (quoteCell c ++ t) = quoteCell (render c) ++ render t := by
    intro c hc t
    unfold quoteCell
    rw [List.cons_append, List.cons_append, render_cons (by decide) (by decide), List.append_assoc,
      List.singleton_append, hc t]
    simp
  induction r with
  | nil => rfl
  | cons x t ih =>
    cases t with
    | nil =>
      have := hq x (h x (by simp)) []
      simp only [List.append_nil] at this
      simp only [List.map_cons, List.map_nil, joinWith, this, render_nil, List.append_nil]
    | cons y t =>
      have hj : joinWith [','] ((x :: y :: t).map quoteCell) =
          quoteCell x ++ (',' :: joinWith [','] ((y :: t).map quoteCell)) := by
        show quoteCell x ++ [','] ++ _ = _
        rw [List.append_assoc]; rfl
      rw [hj, hq x (h x (by simp)), render_cons (by decide) (by decide), ih fun c hc => h c (by simp [hc])]
      show _ = quoteCell (render x) ++ [','] ++ joinWith [','] (((y :: t).map render).map quoteCell)
      rw [List.append_assoc]; rfl

/-- **C41** (partial) a CSV reader gets back the cells as they are shown, if they contain no quote and no
markup reaching over the end of a cell. -/
theorem C41_csv_read_partial (t : Table) (hh : t.headers ≠ []) (hr : ∀ r ∈ t.rows, r ≠ [])
    (h1 : ∀ c ∈ t.headers, TidyCell c ∧ '"' ∉ render c)
    (h2 : ∀ r ∈ t.rows, ∀ c ∈ r, TidyCell (strip c) ∧ '"' ∉ render (strip c)) :
    csvRead (printed (csvLines t)) = t.headers.map render :: t.rows.map fun r => r.map fun c => render (strip c) := by
  have hp : printed (csvLines t) = (t.headers.map render :: t.rows.map fun r => r.map fun c => render (strip c)).flatMap
      fun r => joinWith [','] (r.map quoteCell) ++ ['\n'] := by
    unfold printed csvLines
    rw [List.flatMap_cons, List.flatMap_cons, render_line _ fun c hc => (h1 c hc).1]
    congr 1
    rw [List.flatMap_map, List.flatMap_map, List.flatMap_def, List.flatMap_def]
    congr 1
    refine List.map_congr_left ?_
    intro r hr'
    have := render_line (r.map strip) (by
      intro c hc
      obtain ⟨d, hd, rfl⟩ := List.mem_map.mp hc
      exact (h2 r hr' d hd).1)
    simp only [List.map_map] at this
    simp only [List.map_map]
    show render (joinWith [','] (r.map fun c => quoteCell (strip c))) ++ _ = _
    rw [show (fun c => quoteCell (strip c)) = quoteCell ∘ strip from rfl, this]
    rfl
  rw [hp, csvRead_lines]
  · intro r hr'
    rcases List.mem_cons.mp hr' with rfl | hr'
    · simpa using hh
    · obtain ⟨x, hx, rfl⟩ := List.mem_map.mp hr'
      simpa using hr x hx
  · intro r hr' c hc
    rcases List.mem_cons.mp hr' with rfl | hr'
    · obtain ⟨d, hd, rfl⟩ := List.mem_map.mp hc
      exact (h1 d hd).2
    · obtain ⟨x, hx, rfl⟩ := List.mem_map.mp hr'
      obtain ⟨d, hd, rfl⟩ := List.mem_map.mp hc
      exact (h2 x hx d hd).2

/-- The titles of the summary table are its headers as shown. -/
theorem summaryTitles_shown : summaryHeaders.map render = summaryTitles := by decide +kernel

/-! ## The cells of the tables -/

theorem numChar_neutral {c : Char} (h : NumChar c) : c ≠ '[' ∧ c ≠ '\\' ∧ c ≠ '"' := by
  rcases h with h | rfl
  · refine ⟨?_, ?_, ?_⟩ <;> (rintro rfl; revert h; decide)
  · decide

theorem intStr_neutral (i : Int) : Neutral (intStr i) := fun c hc =>
  ⟨(numChar_neutral (intStr_chars i c hc)).1, (numChar_neutral (intStr_chars i c hc)).2.1⟩

theorem signed_chars (i : Int) : ∀ c ∈ (if i < 0 then intStr i else '+' :: intStr i), NumChar c ∨ c = '+' := by
  intro c hc
  split at hc
  · exact Or.inl (intStr_chars i c hc)
  · rcases List.mem_cons.mp hc with rfl | hc
    · exact Or.inr rfl
    · exact Or.inl (intStr_chars i c hc)

theorem plus6_chars (i : Int) : ∀ c ∈ plus6 i, NumChar c ∨ c = '+' ∨ c = ' ' := by
  intro c hc
  unfold plus6 padLeft at hc
  rcases List.mem_append.mp hc with hc | hc
  · exact Or.inr (Or.inr (List.mem_replicate.mp hc).2)
  · rcases signed_chars i c hc with h | h
    · exact Or.inl h
    · exact Or.inr (Or.inl h)

theorem int6_chars (i : Int) : ∀ c ∈ int6 i, NumChar c ∨ c = '+' ∨ c = ' ' := by
  intro c hc
  unfold int6 padLeft at hc
  rcases List.mem_append.mp hc with hc | hc
  · exact Or.inr (Or.inr (List.mem_replicate.mp hc).2)
  · exact Or.inl (intStr_chars i c hc)

theorem fieldChar_neutral {c : Char} (h : NumChar c ∨ c = '+' ∨ c = ' ') : c ≠ '[' ∧ c ≠ '\\' ∧ c ≠ '"' := by
  rcases h with h | rfl | rfl
  · exact numChar_neutral h
  · decide
  · decide

theorem shown_chars (z d : Int) (b : Bool) : ∀ c ∈ shown z d b, c ≠ '[' ∧ c ≠ '\\' ∧ c ≠ '"' := by
  intro c hc
  unfold shown at hc
  split at hc
  · rcases List.mem_append.mp hc with hc | hc
    · exact numChar_neutral (intStr_chars z c hc)
    · rcases List.mem_cons.mp hc with rfl | hc
      · decide
      · split at hc
        · exact fieldChar_neutral (int6_chars d c hc)
        · exact fieldChar_neutral (plus6_chars d c hc)
  · exact numChar_neutral (intStr_chars z c hc)

/-- A cell with a size, followed by anything, is shown as the numbers. -/
theorem render_colorDiff (z d : Int) (b : Bool) (t : Str) : render (colorDiff z d b ++ t) = shown z d b ++ render t := by
  unfold colorDiff shown
  have hp : Neutral (plus6 d) := fun c hc =>
    ⟨(fieldChar_neutral (plus6_chars d c hc)).1, (fieldChar_neutral (plus6_chars d c hc)).2.1⟩
  have hi : Neutral (int6 d) := fun c hc =>
    ⟨(fieldChar_neutral (int6_chars d c hc)).1, (fieldChar_neutral (int6_chars d c hc)).2.1⟩
  have sp : ∀ u, render (str " " ++ u) = ' ' :: render u := fun u => render_cons (by decide) (by decide) u
  cases b with
  | false => simp only [Bool.not_false, if_true]; exact render_neutral (intStr_neutral z) t
  | true =>
    simp only [Bool.not_true, Bool.false_eq_true, if_false, if_true]
    have green : ∀ u, render (str "[green] " ++ u) = ' ' :: render u := fun u => by
      rw [show str "[green] " ++ u = '[' :: (str "green] " ++ u) from rfl,
        render_tag (tag := str "green") (rest := ' ' :: u) _ rfl, render_cons (by decide) (by decide)]
    have red : ∀ u, render (str "[red] " ++ u) = ' ' :: render u := fun u => by
      rw [show str "[red] " ++ u = '[' :: (str "red] " ++ u) from rfl,
        render_tag (tag := str "red") (rest := ' ' :: u) _ rfl, render_cons (by decide) (by decide)]
    have cgreen : ∀ u, render (str "[/green]" ++ u) = render u := fun u => by
      rw [show str "[/green]" ++ u = '[' :: (str "/green]" ++ u) from rfl,
        render_tag (tag := str "/green") (rest := u) _ rfl]
    have cred : ∀ u, render (str "[/red]" ++ u) = render u := fun u => by
      rw [show str "[/red]" ++ u = '[' :: (str "/red]" ++ u) from rfl,
        render_tag (tag := str "/red") (rest := u) _ rfl]
    by_cases h1 : d < 0
    · rw [if_pos h1, if_neg (by omega)]
      simp only [List.append_assoc]
      rw [render_neutral (intStr_neutral z), green, render_neutral hp, cgreen]
      simp
    · rw [if_neg h1]
      by_cases h2 : d > 0
      · rw [if_pos h2, if_neg (by omega)]
        simp only [List.append_assoc]
        rw [render_neutral (intStr_neutral z), red, render_neutral hp, cred]
        simp
      · rw [if_neg h2, if_pos (by omega)]
        simp only [List.append_assoc]
        rw [render_neutral (intStr_neutral z), sp, render_neutral hi]
        simp

theorem getLast?_append_some {a b : Str} {c : Char} (h : b.getLast? = some c) : (a ++ b).getLast? = some c := by
  rw [List.getLast?_append, h]; rfl

theorem colorDiff_trimmed (z d : Int) (b : Bool) : Trimmed (colorDiff z d b) := by
  obtain ⟨c, e, h1, h2, h3, h4⟩ := (intStr_word z).trimmed
  obtain ⟨c', e', h1', h2', h3', h4'⟩ := (intStr_word d).trimmed
  have hd : ∀ x : Str, (intStr z ++ x).head? = some c := fun x => by rw [List.head?_append, h1]; rfl
  unfold colorDiff
  cases b with
  | false => exact ⟨c, e, h1, h2, h3, h4⟩
  | true =>
    simp only [Bool.not_true, Bool.false_eq_true, if_false]
    by_cases g1 : d < 0
    · rw [if_pos g1]
      exact ⟨c, ']', by simp only [List.append_assoc]; exact hd _, getLast?_append_some rfl, h3, by decide⟩
    · rw [if_neg g1]
      by_cases g2 : d > 0
      · rw [if_pos g2]
        exact ⟨c, ']', by simp only [List.append_assoc]; exact hd _, getLast?_append_some rfl, h3, by decide⟩
      · rw [if_neg g2]
        refine ⟨c, e', by simp only [List.append_assoc]; exact hd _, ?_, h3, h4'⟩
        apply getLast?_append_some
        unfold int6 padLeft
        exact getLast?_append_some h2'

theorem strip_of_trimmed {t : Str} (h : Trimmed t) : strip t = t := by
  have := strip_trimmed (w := []) (w' := []) (fun _ h => nomatch h) (fun _ h => nomatch h) h
  simpa using this

/-- The cells with sizes are shown as numbers and can be read. -/
theorem colorDiff_cell (z d : Int) (b : Bool) :
    render (strip (colorDiff z d b)) = shown z d b ∧ TidyCell (strip (colorDiff z d b)) ∧ '"' ∉ shown z d b := by
  rw [strip_of_trimmed (colorDiff_trimmed z d b)]
  have h0 : render (colorDiff z d b) = shown z d b := by
    have := render_colorDiff z d b []
    simpa [render_nil] using this
  refine ⟨h0, ?_, fun h => (shown_chars z d b _ h).2.2 rfl⟩
  intro t
  rw [render_colorDiff, h0, render_cons (by decide) (by decide)]

theorem noChar_strip {c : Char} {s : Str} (h : c ∉ s) : c ∉ strip s := by
  obtain ⟨w, w', _, _, hs⟩ := strip_decomp s
  intro hc
  apply h
  rw [hs]
  simp [hc]

/-- **C41** the CSV output of an archive, file or symbol table: read by a standard reader, it gives the titles,
and for each entry its name and its sizes as shown, provided that titles and names contain neither markup nor quotes. -/
theorem C41_detail_csv_partial (m : MemMap) (args : Args) (title : Str) (es : Dict Str Entry) (rows : List (List Str))
    (hrows : All2 (RowFor m args) es rows) (ht : PlainName title)
    (hc : ∀ c ∈ reportCols m, PlainName (colTitle m args.abbrev_ c))
    (hn : ∀ p ∈ es, PlainName (if args.abbrev_ then p.2.abb else p.1)) :
    ∃ out, csvRead (printed (csvLines { headers := title :: (reportCols m).map (colTitle m args.abbrev_), rows := rows }))
        = (title :: (reportCols m).map (colTitle m args.abbrev_)) :: out ∧
      All2 (fun p row => ∃ cells, row = strip (if args.abbrev_ then p.2.abb else p.1) :: cells ∧
        All2 (fun c cell => ∃ z d, cellOf p.2 c = some (z, d) ∧ cell = shown z d (truthy args.diff))
          (reportCols m) cells) es out := by
  have hcell : ∀ r ∈ rows, r ≠ [] ∧ ∀ c ∈ r, TidyCell (strip c) ∧ '"' ∉ render (strip c) := by
    intro r hr
    obtain ⟨p, hp, cells, rfl, hcs⟩ := hrows.mem_right hr
    refine ⟨by simp, ?_⟩
    intro c hc'
    rcases List.mem_cons.mp hc' with rfl | hc'
    · have := hn p hp
      have h1 := this.1.strip
      exact ⟨tidy_noMarkup h1, by rw [h1.shown]; exact noChar_strip this.2⟩
    · obtain ⟨col, _, z, d, _, rfl⟩ := hcs.mem_right hc'
      have := colorDiff_cell z d (truthy args.diff)
      exact ⟨this.2.1, by rw [this.1]; exact this.2.2⟩
  have hhead : ∀ c ∈ title :: (reportCols m).map (colTitle m args.abbrev_), PlainName c := by
    intro c hc'
    rcases List.mem_cons.mp hc' with rfl | hc'
    · exact ht
    · obtain ⟨x, hx, rfl⟩ := List.mem_map.mp hc'
      exact hc x hx
  refine ⟨rows.map fun r => r.map fun c => render (strip c), ?_, ?_⟩
  · rw [C41_csv_read_partial _ (by simp) (fun r hr => (hcell r hr).1)
      (fun c hc' => ⟨tidy_noMarkup (hhead c hc').1, by
        rw [(hhead c hc').1.shown]; exact (hhead c hc').2⟩)
      (fun r hr => (hcell r hr).2)]
    congr 1
    conv => rhs; rw [← List.map_id (title :: _)]
    exact List.map_congr_left fun c hc' => (hhead c hc').1.shown
  · apply All2.map_right
    refine All2.imp hrows ?_
    rintro p hp r ⟨cells, rfl, hcs⟩
    refine ⟨cells.map fun c => render (strip c), ?_, ?_⟩
    · rw [List.map_cons, (hn p hp).1.strip.shown]
    · apply All2.map_right
      refine All2.imp hcs ?_
      rintro c _ cell ⟨z, d, h1, rfl⟩
      exact ⟨z, d, h1, (colorDiff_cell z d _).1⟩

/-- What is shown for a size determines the size: it can be read back as a number. -/
theorem shown_size (z d : Int) : pyInt10 (shown z d false) = some z := pyInt10_intStr z

theorem shown_diff (z d : Int) : ∃ x, shown z d true = intStr z ++ ' ' :: x ∧ pyInt10 x = some d := by
  refine ⟨_, rfl, ?_⟩
  split
  · exact pyInt10_int6 d
  · exact pyInt10_plus6 d

/-- The statement of C41 fails for a name with a quote. -/
theorem C41_quote_breaks : ∃ t : Table, csvRead (printed (csvLines t)) ≠
    t.headers :: t.rows.map fun r => r.map strip :=
  ⟨{ headers := [str "Symbol"], rows := [[str "operator\"\",_kg"]] }, by decide +kernel⟩

/-- The statement of C64 fails: what looks like a tag is not shown, and two names may become one. -/
theorem C64_brackets_lost : ∃ s s' : Str, s ≠ s' ∧ render s ≠ s ∧ render s = render s' :=
  ⟨str "lib[abi]x.a", str "lib[old]x.a", by decide, by decide +kernel, by decide +kernel⟩

/-- The same in a report: the CSV output for the archive names the wrong file. -/
theorem C64_report_loses_name : ∃ t : Table, (∀ r ∈ t.rows, ∀ c ∈ r, '"' ∉ c) ∧
    csvRead (printed (csvLines t)) ≠ t.headers :: t.rows.map fun r => r.map strip :=
  ⟨{ headers := [str "Archive File"], rows := [[str "/home/[me]/liba.a"]] }, by decide, by decide +kernel⟩

example : csvRead (printed (csvLines
    { headers := [str "Archive File", str "Total Size"]
      rows := [[str "liba.a", colorDiff 20 5 true], [str "c, d.a", colorDiff 10 0 true]] })) =
    [[str "Archive File", str "Total Size"], [str "liba.a", str "20     +5"], [str "c, d.a", str "10      0"]] := by
  decide +kernel
example : PlainName (str "liba.a") ∧ ∀ c ∈ reportCols exMapA, PlainName (colTitle exMapA true c) := by
  have : ∀ c ∈ reportCols exMapA, '[' ∉ colTitle exMapA true c ∧ '"' ∉ colTitle exMapA true c := by decide
  exact ⟨plain_lit (by decide), fun c hc => plain_lit (this c hc)⟩

end EspSize
