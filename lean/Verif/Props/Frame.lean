import Verif.Spec.Frame
import Verif.Props.Cells
import Verif.Props.Csv
/-! # C98: what is printed with a report, and when printing fails -/
namespace EspSize

/-! ### Open styles -/

theorem tagsN_fuel (norm : Str → Str) (n m : Nat) (o : List Str) (s : Str) (hn : s.length ≤ n) (hm : s.length ≤ m) :
    tagsN norm n o s = tagsN norm m o s := by
  induction n generalizing m o s with
  | zero =>
    have : s = [] := List.eq_nil_of_length_eq_zero (by omega)
    subst this
    cases m <;> rfl
  | succ n ih =>
    cases m with
    | zero =>
      have : s = [] := List.eq_nil_of_length_eq_zero (by omega)
      subst this; rfl
    | succ m =>
      unfold tagsN
      split
      · rename_i k tag rest h
        have := tagAt_len h
        split
        · rw [ih m _ rest (by omega) (by omega)]
        · split
          · rfl
          · rw [ih m _ rest (by omega) (by omega)]
      · split
        · rfl
        · simp only [List.length_cons] at hn hm
          rw [ih m _ _ (by omega) (by omega)]

theorem tags_cons {norm : Str → Str} {c : Char} {t : Str} (h : tagAt (c :: t) = none) (o : List Str) : tags norm o (c :: t) = tags norm o t := by
  show tagsN norm (t.length + 1) o (c :: t) = _
  unfold tagsN
  rw [h]
  rfl

theorem tagAt_plain {c : Char} (h1 : c ≠ '[') (h2 : c ≠ '\\') (t : Str) : tagAt (c :: t) = none := by
  unfold tagAt
  split
  · rename_i heq; cases heq; exact absurd rfl h2
  · rename_i heq; cases heq; exact absurd rfl h1
  · rfl

theorem tags_tag {norm : Str → Str} {tag rest : Str} (o : List Str) (t : Str) (h : tagText t = some (tag, rest)) :
    tags norm o ('[' :: t) = (stackTag norm o tag).bind fun st => tags norm st rest := by
  have hat : tagAt ('[' :: t) = some (0, tag, rest) := by
    show (tagText t).map (fun x => (0, x)) = _
    rw [h]; rfl
  have hl := tagAt_len hat
  show tagsN norm (t.length + 1) o ('[' :: t) = _
  unfold tagsN
  rw [hat]
  simp only [Nat.zero_mod]
  rw [if_neg (by decide)]
  simp only [List.length_cons] at hl
  cases stackTag norm o tag with
  | none => rfl
  | some st => exact tagsN_fuel norm t.length rest.length _ rest (by omega) (Nat.le_refl _)

theorem tags_neutral {norm : Str → Str} {s : Str} (h : Neutral s) (o : List Str) (t : Str) : tags norm o (s ++ t) = tags norm o t := by
  induction s with
  | nil => rfl
  | cons c s ih =>
    rw [List.cons_append, tags_cons (tagAt_plain (h c (by simp)).1 (h c (by simp)).2 _), ih fun x hx => h x (by simp [hx])]

/-- Text without `[` before an ordinary character opens and closes nothing. -/
theorem tags_before {norm : Str → Str} {s : Str} (h : '[' ∉ s) {q : Char} (h1 : q ≠ '[') (h2 : q ≠ '\\') (o : List Str) (t : Str) :
    tags norm o (s ++ q :: t) = tags norm o t := by
  induction s with
  | nil => exact tags_cons (tagAt_plain h1 h2 t) o
  | cons c s ih =>
    have := tagAt_noBracket h h1 h2 t
    rw [List.cons_append] at this ⊢
    rw [tags_cons this, ih fun hx => h (by simp [hx])]

theorem tags_noBracket {norm : Str → Str} {s : Str} (h : '[' ∉ s) (o : List Str) : tags norm o s = some o := by
  induction s with
  | nil => rfl
  | cons c s ih => rw [tags_cons (tagAt_noBracket' h), ih fun hx => h (by simp [hx])]

/-- **C98** a text without `[` is always shown, as it is. -/
theorem C98_plain_partial (norm : Str → Str) (s : Str) (h : '[' ∉ s) : renderE norm s = some s := by
  unfold renderE
  rw [tags_noBracket h, C64_verbatim_partial s h]
  rfl

theorem plain_ok (norm : Str → Str) {s : Str} (h : '[' ∉ s) : renderE norm s = some (render s) := by
  rw [C98_plain_partial norm s h, C64_verbatim_partial s h]

theorem tagBody_plain {b c : Str} (h1 : '[' ∉ b) (h2 : ']' ∉ b) : tagBody (b ++ ']' :: c) = some (b, c) := by
  induction b with
  | nil => rfl
  | cons x b ih =>
    rw [List.cons_append]
    unfold tagBody
    split
    · rename_i heq; cases heq
    · rename_i heq; cases heq; exact absurd (by simp) h2
    · rename_i heq; cases heq; exact absurd (by simp) h1
    · rename_i heq
      cases heq
      rw [ih (fun hx => h1 (by simp [hx])) fun hx => h2 (by simp [hx])]
      rfl

/-- A tag after text without `[` and without a backslash before the tag. -/
theorem tags_upTo {norm : Str → Str} {a : Str} (h : '[' ∉ a) (hb : a.getLast? ≠ some '\\') (o : List Str) (t : Str) :
    tags norm o (a ++ '[' :: t) = tags norm o ('[' :: t) := by
  rcases List.eq_nil_or_concat a with rfl | ⟨l, x, rfl⟩
  · rfl
  · rw [List.concat_eq_append] at h hb ⊢
    rw [List.append_assoc]
    refine tags_before (fun hx => h (by simp [hx])) (fun hx => h (by simp [hx])) ?_ o _
    intro hx
    subst hx
    exact hb (by simp)

/-- A closing tag where no style is open raises. -/
theorem stackTag_close (norm : Str → Str) (b : Str) : stackTag norm [] ('/' :: b) = none := by
  have : tagName ('/' :: b) = '/' :: tagName b := by simp [tagName]
  unfold stackTag
  rw [this]
  simp only
  split <;> simp

theorem tags_stray (norm : Str → Str) {s : Str} (h : StrayClose s) (t : Str) : tags norm [] (s ++ t) = none := by
  obtain ⟨a, b, c, rfl, h1, h2, h3, h4⟩ := h
  have e : a ++ '[' :: '/' :: b ++ ']' :: c ++ t = a ++ '[' :: ('/' :: (b ++ ']' :: (c ++ t))) := by simp
  rw [e, tags_upTo h1 h2]
  have : tagText ('/' :: (b ++ ']' :: (c ++ t))) = some ('/' :: b, c ++ t) := by
    simp only [tagText]
    rw [if_pos (by decide), tagBody_plain h3 h4]
    rfl
  rw [tags_tag _ _ this, stackTag_close]
  rfl

/-- **C98** (violated) a text whose first tag is a closing one, as in `/work/a[/b]/c`, is not shown: `MarkupError` is raised. -/
theorem C98_stray_raises (norm : Str → Str) (s : Str) (h : StrayClose s) : renderE norm s = none := by
  have := tags_stray norm h []
  rw [List.append_nil] at this
  unfold renderE
  rw [this]
  rfl

/-! ### Numbers -/

/-- The tags of a number cell: a colour is opened and, except for growing space, closed. -/
theorem tags_change {norm : Str → Str} {a b : Str} (ha : Neutral a) (hb : Neutral b) (colour close : Str) (o : List Str) (t : Str)
    (hc : ∀ t, tagText (colour ++ ']' :: t) = some (colour, t)) (hcl : ∀ t, tagText (close ++ ']' :: t) = some (close, t))
    (h1 : stackTag norm o colour = some (norm colour :: o))
    (h2 : stackTag norm (norm colour :: o) close = some o ∨ stackTag norm (norm colour :: o) close = some (norm close :: norm colour :: o)) :
    ∃ o', tags norm o (a ++ '[' :: (colour ++ ']' :: ' ' :: (b ++ '[' :: (close ++ [']']))) ++ t) = tags norm o' t := by
  have e : a ++ '[' :: (colour ++ ']' :: ' ' :: (b ++ '[' :: (close ++ [']']))) ++ t =
      a ++ ('[' :: (colour ++ ']' :: (' ' :: (b ++ ('[' :: (close ++ ']' :: t)))))) := by simp
  rw [e, tags_neutral ha, tags_tag _ _ (hc _), h1, Option.bind_some, tags_cons (tagAt_plain (by decide) (by decide) _), tags_neutral hb,
    tags_tag _ _ (hcl _)]
  rcases h2 with h2 | h2 <;> rw [h2] <;> exact ⟨_, rfl⟩

theorem stack_green (norm : Str → Str) (o : List Str) : stackTag norm o (str "green") = some (norm (str "green") :: o) := rfl
theorem stack_red (norm : Str → Str) (o : List Str) : stackTag norm o (str "red") = some (norm (str "red") :: o) := rfl

theorem stack_close (norm : Str → Str) (o : List Str) (n : Str) (hn : tagName n = n) (hs : strip n = n) (hne : n ≠ []) :
    stackTag norm (norm n :: o) ('/' :: n) = some o := by
  have : tagName ('/' :: n) = '/' :: n := by
    have : tagName ('/' :: n) = '/' :: tagName n := by simp [tagName]
    rw [this, hn]
  unfold stackTag
  rw [this]
  simp only
  rw [hs, if_neg hne, if_pos (by simp)]
  simp

theorem tagText_lit (l : Str) (x : Char) (t : Str) (hx : tagStart x = true) (h1 : '[' ∉ l) (h2 : ']' ∉ l) :
    tagText ((x :: l) ++ ']' :: t) = some (x :: l, t) := by
  rw [List.cons_append]
  simp only [tagText]
  rw [if_pos hx, tagBody_plain h1 h2]
  rfl

theorem tags_colour {norm : Str → Str} {a b : Str} (ha : Neutral a) (hb : Neutral b) (o : List Str) (t : Str) :
    (∃ o', tags norm o (a ++ str "[green] " ++ b ++ str "[/green]" ++ t) = tags norm o' t) ∧
    (∃ o', tags norm o (a ++ str "[red] " ++ b ++ str "[/red]" ++ t) = tags norm o' t) ∧
    (∃ o', tags norm o (a ++ str "[green] " ++ b ++ str "[green]" ++ t) = tags norm o' t) := by
  refine ⟨?_, ?_, ?_⟩
  · have := tags_change ha hb (str "green") (str "/green") o t (fun t => tagText_lit _ _ t (by decide) (by decide) (by decide))
      (fun t => tagText_lit _ _ t (by decide) (by decide) (by decide)) (stack_green norm o)
      (.inl (stack_close norm o (str "green") (by decide) (by decide) (by decide)))
    simpa [str] using this
  · have := tags_change ha hb (str "red") (str "/red") o t (fun t => tagText_lit _ _ t (by decide) (by decide) (by decide))
      (fun t => tagText_lit _ _ t (by decide) (by decide) (by decide)) (stack_red norm o)
      (.inl (stack_close norm o (str "red") (by decide) (by decide) (by decide)))
    simpa [str] using this
  · have := tags_change ha hb (str "green") (str "green") o t (fun t => tagText_lit _ _ t (by decide) (by decide) (by decide))
      (fun t => tagText_lit _ _ t (by decide) (by decide) (by decide)) (stack_green norm o) (.inr rfl)
    simpa [str] using this

/-- A text that opens or closes styles, but never raises, whatever follows. -/
def NeverRaises (norm : Str → Str) (s : Str) : Prop := ∀ o t, ∃ o', tags norm o (s ++ t) = tags norm o' t

theorem never_neutral (norm : Str → Str) {s : Str} (h : Neutral s) : NeverRaises norm s := fun o t => ⟨o, tags_neutral h o t⟩

theorem never_colorDiff (norm : Str → Str) (z d : Int) (b : Bool) : NeverRaises norm (colorDiff z d b) := by
  intro o t
  unfold colorDiff
  split
  · exact ⟨o, tags_neutral (intStr_neutral z) o t⟩
  · split
    · exact (tags_colour (intStr_neutral z) (neutral_plus6 d) o t).1
    · split
      · exact (tags_colour (intStr_neutral z) (neutral_plus6 d) o t).2.1
      · refine ⟨o, ?_⟩
        rw [List.append_assoc, List.append_assoc, tags_neutral (intStr_neutral z), tags_neutral (by unfold Neutral; decide), tags_neutral (neutral_int6 d)]

theorem never_colorSize (norm : Str → Str) (z d : Int) (b : Bool) : NeverRaises norm (colorSize z d b) := by
  intro o t
  unfold colorSize
  split
  · exact ⟨o, tags_neutral (intStr_neutral z) o t⟩
  · split
    · exact (tags_colour (intStr_neutral z) (neutral_plus6 d) o t).2.1
    · split
      · exact (tags_colour (intStr_neutral z) (neutral_plus6 d) o t).2.2
      · refine ⟨o, ?_⟩
        rw [List.append_assoc, List.append_assoc, tags_neutral (intStr_neutral z), tags_neutral (by unfold Neutral; decide), tags_neutral (neutral_int6 d)]

theorem never_colorPct (norm : Str → Str) (F : FloatOps) (hF : F.Plain) (p d : Rat) (b : Bool) : NeverRaises norm (colorPct F p d b) := by
  intro o t
  unfold colorPct
  split
  · exact ⟨o, tags_neutral (hF.show2 p) o t⟩
  · split
    · exact (tags_colour (hF.show2 p) (hF.plus2 d) o t).1
    · split
      · exact (tags_colour (hF.show2 p) (hF.plus2 d) o t).2.1
      · refine ⟨o, ?_⟩
        rw [List.append_assoc, List.append_assoc, tags_neutral (hF.show2 p), tags_neutral (by unfold Neutral; decide), tags_neutral (hF.pad2 d)]

theorem NeverRaises.ok {norm : Str → Str} {s : Str} (h : NeverRaises norm s) : renderE norm s = some (render s) := by
  obtain ⟨o', h⟩ := h [] []
  rw [List.append_nil] at h
  unfold renderE
  rw [h]
  rfl

/-! ### The lines around the table -/

theorem render_upTo {a : Str} (h : '[' ∉ a) (hb : a.getLast? ≠ some '\\') (t : Str) : render (a ++ '[' :: t) = a ++ render ('[' :: t) := by
  rcases List.eq_nil_or_concat a with rfl | ⟨l, x, rfl⟩
  · rfl
  · rw [List.concat_eq_append] at h hb ⊢
    rw [List.append_assoc, List.append_assoc, List.singleton_append, List.singleton_append]
    have := render_before (s := l) (q := x) (fun hx => h (by simp [hx])) (fun hx => h (by simp [hx])) (by
      intro hx
      subst hx
      exact hb (by simp)) ('[' :: t)
    exact this

/-- Bold text followed by more text. -/
theorem tags_bold (norm : Str → Str) {b : Str} (hb : Neutral b) (o : List Str) (t : Str) :
    tags norm o (str "[bold]" ++ b ++ str "[/]" ++ t) = tags norm o t := by
  have e : str "[bold]" ++ b ++ str "[/]" ++ t = '[' :: ('b' :: str "old" ++ ']' :: (b ++ '[' :: (['/'] ++ ']' :: t))) := by simp [str]
  rw [e, tags_tag _ _ (tagText_lit (str "old") 'b' _ (by decide) (by decide) (by decide))]
  have : stackTag norm o (str "bold") = some (norm (str "bold") :: o) := rfl
  show ((stackTag norm o (str "bold")).bind fun st => tags norm st (b ++ '[' :: (['/'] ++ ']' :: t))) = _
  rw [this, Option.bind_some, tags_neutral hb, tags_tag _ _ (tagText_lit [] '/' t (by decide) (by decide) (by decide))]
  rfl

theorem render_bold {b : Str} (hb : Neutral b) (t : Str) : render (str "[bold]" ++ b ++ str "[/]" ++ t) = b ++ render t := by
  have e : str "[bold]" ++ b ++ str "[/]" ++ t = '[' :: ('b' :: str "old" ++ ']' :: (b ++ '[' :: (['/'] ++ ']' :: t))) := by simp [str]
  rw [e, render_tag _ (tagText_lit (str "old") 'b' _ (by decide) (by decide) (by decide)), render_neutral hb,
    render_tag _ (tagText_lit [] '/' t (by decide) (by decide) (by decide))]

/-- A project line. -/
theorem projectLine (norm : Str → Str) {b s : Str} (hb : Neutral b) (hs : Neutral s) (p : Str) (hp : '[' ∉ p) :
    renderE norm (str "[bold]" ++ b ++ str "[/]" ++ (s ++ (p ++ str "\""))) = some (b ++ (s ++ (p ++ str "\""))) := by
  have h1 : '[' ∉ p ++ str "\"" := by simp [str, hp]
  unfold renderE
  rw [tags_bold norm hb, tags_neutral hs, tags_noBracket h1, render_bold hb, render_neutral hs, C64_verbatim_partial _ h1]
  rfl

theorem projectLine_stray (norm : Str → Str) {b s : Str} (hb : Neutral b) (hs : Neutral s) (p : Str) (hp : StrayClose p) :
    renderE norm (str "[bold]" ++ b ++ str "[/]" ++ (s ++ (p ++ str "\""))) = none := by
  unfold renderE
  rw [tags_bold norm hb, tags_neutral hs, tags_stray norm hp]
  rfl

theorem current_eq (p : Str) : str "[bold]CURRENT[/]   project file: \"" ++ p ++ str "\"" =
    str "[bold]" ++ str "CURRENT" ++ str "[/]" ++ (str "   project file: \"" ++ (p ++ str "\"")) := by simp [str]

theorem reference_eq (p : Str) : str "[bold]REFERENCE[/] project file: \"" ++ p ++ str "\"" =
    str "[bold]" ++ str "REFERENCE" ++ str "[/]" ++ (str " project file: \"" ++ (p ++ str "\"")) := by simp [str]

theorem neutral_lit {s : Str} (h : s.all (fun c => c != '[' && c != '\\') = true) : Neutral s := by
  intro c hc
  have := List.all_eq_true.mp h c hc
  simp only [Bool.and_eq_true, bne_iff_ne, ne_eq] at this
  exact this

theorem explain_line (norm : Str → Str) :
    renderE norm (str "Difference is counted as [bold]CURRENT - REFERENCE[/], i.e. a positive number means that [bold]CURRENT[/] is larger.") =
      some (str "Difference is counted as CURRENT - REFERENCE, i.e. a positive number means that CURRENT is larger.") := by
  have e : str "Difference is counted as [bold]CURRENT - REFERENCE[/], i.e. a positive number means that [bold]CURRENT[/] is larger." =
      str "Difference is counted as " ++ (str "[bold]" ++ str "CURRENT - REFERENCE" ++ str "[/]" ++
        (str ", i.e. a positive number means that " ++ (str "[bold]" ++ str "CURRENT" ++ str "[/]" ++ str " is larger."))) := by decide +kernel
  unfold renderE
  rw [e, tags_neutral (neutral_lit (by decide)), tags_bold norm (neutral_lit (by decide)), tags_neutral (neutral_lit (by decide)),
    tags_bold norm (neutral_lit (by decide)), tags_noBracket (by decide), render_neutral (neutral_lit (by decide)), render_bold (neutral_lit (by decide)),
    render_neutral (neutral_lit (by decide)), render_bold (neutral_lit (by decide)), C64_verbatim_partial _ (by decide)]
  simp [str]

/-- Everything the calls show before `rest`. -/
theorem runCalls_append (norm : Str → Str) (a b : List PrintCall) (xs : List OnScreen) (h : runCalls norm a = (xs, true)) :
    runCalls norm (a ++ b) = (xs ++ (runCalls norm b).1, (runCalls norm b).2) := by
  induction a generalizing xs with
  | nil => cases h; rfl
  | cons c t ih =>
    simp only [runCalls, List.cons_append] at h ⊢
    cases hc : c.run norm with
    | none => rw [hc] at h; cases h
    | some x =>
      rw [hc] at h
      simp only [Prod.mk.injEq] at h
      obtain ⟨h1, h2⟩ := h
      subst h1
      rw [ih (runCalls norm t).1 (by rw [← h2])]
      rfl

theorem runCalls_fail (norm : Str → Str) (c : PrintCall) (t : List PrintCall) (h : c.run norm = none) : runCalls norm (c :: t) = ([], false) := by
  simp only [runCalls, h]

/-- **C98** (paths without `[`) the introduction of a comparison names the two projects; without comparison there is none. -/
theorem C98_comparison_partial (norm : Str → Str) (m : MemMap) (args : Args) (h1 : '[' ∉ m.projectPath) (h2 : '[' ∉ m.projectPathDiff) :
    runCalls norm (diffInfo m args) = (if truthy args.diff then comparisonLines m.projectPath m.projectPathDiff else [], true) := by
  unfold diffInfo
  split
  · have e1 := projectLine norm (b := str "CURRENT") (s := str "   project file: \"") (neutral_lit (by decide)) (neutral_lit (by decide)) _ h1
    have e2 := projectLine norm (b := str "REFERENCE") (s := str " project file: \"") (neutral_lit (by decide)) (neutral_lit (by decide)) _ h2
    rw [current_eq, reference_eq]
    simp only [runCalls, PrintCall.run, e1, e2, explain_line, Option.map_some, comparisonLines]
    simp [str]
  · rfl

/-- **C98** (violated) if the path of the current map file has a closing tag as its first tag, nothing of the comparison is shown. -/
theorem C98_path_raises (norm : Str → Str) (m : MemMap) (args : Args) (t : Table) (hd : truthy args.diff = true)
    (hk : args.archiveDependencies = false) (h : StrayClose m.projectPath) : runCalls norm (tableCalls m args t) = ([], false) := by
  have e : ∃ rest, tableCalls m args t = .eprint (str "[bold]CURRENT[/]   project file: \"" ++ m.projectPath ++ str "\"") :: rest := by
    unfold tableCalls diffInfo
    rw [hd, hk]
    simp only [if_true, Bool.false_eq_true, if_false, List.cons_append]
    split
    · exact ⟨_, rfl⟩
    · split
      · exact ⟨_, rfl⟩
      · split <;> exact ⟨_, rfl⟩
  obtain ⟨rest, e⟩ := e
  rw [e]
  refine runCalls_fail norm _ _ ?_
  simp only [PrintCall.run]
  rw [current_eq, projectLine_stray norm (neutral_lit (by decide)) (neutral_lit (by decide)) _ h]
  rfl

/-- **C98** the size of the image. -/
theorem C98_image (norm : Str → Str) (m : MemMap) (args : Args) :
    (imageInfo m args).run norm = some (imageLine (truthy args.diff) m.imageSize m.imageSizeDiff) := by
  unfold imageInfo imageLine
  simp only [PrintCall.run, renderE]
  obtain ⟨o', ho⟩ := never_colorDiff norm m.imageSize m.imageSizeDiff (truthy args.diff) [] (str " bytes (.bin may be padded larger)")
  rw [List.append_assoc, tags_neutral (neutral_lit (by decide)), ho, tags_noBracket (by decide), render_neutral (neutral_lit (by decide)),
    render_colorDiff, C64_verbatim_partial _ (by decide)]
  unfold shown
  cases truthy args.diff with
  | false => simp
  | true =>
    simp only [if_true]
    by_cases hz : m.imageSizeDiff = 0 <;> simp [hz, str]

theorem note_run (norm : Str → Str) : (PrintCall.eprint noteText).run norm = some noteLine := by
  have e : ∀ t : Str, str "[yellow]" ++ t = '[' :: ('y' :: str "ellow" ++ ']' :: t) := fun t => rfl
  unfold noteText noteLine
  generalize ht : str "Note: The reported total sizes may be smaller than those in the technical reference manual due to reserved memory and application configuration. The total flash size available for the application is not included by default, as it cannot be reliably determined due to the presence of other data like the bootloader, partition table, and application partition size." = t
  have h2 : '[' ∉ t := by rw [← ht]; decide +kernel
  simp only [PrintCall.run, renderE]
  rw [e, tags_tag _ _ (tagText_lit (str "ellow") 'y' t (by decide) (by decide) (by decide)),
    render_tag _ (tagText_lit (str "ellow") 'y' t (by decide) (by decide) (by decide)), C64_verbatim_partial _ h2]
  have : stackTag norm [] ('y' :: str "ellow") = some [norm (str "yellow")] := rfl
  rw [this, Option.bind_some, tags_noBracket h2]
  rfl

/-! ### Tables -/

theorem mapM_some {α β : Type} (f : α → Option β) (g : α → β) (l : List α) (h : ∀ a ∈ l, f a = some (g a)) : l.mapM f = some (l.map g) := by
  induction l with
  | nil => rfl
  | cons a t ih =>
    rw [List.mapM_cons, h a (by simp), ih fun a ha => h a (List.mem_cons_of_mem _ ha)]
    rfl

theorem mapM_none {α β : Type} (f : α → Option β) (l : List α) (a : α) (ha : a ∈ l) (h : f a = none) : l.mapM f = none := by
  induction l with
  | nil => cases ha
  | cons x t ih =>
    rw [List.mapM_cons]
    rcases List.mem_cons.mp ha with rfl | ha
    · rw [h]; rfl
    · rw [ih ha]
      cases f x <;> rfl

/-- All cells can be shown. -/
def CellsOk (norm : Str → Str) (t : Table) : Prop := ∀ r ∈ t.headers :: t.rows, ∀ c ∈ r, renderE norm c = some (render c)

theorem table_run (norm : Str → Str) (t : Table) (h : CellsOk norm t) :
    (PrintCall.table t).run norm = some (.cells ((t.headers :: t.rows).map fun r => r.map render)) := by
  simp only [PrintCall.run]
  rw [mapM_some _ (fun r : List Str => r.map render) (t.headers :: t.rows) fun r hr => mapM_some _ render r fun c hc => h r hr c hc]
  rfl

/-- **C98** (paths without `[`, tables whose cells can be shown) in order: the introduction of a comparison, the table and, for the
summary, the size of the image and the note. -/
theorem C98_calls_partial (norm : Str → Str) (m : MemMap) (args : Args) (t : Table) (h1 : '[' ∉ m.projectPath) (h2 : '[' ∉ m.projectPathDiff)
    (h : CellsOk norm t) (hk : args.archiveDependencies = true → truthy args.diff = false) :
    runCalls norm (tableCalls m args t) =
      ((if truthy args.diff then comparisonLines m.projectPath m.projectPathDiff else []) ++
        .cells ((t.headers :: t.rows).map fun r => r.map render) ::
        linesAfter (!(args.archives || truthy args.archiveDetails || args.archiveDependencies || args.files)) (truthy args.diff) m.imageSize m.imageSizeDiff, true) := by
  have hi := C98_comparison_partial norm m args h1 h2
  have ht := table_run norm t h
  have hone : runCalls norm [.table t] = ([.cells ((t.headers :: t.rows).map fun r => r.map render)], true) := by
    simp only [runCalls, ht]
  have hlist : runCalls norm (diffInfo m args ++ [.table t]) =
      ((if truthy args.diff then comparisonLines m.projectPath m.projectPathDiff else []) ++
        [.cells ((t.headers :: t.rows).map fun r => r.map render)], true) := by
    rw [runCalls_append norm _ _ _ hi, hone]
  unfold tableCalls linesAfter
  cases ha : args.archives with
  | true => simpa using hlist
  | false =>
    cases hd : truthy args.archiveDetails with
    | true => simpa using hlist
    | false =>
      cases hk' : args.archiveDependencies with
      | true =>
        rw [hk hk']
        simpa using hone
      | false =>
        cases hf : args.files with
        | true => simpa using hlist
        | false =>
          simp only [Bool.false_eq_true, if_false, Bool.or_false, Bool.not_false, if_true]
          rw [runCalls_append norm _ _ _ hi]
          have : runCalls norm [.table t, imageInfo m args, .eprint noteText] =
              ([.cells ((t.headers :: t.rows).map fun r => r.map render), imageLine (truthy args.diff) m.imageSize m.imageSizeDiff, noteLine], true) := by
            simp only [runCalls, ht, C98_image, note_run]
          rw [this]

/-- **C98** (violated) a table with one cell whose first tag is a closing one is not shown at all, nor what follows it. -/
theorem C98_cell_raises (norm : Str → Str) (t : Table) (rest : List PrintCall) (r : List Str) (hr : r ∈ t.headers :: t.rows) (c : Str) (hc : c ∈ r)
    (h : StrayClose c) : runCalls norm (.table t :: rest) = ([], false) := by
  refine runCalls_fail norm _ _ ?_
  simp only [PrintCall.run]
  rw [mapM_none _ _ r hr (mapM_none _ r c hc (C98_stray_raises norm c h))]
  rfl

/-! ### The cells of the tables -/

theorem fold_addRow {P : Str → Prop} (h0 : P []) (rows : List (List Str)) (hr : ∀ r ∈ rows, r ≠ [] ∧ ∀ c ∈ r.tail, P c) :
    ∀ t : Table, (∀ r ∈ t.rows, r ≠ [] ∧ ∀ c ∈ r.tail, P c) →
      (∀ r ∈ (rows.foldl Table.addRow t).rows, r ≠ [] ∧ ∀ c ∈ r.tail, P c) ∧
      ∀ c ∈ (rows.foldl Table.addRow t).headers, c ∈ t.headers ∨ c = [] := by
  have pad : ∀ (n : Nat) (r : List Str), (r ≠ [] ∧ ∀ c ∈ r.tail, P c) → padRow n r ≠ [] ∧ ∀ c ∈ (padRow n r).tail, P c := by
    rintro n r ⟨h1, h2⟩
    cases r with
    | nil => exact absurd rfl h1
    | cons a r =>
      refine ⟨by simp [padRow], fun c hc => ?_⟩
      simp only [padRow, List.cons_append, List.tail_cons, List.mem_append, List.mem_replicate] at hc
      rcases hc with hc | ⟨_, rfl⟩
      · exact h2 c hc
      · exact h0
  induction rows with
  | nil => exact fun t ht => ⟨ht, fun c hc => .inl hc⟩
  | cons a rest ih =>
    intro t ht
    have h1 := ih (fun r h => hr r (List.mem_cons_of_mem _ h)) (t.addRow a) (by
      intro r h
      simp only [Table.addRow, List.mem_append, List.mem_map, List.mem_singleton] at h
      rcases h with ⟨r', h, rfl⟩ | rfl
      · exact pad _ _ (ht r' h)
      · exact pad _ _ (hr a (by simp)))
    refine ⟨h1.1, fun c hc => ?_⟩
    rcases h1.2 c hc with hc | hc
    · simp only [Table.addRow, padRow, List.mem_append, List.mem_replicate] at hc
      rcases hc with hc | ⟨_, hc⟩
      · exact .inl hc
      · exact .inr hc
    · exact .inr hc

theorem mapM_pairs {α β : Type} {f : α → Except Err β} : ∀ {l : List α} {out : List (β × α)},
    (l.mapM fun a => (f a).map fun b => (b, a)) = .ok out → out.map Prod.snd = l
  | [], out, h => by cases h; rfl
  | a :: l, out, h => by
    rw [List.mapM_cons] at h
    obtain ⟨x, hx, h⟩ := bind_ok h
    obtain ⟨y, hy, h⟩ := bind_ok h
    cases h
    have := mapM_pairs hy
    cases hf : f a with
    | error e => rw [hf] at hx; cases hx
    | ok b =>
      rw [hf] at hx
      cases hx
      simp [this]

theorem sortRows_mem {args : Args} {n : Int} {rows out : List (Str × List TCol)} (h : sortRows args n rows = .ok out) : ∀ r ∈ out, r ∈ rows := by
  unfold sortRows at h
  split at h
  · cases h
  · cases h
  · rename_i keyed hk
    cases h
    intro r hr
    obtain ⟨p, hp, rfl⟩ := List.mem_map.mp hr
    have := (sortedBy_stable (fun x : Int × Str × List TCol => x.1) args.sortReverse keyed).perm.mem_iff.mp hp
    rw [← mapM_pairs hk]
    exact List.mem_map_of_mem this

/-- The cells after the first one of the rows of a table. -/
def CellsAfterName (P : Str → Prop) (t : Table) : Prop := ∀ r ∈ t.rows, r ≠ [] ∧ ∀ c ∈ r.tail, P c

theorem detail_cells {title : Str} {es : Dict Str Entry} {args : Args} {t : Table} (h : detailTable title es args = .ok t) :
    CellsAfterName (fun c => c = [] ∨ ∃ z d b, c = colorDiff z d b) t := by
  unfold detailTable at h
  obtain ⟨rows, hr, h⟩ := bind_ok h
  cases h
  refine (fold_addRow (P := fun c => c = [] ∨ ∃ z d b, c = colorDiff z d b) (.inl rfl) rows ?_ _ (by intro r hr; cases hr)).1
  unfold getTableSorted at hr
  obtain ⟨n, _, hr⟩ := bind_ok hr
  obtain ⟨srt, hs, hr⟩ := bind_ok hr
  cases hr
  intro r hr
  obtain ⟨p, hp, rfl⟩ := List.mem_map.mp hr
  obtain ⟨e, _, he⟩ := List.mem_map.mp (sortRows_mem hs p hp)
  subst he
  refine ⟨by simp, fun c hc => ?_⟩
  simp only [List.tail_cons, List.mem_map] at hc
  obtain ⟨x, hx, rfl⟩ := hc
  have : ∃ z d, x = tcol args z d := by
    simp only [entryRow, entryCols, List.mem_cons, List.mem_flatMap, List.mem_map] at hx
    rcases hx with h | ⟨_, _, h | ⟨_, _, h⟩⟩
    · exact ⟨_, _, h⟩
    · exact ⟨_, _, h⟩
    · exact ⟨_, _, h.symm⟩
  obtain ⟨z, d, rfl⟩ := this
  exact .inr ⟨z, d, _, rfl⟩

theorem detail_ok (norm : Str → Str) {title : Str} {es : Dict Str Entry} {args : Args} {t : Table} (h : detailTable title es args = .ok t) :
    CellsAfterName (fun c => renderE norm c = some (render c)) t := by
  intro r hr
  refine ⟨(detail_cells h r hr).1, fun c hc => ?_⟩
  rcases (detail_cells h r hr).2 c hc with rfl | ⟨z, d, b, rfl⟩
  · rfl
  · exact (never_colorDiff norm z d b).ok

theorem summary_cells (norm : Str → Str) {F : FloatOps} (hF : F.Plain) {m : MemMap} {args : Args} {t : Table} (h : getSummaryTable F m args = .ok t) :
    CellsAfterName (fun c => renderE norm c = some (render c)) t ∧ ∀ c ∈ t.headers, renderE norm c = some (render c) := by
  unfold getSummaryTable at h
  obtain ⟨n, _, h⟩ := bind_ok h
  split at h
  · cases h
  · rename_i k _
    cases h
    have hnil : renderE norm [] = some (render []) := rfl
    have key : ∀ r ∈ summaryRows F args k (trim m args), r ≠ [] ∧ ∀ c ∈ r.tail, renderE norm c = some (render c) := by
      intro r hr
      simp only [summaryRows, List.mem_flatMap, List.mem_cons, List.mem_map] at hr
      obtain ⟨ty, _, rfl | ⟨s, _, rfl⟩⟩ := hr
      · refine ⟨by simp [typeRow], fun c hc => ?_⟩
        simp only [typeRow, List.tail_cons, List.mem_cons] at hc
        rcases hc with rfl | hc
        · exact (never_colorDiff norm _ _ _).ok
        · split at hc
          · simp only [List.mem_cons, List.not_mem_nil, or_false] at hc
            rcases hc with rfl | rfl | rfl
            · exact (never_colorPct norm F hF _ _ _).ok
            · exact (never_colorSize norm _ _ _).ok
            · exact (never_colorSize norm _ _ _).ok
          · simp only [List.mem_cons, List.not_mem_nil, or_false, or_self] at hc
            rw [hc]; exact hnil
      · refine ⟨by simp [secRow], fun c hc => ?_⟩
        simp only [secRow, List.tail_cons, List.mem_cons, List.not_mem_nil, or_false] at hc
        rcases hc with rfl | rfl | rfl | rfl
        · exact (never_colorDiff norm _ _ _).ok
        · split
          · exact (never_colorPct norm F hF _ _ _).ok
          · exact hnil
        · exact hnil
        · exact hnil
    have hf := fold_addRow hnil _ key { headers := summaryHeaders, rows := [] } (by intro r hr; cases hr)
    refine ⟨hf.1, fun c hc => ?_⟩
    rcases hf.2 c hc with hc | rfl
    · simp only [summaryHeaders, List.mem_cons, List.not_mem_nil, or_false] at hc
      rcases hc with rfl | rfl | rfl | rfl | rfl <;> rfl
    · exact hnil

/-- **C98** only names can prevent a table from being shown: all cells after the name of a row can, and so can the titles of the
summary. -/
theorem C98_cells (norm : Str → Str) (R : RunIn) (hF : R.F.Plain) (crt : Option Crt) (elf : Option (List ElfSym)) (args : Args) (m : MemMap) (t : Table)
    (hd : args.archiveDependencies = false) (h : selectTable R crt elf args m = .ok t) :
    CellsAfterName (fun c => renderE norm c = some (render c)) t ∧
    (args.archives = false → truthy args.archiveDetails = false → args.files = false → ∀ c ∈ t.headers, renderE norm c = some (render c)) := by
  unfold selectTable at h
  rw [hd] at h
  cases ha : args.archives with
  | true =>
    rw [ha] at h
    simp only [if_true, getArchivesTable] at h
    obtain ⟨s, _, h⟩ := bind_ok h
    exact ⟨detail_ok norm h, by simp⟩
  | false =>
    cases hdet : truthy args.archiveDetails with
    | true =>
      rw [ha, hdet] at h
      simp only [Bool.false_eq_true, if_false, if_true, getSymbolsTable] at h
      obtain ⟨s, _, h⟩ := bind_ok h
      exact ⟨detail_ok norm h, by simp⟩
    | false =>
      cases hf : args.files with
      | true =>
        rw [ha, hdet, hf] at h
        simp only [Bool.false_eq_true, if_false, if_true, getObjectFilesTable] at h
        obtain ⟨s, _, h⟩ := bind_ok h
        exact ⟨detail_ok norm h, by simp⟩
      | false =>
        rw [ha, hdet, hf] at h
        simp only [Bool.false_eq_true, if_false] at h
        have := summary_cells norm hF h
        exact ⟨this.1, fun _ _ _ => this.2⟩

/-- **C98** (names, titles and paths without `[`) showing a report of sizes succeeds, and shows in order the introduction of a
comparison, the table and, for the summary, the size of the image and the note. -/
theorem C98_report_partial (norm : Str → Str) (R : RunIn) (hF : R.F.Plain) (crt : Option Crt) (elf : Option (List ElfSym)) (args : Args) (m : MemMap)
    (t : Table) (hd : args.archiveDependencies = false) (h : selectTable R crt elf args m = .ok t)
    (h1 : '[' ∉ m.projectPath) (h2 : '[' ∉ m.projectPathDiff)
    (hn : ∀ r ∈ t.rows, ∀ name ∈ r.head?, '[' ∉ name)
    (hh : (args.archives || truthy args.archiveDetails || args.files) = true → ∀ c ∈ t.headers, '[' ∉ c) :
    runCalls norm (tableCalls m args t) =
      ((if truthy args.diff then comparisonLines m.projectPath m.projectPathDiff else []) ++
        .cells ((t.headers :: t.rows).map fun r => r.map render) ::
        linesAfter (!(args.archives || truthy args.archiveDetails || args.files)) (truthy args.diff) m.imageSize m.imageSizeDiff, true) := by
  have hc := C98_cells norm R hF crt elf args m t hd h
  have hok : CellsOk norm t := by
    intro r hr c hcr
    rcases List.mem_cons.mp hr with rfl | hr
    · cases hx : (args.archives || truthy args.archiveDetails || args.files) with
      | true => exact plain_ok norm (hh hx c hcr)
      | false =>
        simp only [Bool.or_eq_false_iff] at hx
        exact hc.2 hx.1.1 hx.1.2 hx.2 c hcr
    · have := hc.1 r hr
      cases r with
      | nil => cases hcr
      | cons name rest =>
        rcases List.mem_cons.mp hcr with rfl | hcr
        · exact plain_ok norm (hn _ hr c (by simp))
        · exact this.2 c hcr
  have := C98_calls_partial norm m args t h1 h2 hok (by rw [hd]; intro h; cases h)
  rw [hd] at this
  simpa using this

/-! ### CSV -/

/-- A text that, followed by a quote, leaves rendering to what comes next. -/
def QuietCell (norm : Str → Str) (c : Str) : Prop := ∀ o t, ∃ o', tags norm o (c ++ '"' :: t) = tags norm o' t

theorem tags_noMarkup {norm : Str → Str} {s : Str} (h : NoMarkup s) {q : Char} (h1 : q ≠ '[') (h2 : q ≠ '\\') (h3 : tagStart q = false)
    (o : List Str) (t : Str) : tags norm o (s ++ q :: t) = tags norm o t := by
  induction s with
  | nil => exact tags_cons (tagAt_plain h1 h2 t) o
  | cons c s ih =>
    have := tagAt_noMarkup h h1 h2 h3 t
    rw [List.cons_append] at this ⊢
    rw [tags_cons this, ih h.tail]

theorem quiet_plain (norm : Str → Str) {c : Str} (h : NoMarkup c) : QuietCell norm c := fun o t =>
  ⟨o, tags_noMarkup h (by decide) (by decide) (by decide) o t⟩

theorem quiet_never {norm : Str → Str} {c : Str} (h : NeverRaises norm c) : QuietCell norm c := fun o t => by
  obtain ⟨o', ho⟩ := h o ('"' :: t)
  exact ⟨o', by rw [ho, tags_cons (tagAt_plain (by decide) (by decide) t)]⟩

/-- Blanks around a number with a change can be removed. -/
theorem quiet_strip {norm : Str → Str} {a r : Str} (ha : Neutral a) (h1 : r.head? = some '[') (h2 : r.getLast? = some ']')
    (h : ∀ a', Neutral a' → NeverRaises norm (a' ++ r)) : QuietCell norm (strip (a ++ r)) := by
  obtain ⟨w, hw, hs⟩ := lstrip_decomp a
  have hn : Neutral (lstrip a) := fun c hc => ha c (by rw [hs]; simp [hc])
  have ht : Trimmed (lstrip a ++ r) := by
    cases hl : lstrip a with
    | nil => exact ⟨'[', ']', h1, h2, by decide, by decide⟩
    | cons c t =>
      refine ⟨c, ']', rfl, getLast?_append_some h2, ?_, by decide⟩
      have := List.head?_dropWhile_not isSpace a
      unfold lstrip at hl
      rw [hl] at this
      simpa using this
  have e : strip (a ++ r) = lstrip a ++ r := by
    have := strip_trimmed (w' := []) hw (fun _ h => nomatch h) ht
    rw [List.append_nil, ← List.append_assoc, ← hs] at this
    exact this
  rw [e]
  exact quiet_never (h _ hn)

theorem quiet_neutral (norm : Str → Str) {c : Str} (h : Neutral c) : QuietCell norm (strip c) :=
  quiet_plain norm (.of_noBracket (noChar_strip fun hc => (h _ hc).1 rfl))

theorem quiet_colours {norm : Str → Str} {a b c : Str} (ha : Neutral a) (hb : Neutral b) (hc : Neutral c) :
    QuietCell norm (strip a) ∧ QuietCell norm (strip (a ++ str "[green] " ++ b ++ str "[/green]")) ∧
    QuietCell norm (strip (a ++ str "[red] " ++ b ++ str "[/red]")) ∧ QuietCell norm (strip (a ++ str "[green] " ++ b ++ str "[green]")) ∧
    QuietCell norm (strip (a ++ str " " ++ c)) := by
  refine ⟨quiet_neutral norm ha, ?_, ?_, ?_, quiet_neutral norm ?_⟩
  · have := quiet_strip (norm := norm) (r := str "[green] " ++ b ++ str "[/green]") ha rfl (getLast?_append_some rfl) fun a' h' o t => by
      simpa [List.append_assoc] using (tags_colour (norm := norm) h' hb o t).1
    simpa [List.append_assoc] using this
  · have := quiet_strip (norm := norm) (r := str "[red] " ++ b ++ str "[/red]") ha rfl (getLast?_append_some rfl) fun a' h' o t => by
      simpa [List.append_assoc] using (tags_colour (norm := norm) h' hb o t).2.1
    simpa [List.append_assoc] using this
  · have := quiet_strip (norm := norm) (r := str "[green] " ++ b ++ str "[green]") ha rfl (getLast?_append_some rfl) fun a' h' o t => by
      simpa [List.append_assoc] using (tags_colour (norm := norm) h' hb o t).2.2
    simpa [List.append_assoc] using this
  · intro x hx
    simp only [List.mem_append] at hx
    rcases hx with (hx | hx) | hx
    · exact ha x hx
    · have : x = ' ' := by simpa [str] using hx
      rw [this]; decide
    · exact hc x hx

theorem quiet_colorDiff (norm : Str → Str) (z d : Int) (b : Bool) : QuietCell norm (strip (colorDiff z d b)) := by
  have h := quiet_colours (norm := norm) (intStr_neutral z) (neutral_plus6 d) (neutral_int6 d)
  unfold colorDiff
  split
  · exact h.1
  · split
    · exact h.2.1
    · split
      · exact h.2.2.1
      · exact h.2.2.2.2

theorem quiet_colorSize (norm : Str → Str) (z d : Int) (b : Bool) : QuietCell norm (strip (colorSize z d b)) := by
  have h := quiet_colours (norm := norm) (intStr_neutral z) (neutral_plus6 d) (neutral_int6 d)
  unfold colorSize
  split
  · exact h.1
  · split
    · exact h.2.2.1
    · split
      · exact h.2.2.2.1
      · exact h.2.2.2.2

theorem quiet_colorPct (norm : Str → Str) (F : FloatOps) (hF : F.Plain) (p d : Rat) (b : Bool) : QuietCell norm (strip (colorPct F p d b)) := by
  have h := quiet_colours (norm := norm) (hF.show2 p) (hF.plus2 d) (hF.pad2 d)
  unfold colorPct
  split
  · exact h.1
  · split
    · exact h.2.1
    · split
      · exact h.2.2.1
      · exact h.2.2.2.2

theorem quiet_join (norm : Str → Str) : ∀ (cs : List Str), (∀ c ∈ cs, QuietCell norm c) → ∀ o, ∃ o', tags norm o (joinWith [','] (cs.map quoteCell)) = some o'
  | [], _, o => ⟨o, rfl⟩
  | [c], h, o => by
    obtain ⟨o', ho⟩ := h c (by simp) o []
    refine ⟨o', ?_⟩
    show tags norm o ('"' :: (c ++ ['"'])) = _
    rw [tags_cons (tagAt_plain (by decide) (by decide) _), ho]
    rfl
  | c :: d :: cs, h, o => by
    obtain ⟨o1, h1⟩ := h c (by simp) o (',' :: joinWith [','] ((d :: cs).map quoteCell))
    obtain ⟨o2, h2⟩ := quiet_join norm (d :: cs) (fun c hc => h c (List.mem_cons_of_mem _ hc)) o1
    refine ⟨o2, ?_⟩
    have e : joinWith [','] ((c :: d :: cs).map quoteCell) = '"' :: (c ++ '"' :: ',' :: joinWith [','] ((d :: cs).map quoteCell)) := by
      simp [joinWith, quoteCell]
    rw [e, tags_cons (tagAt_plain (by decide) (by decide) _), h1, tags_cons (tagAt_plain (by decide) (by decide) _), h2]

theorem runCalls_ok (norm : Str → Str) (f : PrintCall → OnScreen) : ∀ cs : List PrintCall, (∀ c ∈ cs, c.run norm = some (f c)) → runCalls norm cs = (cs.map f, true)
  | [], _ => rfl
  | c :: t, h => by
    simp only [runCalls, h c (by simp), runCalls_ok norm f t fun c hc => h c (List.mem_cons_of_mem _ hc), List.map_cons]

theorem runCalls_any_fail (norm : Str → Str) : ∀ cs : List PrintCall, (∃ c ∈ cs, c.run norm = none) → (runCalls norm cs).2 = false
  | [], h => by obtain ⟨c, hc, _⟩ := h; cases hc
  | c :: t, h => by
    simp only [runCalls]
    cases hc : c.run norm with
    | none => rfl
    | some x =>
      obtain ⟨d, hd, hn⟩ := h
      rcases List.mem_cons.mp hd with rfl | hd
      · rw [hc] at hn; cases hn
      · exact runCalls_any_fail norm t ⟨d, hd, hn⟩

theorem quiet_nil (norm : Str → Str) : QuietCell norm (strip []) := quiet_neutral norm fun _ h => nomatch h

theorem detail_quiet (norm : Str → Str) {title : Str} {es : Dict Str Entry} {args : Args} {t : Table} (h : detailTable title es args = .ok t) :
    CellsAfterName (fun c => QuietCell norm (strip c)) t := by
  intro r hr
  refine ⟨(detail_cells h r hr).1, fun c hc => ?_⟩
  rcases (detail_cells h r hr).2 c hc with rfl | ⟨z, d, b, rfl⟩
  · exact quiet_nil norm
  · exact quiet_colorDiff norm z d b

theorem tags_escaped {norm : Str → Str} {c : Char} {t : Str} {tag rest : Str} (h : tagAt (c :: t) = some (1, tag, rest)) (o : List Str) :
    tags norm o (c :: t) = tags norm o rest := by
  have hl := tagAt_len h
  show tagsN norm (t.length + 1) o (c :: t) = _
  unfold tagsN
  rw [h]
  simp only [List.length_cons] at hl
  exact tagsN_fuel norm t.length rest.length o rest (by omega) (Nat.le_refl _)

theorem headers_quiet (norm : Str → Str) : ∀ c ∈ summaryHeaders, QuietCell norm c := by
  have hb : ∀ {a : Str}, Neutral a → QuietCell norm (a ++ str "\\[bytes]") := fun {a} ha o t => ⟨o, by
    rw [List.append_assoc, tags_neutral ha]
    show tags norm o ('\\' :: '[' :: 'b' :: (str "ytes" ++ ']' :: '"' :: t)) = _
    rw [tags_escaped (tag := str "bytes") (rest := '"' :: t) rfl, tags_cons (tagAt_plain (by decide) (by decide) t)]⟩
  have hp : ∀ {a : Str}, Neutral a → QuietCell norm (a ++ str "\\[%]") := fun {a} ha o t => ⟨o, by
    rw [List.append_assoc, tags_neutral ha]
    show tags norm o ('\\' :: '[' :: '%' :: ']' :: '"' :: t) = _
    rw [tags_cons rfl, tags_cons rfl, tags_cons rfl, tags_cons rfl, tags_cons (tagAt_plain (by decide) (by decide) t)]⟩
  intro c hc
  simp only [summaryHeaders, List.mem_cons, List.not_mem_nil, or_false] at hc
  rcases hc with rfl | rfl | rfl | rfl | rfl
  · exact quiet_plain norm (.of_noBracket (by decide))
  · exact hb (a := str "Used ") (neutral_lit (by decide))
  · exact hp (a := str "Used ") (neutral_lit (by decide))
  · exact hb (a := str "Remain ") (neutral_lit (by decide))
  · exact hb (a := str "Total ") (neutral_lit (by decide))

theorem summary_quiet (norm : Str → Str) {F : FloatOps} (hF : F.Plain) {m : MemMap} {args : Args} {t : Table} (h : getSummaryTable F m args = .ok t) :
    CellsAfterName (fun c => QuietCell norm (strip c)) t ∧ ∀ c ∈ t.headers, QuietCell norm c := by
  unfold getSummaryTable at h
  obtain ⟨n, _, h⟩ := bind_ok h
  split at h
  · cases h
  · rename_i k _
    cases h
    have hnil := quiet_nil norm
    have key : ∀ r ∈ summaryRows F args k (trim m args), r ≠ [] ∧ ∀ c ∈ r.tail, QuietCell norm (strip c) := by
      intro r hr
      simp only [summaryRows, List.mem_flatMap, List.mem_cons, List.mem_map] at hr
      obtain ⟨ty, _, rfl | ⟨s, _, rfl⟩⟩ := hr
      · refine ⟨by simp [typeRow], fun c hc => ?_⟩
        simp only [typeRow, List.tail_cons, List.mem_cons] at hc
        rcases hc with rfl | hc
        · exact quiet_colorDiff norm _ _ _
        · split at hc
          · simp only [List.mem_cons, List.not_mem_nil, or_false] at hc
            rcases hc with rfl | rfl | rfl
            · exact quiet_colorPct norm F hF _ _ _
            · exact quiet_colorSize norm _ _ _
            · exact quiet_colorSize norm _ _ _
          · simp only [List.mem_cons, List.not_mem_nil, or_false, or_self] at hc
            rw [hc]; exact hnil
      · refine ⟨by simp [secRow], fun c hc => ?_⟩
        simp only [secRow, List.tail_cons, List.mem_cons, List.not_mem_nil, or_false] at hc
        rcases hc with rfl | rfl | rfl | rfl
        · exact quiet_colorDiff norm _ _ _
        · split
          · exact quiet_colorPct norm F hF _ _ _
          · exact hnil
        · exact hnil
        · exact hnil
    have hf := fold_addRow (P := fun c => QuietCell norm (strip c)) hnil _ key { headers := summaryHeaders, rows := [] } (by intro r hr; cases hr)
    refine ⟨hf.1, fun c hc => ?_⟩
    have hh := headers_quiet norm
    rcases hf.2 c hc with hc | rfl
    · exact hh c hc
    · exact hnil

/-- **C98** (names and titles without markup) the CSV lines of a report of sizes are all printed, and nothing else. -/
theorem C98_csv_partial (norm : Str → Str) (R : RunIn) (hF : R.F.Plain) (crt : Option Crt) (elf : Option (List ElfSym)) (args : Args) (m : MemMap) (t : Table)
    (hd : args.archiveDependencies = false) (h : selectTable R crt elf args m = .ok t) (hn : ∀ r ∈ t.rows, ∀ name ∈ r.head?, NoMarkup name)
    (hh : (args.archives || truthy args.archiveDetails || args.files) = true → ∀ c ∈ t.headers, NoMarkup c) :
    runCalls norm (csvCalls (csvLines t)) = ((csvLines t).map fun l => .out (render l), true) := by
  have hcells : CellsAfterName (fun c => QuietCell norm (strip c)) t ∧ ∀ c ∈ t.headers, QuietCell norm c := by
    unfold selectTable at h
    rw [hd] at h
    cases ha : args.archives with
    | true =>
      rw [ha] at h hh
      simp only [if_true, getArchivesTable] at h
      obtain ⟨s, _, h⟩ := bind_ok h
      exact ⟨detail_quiet norm h, fun c hc => quiet_plain norm (hh rfl c hc)⟩
    | false =>
      cases hdet : truthy args.archiveDetails with
      | true =>
        rw [ha, hdet] at h hh
        simp only [Bool.false_eq_true, if_false, if_true, getSymbolsTable] at h
        obtain ⟨s, _, h⟩ := bind_ok h
        exact ⟨detail_quiet norm h, fun c hc => quiet_plain norm (hh rfl c hc)⟩
      | false =>
        cases hf : args.files with
        | true =>
          rw [ha, hdet, hf] at h hh
          simp only [Bool.false_eq_true, if_false, if_true, getObjectFilesTable] at h
          obtain ⟨s, _, h⟩ := bind_ok h
          exact ⟨detail_quiet norm h, fun c hc => quiet_plain norm (hh rfl c hc)⟩
        | false =>
          rw [ha, hdet, hf] at h
          simp only [Bool.false_eq_true, if_false] at h
          exact summary_quiet norm hF h
  have hline : ∀ l ∈ csvLines t, (PrintCall.print l).run norm = some (.out (render l)) := by
    intro l hl
    have : ∃ o, tags norm [] l = some o := by
      rcases List.mem_cons.mp hl with rfl | hl
      · exact quiet_join norm _ hcells.2 []
      · obtain ⟨r, hr, rfl⟩ := List.mem_map.mp hl
        have e : (r.map fun c => quoteCell (strip c)) = (r.map strip).map quoteCell := by simp
        simp only [e]
        refine quiet_join norm _ (fun c hc => ?_) []
        obtain ⟨c, hc', rfl⟩ := List.mem_map.mp hc
        have hq := hcells.1 r hr
        cases r with
        | nil => cases hc'
        | cons name rest =>
          rcases List.mem_cons.mp hc' with rfl | hc
          · exact quiet_plain norm (hn _ hr c (by simp)).strip
          · exact hq.2 c hc
    obtain ⟨o, ho⟩ := this
    simp only [PrintCall.run, renderE, ho, Option.map_some]
  unfold csvCalls
  rw [runCalls_ok norm (fun c => match c with | .print l => .out (render l) | .eprint l => .err l | .table _ => .cells []) _ (by
    intro c hc
    obtain ⟨l, hl, rfl⟩ := List.mem_map.mp hc
    exact hline l hl)]
  simp

/-- **C98** (violated) a CSV row whose name has a closing tag as its first tag stops the output. -/
theorem C98_csv_raises (norm : Str → Str) (t : Table) (name : Str) (cells : List Str) (hr : name :: cells ∈ t.rows) (h : StrayClose (strip name)) :
    (runCalls norm (csvCalls (csvLines t))).2 = false := by
  refine runCalls_any_fail norm _ ⟨.print (joinWith [','] ((name :: cells).map fun c => quoteCell (strip c))), ?_, ?_⟩
  · exact List.mem_map_of_mem (List.mem_cons_of_mem _ (List.mem_map_of_mem hr))
  · have : ∃ u, joinWith [','] ((name :: cells).map fun c => quoteCell (strip c)) = '"' :: (strip name ++ u) := by
      cases cells with
      | nil => exact ⟨['"'], rfl⟩
      | cons d ds => exact ⟨_, by simp [joinWith, quoteCell]; rfl⟩
    obtain ⟨u, hu⟩ := this
    simp only [PrintCall.run, renderE, hu]
    rw [tags_cons (tagAt_plain (by decide) (by decide) _), tags_stray norm h]
    rfl

/-! ### Examples -/

def exFrameMap : MemMap := ⟨str "1.2", str "esp32", str "esp32", 5, -2, str "/work/a", str "/work/b", []⟩

def exFrameArgs : Args := { ({} : Args) with diff := some (str "b.map") }

/-- The hypotheses are satisfiable. -/
example : runCalls id (tableCalls exFrameMap exFrameArgs ⟨[str "Symbol", str "Total Size"], [[str "f", str "5"]]⟩) =
    (comparisonLines (str "/work/a") (str "/work/b") ++
      [.cells [[str "Symbol", str "Total Size"], [str "f", str "5"]], imageLine true 5 (-2), noteLine], true) :=
  C98_calls_partial id exFrameMap exFrameArgs ⟨[str "Symbol", str "Total Size"], [[str "f", str "5"]]⟩ (by decide) (by decide)
    (by intro r hr c hc; simp at hr; rcases hr with rfl | rfl <;> (simp at hc; rcases hc with rfl | rfl <;> exact plain_ok id (by decide)))
    (by decide)

example : imageLine true 5 (-2) = .err (str "Total image size: 5     -2 bytes (.bin may be padded larger)") := by decide +kernel

example : StrayClose (str "/work/a[/b]/c.map") := ⟨str "/work/a", str "b", str "/c.map", rfl, by decide, by decide, by decide, by decide⟩

/-- **C98** (violated) a symbol whose name looks like a closing tag: only the introduction is shown, although the table is there. -/
theorem C98_name_raises : runCalls id (tableCalls exFrameMap exFrameArgs ⟨[str "Symbol", str "Total Size"], [[str "f", str "5"], [str "g[/x]", str "5"]]⟩) =
    (comparisonLines (str "/work/a") (str "/work/b"), false) := by
  have hi := C98_comparison_partial id exFrameMap exFrameArgs (by decide) (by decide)
  unfold tableCalls
  rw [show exFrameArgs.archives = false from rfl, show truthy exFrameArgs.archiveDetails = false from rfl, show exFrameArgs.archiveDependencies = false from rfl,
    show exFrameArgs.files = false from rfl]
  simp only [Bool.false_eq_true, if_false]
  rw [runCalls_append id _ _ _ hi, C98_cell_raises id _ _ [str "g[/x]", str "5"] (by simp) (str "g[/x]") (by simp)
    ⟨str "g", str "x", [], rfl, by decide, by decide, by decide, by decide⟩]
  rfl

end EspSize
