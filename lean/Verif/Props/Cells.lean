import Verif.Spec.Cells
import Verif.Props.TreeFmt
import Verif.Props.Json
/-! # C84: numbers, changes and colours in cells -/
namespace EspSize

/-! ### Styles -/

theorem styleN_fuel (n m : Nat) (o : List Str) (s : Str) (hn : s.length ≤ n) (hm : s.length ≤ m) : styleN n o s = styleN m o s := by
  induction n generalizing m o s with
  | zero =>
    have : s = [] := List.eq_nil_of_length_eq_zero (by omega)
    subst this
    cases m <;> rfl
  | succ n ih =>
    cases m with
    | zero =>
      have : s = [] := List.eq_nil_of_length_eq_zero (by omega)
      subst this; rfl
    | succ m =>
      unfold styleN
      split
      · rename_i k tag rest h
        have := tagAt_len h
        rw [ih m _ rest (by omega) (by omega)]
      · split
        · rfl
        · simp only [List.length_cons] at hn hm
          rw [ih m _ _ (by omega) (by omega)]
        · simp only [List.length_cons] at hn hm
          rw [ih m _ _ (by omega) (by omega)]

theorem inStyle_append (o : Option Str) (a b : Str) : inStyle o (a ++ b) = inStyle o a ++ inStyle o b := by
  simp [inStyle]

/-- The characters are those of `render`. -/
theorem styledIn_text (o : List Str) (s : Str) : (styledIn o s).map Prod.fst = render s := by
  have hi : ∀ (o : Option Str) (s : Str), (inStyle o s).map Prod.fst = s := by
    intro o s; simp [inStyle, Function.comp_def]
  have : ∀ n (o : List Str) (s : Str), (styleN n o s).map Prod.fst = renderN n s := by
    intro n
    induction n with
    | zero => intro o s; exact hi _ _
    | succ n ih =>
      intro o s
      unfold styleN renderN
      cases htag : tagAt s with
      | some x => simp only [List.map_append, hi, ih]
      | none =>
        simp only
        split
        · rfl
        · simp only [List.map_cons, ih]
        · rename_i c t hct _
          simp only [List.map_cons, ih]
  exact this _ _ _

theorem styledIn_cons {c : Char} (h1 : c ≠ '[') (h2 : c ≠ '\\') (o : List Str) (t : Str) :
    styledIn o (c :: t) = (c, o.head?) :: styledIn o t := by
  show styleN (t.length + 1) o (c :: t) = _
  unfold styleN
  have : tagAt (c :: t) = none := by
    unfold tagAt
    split
    · rename_i heq; cases heq; exact absurd rfl h2
    · rename_i heq; cases heq; exact absurd rfl h1
    · rfl
  rw [this]
  simp only
  split
  · rename_i heq; cases heq
  · rename_i heq; cases heq; exact absurd rfl h2
  · rename_i heq; cases heq; rfl

theorem styledIn_neutral {s : Str} (h : Neutral s) (o : List Str) (t : Str) :
    styledIn o (s ++ t) = inStyle o.head? s ++ styledIn o t := by
  induction s with
  | nil => rfl
  | cons c s ih =>
    rw [List.cons_append, styledIn_cons (h c (by simp)).1 (h c (by simp)).2, ih fun x hx => h x (by simp [hx])]
    rfl

theorem styledIn_tag {tag rest : Str} (o : List Str) (t : Str) (h : tagText t = some (tag, rest)) :
    styledIn o ('[' :: t) = styledIn (applyTag o tag) rest := by
  have hat : tagAt ('[' :: t) = some (0, tag, rest) := by
    show (tagText t).map (fun x => (0, x)) = _
    rw [h]; rfl
  have hl := tagAt_len hat
  show styleN (t.length + 1) o ('[' :: t) = styleN rest.length _ rest
  conv => lhs; unfold styleN
  rw [hat]
  simp only [Nat.zero_div, List.replicate_zero, Nat.zero_mod, List.nil_append]
  rw [if_neg (by decide), if_neg (by decide)]
  simp only [List.length_cons] at hl
  exact styleN_fuel t.length rest.length _ rest (by omega) (Nat.le_refl _)

/-- Text without tags is shown as it is. -/
theorem styledIn_plain {s : Str} (h1 : ¬ HasTag s) (h2 : ¬ HasEscape s) (o : List Str) : styledIn o s = inStyle o.head? s := by
  have : ∀ n (s : Str), ¬ HasTag s → ¬ HasEscape s → styleN n o s = inStyle o.head? s := by
    intro n
    induction n with
    | zero => intro s _ _; rfl
    | succ n ih =>
      intro s h1 h2
      unfold styleN
      have : tagAt s = none := by
        cases ht : tagAt s with
        | none => rfl
        | some p => obtain ⟨k, tag, rest⟩ := p; exact absurd (tagAt_some ht).1 h1
      rw [this]
      simp only
      split
      · rfl
      · rename_i t; exact absurd ⟨[], t, rfl⟩ h2
      · rename_i c t _
        rw [ih t (fun ⟨a, x, b, r, h, hh⟩ => h1 ⟨c :: a, x, b, r, by rw [h]; rfl, hh⟩) fun ⟨a, r, h⟩ => h2 ⟨c :: a, r, by rw [h]; rfl⟩]
        rfl
  exact this _ _ h1 h2

/-- A number and a change between tags. -/
theorem styled_change {a b : Str} (ha : Neutral a) (hb : Neutral b) (colour close : Str) (hc : tagText (colour ++ ']' :: ' ' :: (b ++ '[' :: close)) = some (colour, ' ' :: (b ++ '[' :: close)))
    (hcl : ∃ tag, tagText close = some (tag, [])) (hh : colour.head? ≠ some '/') :
    styled (a ++ '[' :: (colour ++ ']' :: ' ' :: (b ++ '[' :: close))) = inStyle none a ++ inStyle (some colour) (' ' :: b) := by
  unfold styled
  rw [styledIn_neutral ha, styledIn_tag _ _ hc]
  have : applyTag [] colour = [colour] := by
    unfold applyTag
    split
    · simp at hh
    · rfl
  rw [this, styledIn_cons (by decide) (by decide), styledIn_neutral hb]
  obtain ⟨tag, ht⟩ := hcl
  rw [styledIn_tag _ _ ht]
  simp [inStyle, styledIn, styleN]

theorem neutral_plus6 (d : Int) : Neutral (plus6 d) := fun c hc =>
  ⟨(fieldChar_neutral (plus6_chars d c hc)).1, (fieldChar_neutral (plus6_chars d c hc)).2.1⟩

theorem neutral_int6 (d : Int) : Neutral (int6 d) := fun c hc =>
  ⟨(fieldChar_neutral (int6_chars d c hc)).1, (fieldChar_neutral (int6_chars d c hc)).2.1⟩

theorem styled_neutral {s : Str} (h : Neutral s) : styled s = inStyle none s := by
  have := styledIn_neutral h [] []
  rw [List.append_nil] at this
  unfold styled
  rw [this]
  simp [styledIn, styleN, inStyle]

theorem rat_pos_int (d : Int) : decide ((0 : Rat) < (d : Rat)) = decide (0 < d) := by
  rw [decide_eq_decide]
  exact Rat.intCast_pos

theorem rat_zero_int (d : Int) : ((d : Rat) = 0) ↔ d = 0 := Rat.intCast_eq_zero_iff

/-- **C84** sizes: the number and, in a comparison, the change; growth is red, shrinking green. -/
theorem C84_size_cell (z d : Int) (diff : Bool) : styled (colorDiff z d diff) = numberCell true diff z d := by
  unfold colorDiff numberCell changeColour
  cases diff with
  | false => simp [styled_neutral (intStr_neutral z)]
  | true =>
    simp only [Bool.not_true, Bool.false_eq_true, if_false, if_true, rat_pos_int, rat_zero_int]
    by_cases h1 : d < 0
    · rw [if_pos h1, if_neg (by omega), if_neg (by simp; omega), if_neg (by omega)]
      have := styled_change (intStr_neutral z) (neutral_plus6 d) (str "green") (str "/green]") rfl ⟨_, rfl⟩ (by decide)
      simpa [str] using this
    · by_cases h2 : d > 0
      · rw [if_neg h1, if_pos h2, if_neg (by omega), if_pos (by simp; omega), if_neg (by omega)]
        have := styled_change (intStr_neutral z) (neutral_plus6 d) (str "red") (str "/red]") rfl ⟨_, rfl⟩ (by decide)
        simpa [str] using this
      · have h0 : d = 0 := by omega
        rw [if_neg h1, if_neg h2, if_pos h0, if_pos h0]
        have hn : Neutral (intStr z ++ str " " ++ int6 d) := by
          intro c hc
          simp only [List.mem_append] at hc
          rcases hc with (hc | hc) | hc
          · exact intStr_neutral z c hc
          · exact (by unfold Neutral; decide : Neutral _) c hc
          · exact neutral_int6 d c hc
        rw [styled_neutral hn]
        simp [inStyle, str]

/-- **C84** space that remains and totals: growth is green, shrinking red. -/
theorem C84_space_cell (z d : Int) (diff : Bool) : styled (colorSize z d diff) = numberCell false diff z d := by
  unfold colorSize numberCell changeColour
  cases diff with
  | false => simp [styled_neutral (intStr_neutral z)]
  | true =>
    simp only [Bool.not_true, Bool.false_eq_true, if_false, if_true, rat_pos_int, rat_zero_int]
    by_cases h1 : d < 0
    · rw [if_pos h1, if_neg (by omega), if_pos (by simp; omega), if_neg (by omega)]
      have := styled_change (intStr_neutral z) (neutral_plus6 d) (str "red") (str "/red]") rfl ⟨_, rfl⟩ (by decide)
      simpa [str] using this
    · by_cases h2 : d > 0
      · rw [if_neg h1, if_pos h2, if_neg (by omega), if_neg (by simp; omega), if_neg (by omega)]
        have := styled_change (intStr_neutral z) (neutral_plus6 d) (str "green") (str "green]") rfl ⟨_, rfl⟩ (by decide)
        simpa [str] using this
      · have h0 : d = 0 := by omega
        rw [if_neg h1, if_neg h2, if_pos h0, if_pos h0]
        have hn : Neutral (intStr z ++ str " " ++ int6 d) := by
          intro c hc
          simp only [List.mem_append] at hc
          rcases hc with (hc | hc) | hc
          · exact intStr_neutral z c hc
          · exact (by unfold Neutral; decide : Neutral _) c hc
          · exact neutral_int6 d c hc
        rw [styled_neutral hn]
        simp [inStyle, str]

/-- **C84** percentages. -/
theorem C84_percent_cell (F : FloatOps) (hF : F.Plain) (p d : Rat) (diff : Bool) : styled (colorPct F p d diff) = percentCell F diff p d := by
  unfold colorPct percentCell changeColour
  cases diff with
  | false => simp [styled_neutral (hF.show2 p)]
  | true =>
    simp only [Bool.not_true, Bool.false_eq_true, if_false, if_true]
    generalize F.round2 d = x
    by_cases h1 : x < 0
    · rw [if_pos h1, if_neg (by grind), if_neg (by grind), if_neg (by grind)]
      have := styled_change (hF.show2 p) (hF.plus2 d) (str "green") (str "/green]") rfl ⟨_, rfl⟩ (by decide)
      simpa [str] using this
    · by_cases h2 : x > 0
      · rw [if_neg h1, if_pos h2, if_neg (by grind), if_pos (by grind), if_neg (by grind)]
        have := styled_change (hF.show2 p) (hF.plus2 d) (str "red") (str "/red]") rfl ⟨_, rfl⟩ (by decide)
        simpa [str] using this
      · have h0 : x = 0 := by grind
        rw [if_neg h1, if_neg h2, if_pos h0, if_pos h0]
        have hn : Neutral (F.show2 p ++ str " " ++ F.pad2 d) := by
          intro c hc
          simp only [List.mem_append] at hc
          rcases hc with (hc | hc) | hc
          · exact hF.show2 p c hc
          · exact (by unfold Neutral; decide : Neutral _) c hc
          · exact hF.pad2 d c hc
        rw [styled_neutral hn]
        simp [inStyle, str]

/-! ### Rows of the summary -/

theorem styled_nil : styled [] = [] := rfl

theorem pctDiffOf_change (F : FloatOps) (a b c d : Int) : pctDiffOf F a b c d = percentChange F a b c d := by
  unfold pctDiffOf percentChange
  by_cases h : c - d = 0
  · rw [if_neg (by simp [h]), if_pos h, pctOf_percent]
  · rw [if_pos h, if_neg h, pctOf_percent]
    have : percent F (a - b) (c - d) = F.rnd (F.rnd (((a - b : Int) : Rat) / ((c - d : Int) : Rat)) * 100) := by
      unfold percent; rw [if_neg h]
    rw [this]

theorem typeRow_shows (F : FloatOps) (hF : F.Plain) (args : Args) (t : Str × MType) :
    RowShows t.1 (typeCells F (truthy args.diff) t.2) (typeRow F args t) := by
  refine ⟨_, _, rfl, fun h1 h2 => styledIn_plain h1 h2 [], ?_⟩
  unfold typeCells
  by_cases hz : t.2.size = 0
  · rw [if_neg (by simp [hz])]
    simp [hz, C84_size_cell, styled_nil]
  · rw [if_pos hz]
    simp only [hz, if_false, List.map_cons, List.map_nil, C84_size_cell, C84_percent_cell F hF, C84_space_cell, pctOf_percent, pctDiffOf_change]

theorem secRow_shows (F : FloatOps) (hF : F.Plain) (args : Args) (t : MType) (s : Str × Sec) :
    RowShows (str "   " ++ if args.abbrev_ then s.2.abb else s.1) (sectionCells F (truthy args.diff) t s.2) (secRow F args t s) := by
  refine ⟨_, _, rfl, fun h1 h2 => styledIn_plain h1 h2 [], ?_⟩
  unfold sectionCells
  by_cases hz : t.size = 0
  · rw [if_neg (by simp [hz])]
    simp [hz, C84_size_cell, styled_nil]
  · rw [if_pos hz]
    simp only [hz, if_false, List.map_cons, List.map_nil, C84_size_cell, C84_percent_cell F hF, pctOf_percent, pctDiffOf_change, styled_nil]

theorem all2_map_right {α β : Type} {R : α → β → Prop} {f : α → β} (h : ∀ x, R x (f x)) : ∀ l : List α, All2 R l (l.map f)
  | [] => trivial
  | x :: l => ⟨h x, all2_map_right h l⟩

/-- **C40** every row of the summary, with text and colours: memory types with what is used, the percentage, what remains and
the total; below them their sections. -/
theorem C40_rows (F : FloatOps) (hF : F.Plain) (m : MemMap) (args : Args) (i : Nat)
    (hi : Selects (str "Memory Type/Section") sumColTitles args.sort i) :
    ∃ (ts : Dict Str MType) (blocks : List (List (List Str))),
      getSummaryTable F m args = .ok { headers := summaryHeaders, rows := blocks.flatten } ∧
      StableSort (fun t => truncRat (typeValue F args.sortDiff i t.2)) args.sortReverse (trim m args).memoryTypes ts ∧
      All2 (fun t b => ∃ r rs ss, b = r :: rs ∧ RowShows t.1 (typeCells F (truthy args.diff) t.2) r ∧
        StableSort (fun s => truncRat (secValue F args.sortDiff i t.2 s.2)) args.sortReverse t.2.sections ss ∧
        All2 (fun s row => RowShows (str "   " ++ if args.abbrev_ then s.2.abb else s.1) (sectionCells F (truthy args.diff) t.2 s.2) row) ss rs)
        ts blocks := by
  obtain ⟨rows, h, _, ts, blocks, hts, hb, hr⟩ := (C40_summary_table_partial F m args).1 i hi
  subst hr
  refine ⟨ts, blocks, h, hts, All2.imp hb ?_⟩
  rintro t _ b ⟨ss, hss, rfl⟩
  exact ⟨_, _, ss, rfl, typeRow_shows F hF args t, hss, all2_map_right (secRow_shows F hF args t.2) ss⟩

end EspSize
