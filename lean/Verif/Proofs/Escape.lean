import Verif.Model.Die
import Verif.Spec.Markup
import Verif.Props.Csv
/-! # Escaped text is shown as it is -/
namespace EspSize

/-- A tag in a text without escaped brackets: no backslash is before it. -/
theorem tagAt_noEscape {s : Str} (h : ¬ HasEscape s) {k : Nat} {tag rest : Str} (ht : tagAt s = some (k, tag, rest)) :
    k = 0 ∧ ∃ t, s = '[' :: t ∧ tagText t = some (tag, rest) := by
  induction s generalizing k with
  | nil => cases ht
  | cons c t ih =>
    unfold tagAt at ht
    split at ht
    · rename_i u heq
      cases heq
      cases hu : tagAt t with
      | none => rw [hu] at ht; cases ht
      | some p =>
        obtain ⟨k', tag', rest'⟩ := p
        rw [hu] at ht
        cases ht
        obtain ⟨_, v, hv, _⟩ := ih (fun ⟨a, b, e⟩ => h ⟨'\\' :: a, b, by rw [e]; rfl⟩) hu
        exact absurd ⟨[], v, by rw [hv]; rfl⟩ h
    · rename_i u heq
      cases heq
      cases hu : tagText t with
      | none => rw [hu] at ht; cases ht
      | some p =>
        rw [hu] at ht
        cases ht
        exact ⟨rfl, t, rfl, hu⟩
    · cases ht

theorem noEscape_tail {c : Char} {t : Str} (h : ¬ HasEscape (c :: t)) : ¬ HasEscape t :=
  fun ⟨a, b, e⟩ => h ⟨c :: a, b, by rw [e]; rfl⟩

theorem tagBody_cons {c : Char} (h1 : c ≠ ']') (h2 : c ≠ '[') (t : Str) : tagBody (c :: t) = (tagBody t).map fun p => (c :: p.1, p.2) := by
  rw [tagBody.eq_def]
  split
  · rename_i heq; cases heq
  · rename_i heq; cases heq; exact absurd rfl h1
  · rename_i heq; cases heq; exact absurd rfl h2
  · rename_i heq; cases heq; rfl

/-- The body of a tag ends at the first bracket. -/
theorem tagBody_close {t b r : Str} (h : tagBody t = some (b, r)) (r' : Str) : t = b ++ ']' :: r ∧ tagBody (b ++ ']' :: r') = some (b, r') := by
  induction t generalizing b with
  | nil => cases h
  | cons c t ih =>
    by_cases h1 : c = ']'
    · subst h1; cases h; exact ⟨rfl, rfl⟩
    by_cases h2 : c = '['
    · subst h2; cases h
    rw [tagBody_cons h1 h2] at h
    cases ht : tagBody t with
    | none => rw [ht] at h; cases h
    | some p =>
      obtain ⟨b', r''⟩ := p
      rw [ht] at h
      cases h
      obtain ⟨e1, e2⟩ := ih ht
      exact ⟨by rw [e1]; rfl, by rw [List.cons_append, tagBody_cons h1 h2, e2]; rfl⟩

theorem tagText_close {t tag rest : Str} (h : tagText t = some (tag, rest)) (r : Str) : t = tag ++ ']' :: rest ∧ tagText (tag ++ ']' :: r) = some (tag, r) := by
  cases t with
  | nil => cases h
  | cons c t =>
    simp only [tagText] at h
    split at h
    · rename_i hc
      cases hb : tagBody t with
      | none => rw [hb] at h; cases h
      | some p =>
        obtain ⟨b, r'⟩ := p
        rw [hb] at h
        cases h
        obtain ⟨e1, e2⟩ := tagBody_close hb r
        refine ⟨by rw [e1]; rfl, ?_⟩
        simp only [List.cons_append, tagText, hc, if_true, e2, Option.map_some]
    · cases h

/-- An escaped tag is shown. -/
theorem render_escapedTag {t tag rest : Str} (h : tagText t = some (tag, rest)) (r : Str) :
    render ('\\' :: '[' :: (tag ++ ']' :: r)) = '[' :: (tag ++ ']' :: render r) := by
  have hat : tagAt ('\\' :: '[' :: (tag ++ ']' :: r)) = some (1, tag, r) := by
    show ((tagText (tag ++ ']' :: r)).map fun y => (0, y)).map _ = _
    rw [(tagText_close h r).2]; rfl
  have hl := tagAt_len hat
  show renderN (('[' :: (tag ++ ']' :: r)).length + 1) _ = _
  rw [renderN.eq_def]
  simp only [hat]
  rw [renderN_fuel _ r.length r (by simp only [List.length_cons] at hl ⊢; omega) (Nat.le_refl _)]
  simp [render]

/-- What is not the start of a tag is kept. -/
theorem render_keep {c : Char} {t : Str} (h : tagAt (c :: t) = none) (hb : c = '\\' → t.head? ≠ some '[') : render (c :: t) = c :: render t := by
  show renderN (t.length + 1) (c :: t) = _
  rw [renderN.eq_def]
  simp only [h]
  split
  · rename_i heq; cases heq
  · rename_i heq; cases heq; exact absurd rfl (hb rfl)
  · rename_i heq; cases heq; rfl

/-- The substitution, with text after it. -/
theorem escapeTags_step (n : Nat) {c : Char} {t : Str} (h : tagAt (c :: t) = none) : escapeTagsN (n + 1) (c :: t) = c :: escapeTagsN n t := by
  rw [escapeTagsN.eq_def]
  simp only [h]

theorem escapeTags_tag (n : Nat) {s tag rest : Str} {k : Nat} (h : tagAt s = some (k, tag, rest)) :
    escapeTagsN (n + 1) s = List.replicate (2 * k + 1) '\\' ++ '[' :: (tag ++ ']' :: escapeTagsN n rest) := by
  rw [escapeTagsN.eq_def]
  simp only [h]

theorem tagAt_other {c : Char} (h1 : c ≠ '[') (h2 : c ≠ '\\') (t : Str) : tagAt (c :: t) = none := by
  rw [tagAt.eq_def]
  split
  · rename_i heq; cases heq; exact absurd rfl h2
  · rename_i heq; cases heq; exact absurd rfl h1
  · rfl

theorem tagBody_never {z : Str} (h : ']' ∉ z) : tagBody z = none := by
  cases ht : tagBody z with
  | none => rfl
  | some p => obtain ⟨b, r⟩ := p; exact absurd (by rw [(tagBody_some ht).1]; simp) h

/-- No tag body arises from escaping. -/
theorem tagBody_escaped {z : Str} (hz : ']' ∉ z) (n : Nat) (u : Str) (hn : u.length ≤ n) (he : ¬ HasEscape u) (h : tagBody u = none) :
    tagBody (escapeTagsN n u ++ z) = none := by
  induction u generalizing n with
  | nil =>
    have : escapeTagsN n [] = [] := by cases n <;> rfl
    rw [this]
    exact tagBody_never hz
  | cons c u ih =>
    cases n with
    | zero => simp at hn
    | succ n =>
      have h1 : c ≠ ']' := by rintro rfl; cases h
      by_cases h2 : c = '['
      · subst h2
        cases ht : tagAt ('[' :: u) with
        | none => rw [escapeTags_step n ht]; rfl
        | some p =>
          obtain ⟨k, tag, rest⟩ := p
          obtain ⟨rfl, _⟩ := tagAt_noEscape he ht
          rw [escapeTags_tag n ht]
          rfl
      · have ht : tagAt (c :: u) = none := by
          cases ht : tagAt (c :: u) with
          | none => rfl
          | some p =>
            obtain ⟨k, tag, rest⟩ := p
            obtain ⟨_, v, hv, _⟩ := tagAt_noEscape he ht
            cases hv
            exact absurd rfl h2
        rw [escapeTags_step n ht, List.cons_append, tagBody_cons h1 h2,
          ih n (by simp only [List.length_cons] at hn; omega) (noEscape_tail he) (by
            rw [tagBody_cons h1 h2] at h
            cases hb : tagBody u with
            | none => rfl
            | some p => rw [hb] at h; cases h)]
        rfl

/-- What is escaped begins as before, or with a backslash before a tag. -/
theorem escaped_head (n : Nat) {c : Char} {t : Str} (he : ¬ HasEscape (c :: t)) :
    (∃ v, escapeTagsN (n + 1) (c :: t) = c :: v) ∨ c = '[' ∧ ∃ v, escapeTagsN (n + 1) (c :: t) = '\\' :: v := by
  cases ht : tagAt (c :: t) with
  | none => exact .inl ⟨_, escapeTags_step n ht⟩
  | some p =>
    obtain ⟨k, tag, rest⟩ := p
    obtain ⟨rfl, v, hv, _⟩ := tagAt_noEscape he ht
    cases hv
    exact .inr ⟨rfl, _, escapeTags_tag n ht⟩

/-- Behind a backslash, no tag arises. -/
theorem tagAt_escaped {q : Char} {z : Str} (h1 : q ≠ '[') (h2 : q ≠ '\\') (n : Nat) (t : Str) (hn : t.length ≤ n) (he : ¬ HasEscape ('\\' :: t)) :
    tagAt (escapeTagsN n t ++ q :: z) = none ∧ (escapeTagsN n t ++ q :: z).head? ≠ some '[' := by
  induction t generalizing n with
  | nil =>
    have : escapeTagsN n [] = [] := by cases n <;> rfl
    rw [this]
    exact ⟨tagAt_other h1 h2 z, by simpa using h1⟩
  | cons c t ih =>
    cases n with
    | zero => simp at hn
    | succ n =>
      have hc : c ≠ '[' := by rintro rfl; exact he ⟨[], t, rfl⟩
      have ht : tagAt (c :: t) = none := by
        cases ht : tagAt (c :: t) with
        | none => rfl
        | some p =>
          obtain ⟨k, tag, rest⟩ := p
          obtain ⟨_, v, hv, _⟩ := tagAt_noEscape (noEscape_tail he) ht
          cases hv
          exact absurd rfl hc
      rw [escapeTags_step n ht, List.cons_append]
      refine ⟨?_, by simpa using hc⟩
      by_cases hb : c = '\\'
      · subst hb
        have := (ih n (by simp only [List.length_cons] at hn; omega) (noEscape_tail he)).1
        show (tagAt (escapeTagsN n t ++ q :: z)).map _ = none
        rw [this]
        rfl
      · exact tagAt_other hc hb _

/-- Escaped text is shown as it is, if something without brackets follows. -/
theorem render_escapeTags {q : Char} {z : Str} (h1 : q ≠ '[') (h2 : q ≠ '\\') (h3 : tagStart q = false) (hz : ']' ∉ q :: z) (n : Nat) (s : Str)
    (hn : s.length ≤ n) (he : ¬ HasEscape s) : render (escapeTagsN n s ++ q :: z) = s ++ render (q :: z) := by
  induction n generalizing s with
  | zero => cases s with
    | nil => rfl
    | cons c s => simp at hn
  | succ n ih =>
    cases ht : tagAt s with
    | some p =>
      obtain ⟨k, tag, rest⟩ := p
      obtain ⟨rfl, t, rfl, hx⟩ := tagAt_noEscape he ht
      have e := (tagText_close hx rest).1
      rw [escapeTags_tag n ht]
      show render ('\\' :: '[' :: (tag ++ ']' :: escapeTagsN n rest) ++ q :: z) = _
      rw [List.cons_append, List.cons_append, List.append_assoc, List.cons_append, render_escapedTag hx,
        ih rest (by rw [e] at hn; simp only [List.length_cons, List.length_append] at hn; omega)
          (fun ⟨a, b, h⟩ => he ⟨'[' :: (tag ++ ']' :: a), b, by rw [e, h]; simp⟩), e]
      simp
    | none =>
      cases s with
      | nil => rfl
      | cons c t =>
        have hn' : t.length ≤ n := by simp only [List.length_cons] at hn; omega
        have het := noEscape_tail he
        rw [escapeTags_step n ht, List.cons_append, List.cons_append, ← ih t hn' het]
        have key : tagAt (c :: (escapeTagsN n t ++ q :: z)) = none := by
          by_cases hb : c = '\\'
          · subst hb
            show (tagAt (escapeTagsN n t ++ q :: z)).map _ = none
            rw [(tagAt_escaped h1 h2 n t hn' he).1]
            rfl
          by_cases hc : c = '['
          · subst hc
            have hx : tagText t = none := by
              cases hx : tagText t with
              | none => rfl
              | some p =>
                have : tagAt ('[' :: t) = (tagText t).map fun x => (0, x) := rfl
                rw [hx, ht] at this
                cases this
            show (tagText (escapeTagsN n t ++ q :: z)).map _ = none
            suffices h : tagText (escapeTagsN n t ++ q :: z) = none by rw [h]; rfl
            cases t with
            | nil =>
              have : escapeTagsN n [] = [] := by cases n <;> rfl
              rw [this, List.nil_append]
              simp only [tagText, h3, Bool.false_eq_true, if_false]
            | cons x u =>
              cases n with
              | zero => simp at hn'
              | succ n =>
                by_cases hs : tagStart x = true
                · have hx1 : x ≠ '[' := by rintro rfl; revert hs; decide
                  have hx2 : x ≠ '\\' := by rintro rfl; revert hs; decide
                  simp only [tagText, hs, if_true, Option.map_eq_none_iff] at hx
                  rw [escapeTags_step n (tagAt_other hx1 hx2 u), List.cons_append]
                  simp only [tagText, hs, if_true, Option.map_eq_none_iff]
                  exact tagBody_escaped hz n u (by simp only [List.length_cons] at hn'; omega) (noEscape_tail het) hx
                · rcases escaped_head n het with ⟨v, hv⟩ | ⟨_, v, hv⟩
                  · rw [hv, List.cons_append]
                    simp only [tagText, hs, if_false, Bool.false_eq_true]
                  · rw [hv, List.cons_append]
                    rfl
          · exact tagAt_other hc hb _
        exact render_keep key fun hb => by
          subst hb
          exact (tagAt_escaped h1 h2 n t hn' he).2

/-- The last character is kept. -/
theorem escapeTags_last (n : Nat) (s : Str) (hn : s.length ≤ n) : (escapeTagsN n s).getLast? = s.getLast? := by
  induction n generalizing s with
  | zero => rfl
  | succ n ih =>
    cases ht : tagAt s with
    | some p =>
      obtain ⟨k, tag, rest⟩ := p
      have : ∃ pre, s = pre ++ ']' :: rest := by
        clear ih hn
        induction s generalizing k with
        | nil => cases ht
        | cons c t ih =>
          rw [tagAt.eq_def] at ht
          split at ht
          · rename_i heq
            cases heq
            cases hu : tagAt t with
            | none => rw [hu] at ht; cases ht
            | some p =>
              obtain ⟨k', tag', rest'⟩ := p
              rw [hu] at ht
              cases ht
              obtain ⟨pre, e⟩ := ih k' hu
              exact ⟨'\\' :: pre, by rw [e]; rfl⟩
          · rename_i heq
            cases heq
            cases hu : tagText t with
            | none => rw [hu] at ht; cases ht
            | some p =>
              rw [hu] at ht
              cases ht
              exact ⟨'[' :: tag, by rw [(tagText_close hu rest).1]; rfl⟩
          · cases ht
      obtain ⟨pre, e⟩ := this
      have hl : rest.length ≤ n := by rw [e] at hn; simp only [List.length_cons, List.length_append] at hn; omega
      rw [escapeTags_tag n ht, e]
      simp only [List.getLast?_append, List.getLast?_cons, ih rest hl]
      simp
    | none =>
      cases s with
      | nil => rfl
      | cons c t =>
        rw [escapeTags_step n ht, List.getLast?_cons, List.getLast?_cons, ih t (by simp only [List.length_cons] at hn; omega)]

theorem escapeMarkup_eq {s : Str} (h : s.getLast? ≠ some '\\') : escapeMarkup s = escapeTagsN s.length s := by
  have hl := escapeTags_last s.length s (Nat.le_refl _)
  unfold escapeMarkup
  have : endsWith (escapeTagsN s.length s) ['\\'] = false := by
    cases he : endsWith (escapeTagsN s.length s) ['\\'] with
    | false => rfl
    | true =>
      unfold endsWith at he
      obtain ⟨u, hu⟩ := List.isSuffixOf_iff_suffix.mp he
      rw [← hu] at hl
      simp at hl
      exact absurd hl.symm h
  simp only [this, Bool.false_and, Bool.false_eq_true, if_false]

end EspSize
