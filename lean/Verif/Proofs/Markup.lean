import Verif.Spec.Markup
import Verif.Py.Markup
import Verif.Py.Path
import Verif.Proofs.Fmt
/-! # Texts with and without markup -/
namespace EspSize

theorem tagStart_iff (c : Char) :
    tagStart c = true ↔ ('a'.toNat ≤ c.toNat ∧ c.toNat ≤ 'z'.toNat) ∨ c ∈ ['#', '/', '@'] := by
  have e1 : ('a' ≤ c) ↔ 'a'.toNat ≤ c.toNat := Iff.rfl
  have e2 : (c ≤ 'z') ↔ c.toNat ≤ 'z'.toNat := Iff.rfl
  simp only [tagStart, Bool.or_eq_true, Bool.and_eq_true, decide_eq_true_eq, e1, e2, List.mem_cons, List.not_mem_nil, or_false, or_assoc]

theorem tagBody_some {t b r : Str} (h : tagBody t = some (b, r)) : t = b ++ ']' :: r ∧ '[' ∉ b := by
  induction t generalizing b with
  | nil => cases h
  | cons c t ih =>
    unfold tagBody at h
    split at h
    · rename_i heq; cases heq
    · rename_i heq; cases heq; cases h; exact ⟨rfl, by simp⟩
    · cases h
    · rename_i c' t' hx hy heq
      cases heq
      cases hb : tagBody t with
      | none => rw [hb] at h; cases h
      | some p =>
        obtain ⟨b', r'⟩ := p
        rw [hb] at h
        cases h
        obtain ⟨h1, h2⟩ := ih hb
        refine ⟨by rw [h1]; rfl, fun hm => ?_⟩
        rcases List.mem_cons.mp hm with hm | hm
        · exact hy hm.symm
        · exact h2 hm

theorem tagBody_isSome {b r : Str} (h : '[' ∉ b) : tagBody (b ++ ']' :: r) ≠ none := by
  induction b with
  | nil => intro hh; cases hh
  | cons c b ih =>
    intro hh
    rw [List.cons_append] at hh
    unfold tagBody at hh
    split at hh
    · rename_i heq; cases heq
    · cases hh
    · rename_i heq; cases heq; exact h (by simp)
    · rename_i heq
      cases heq
      have := ih fun hx => h (by simp [hx])
      cases hb : tagBody (b ++ ']' :: r) with
      | none => exact this hb
      | some p => rw [hb] at hh; cases hh

theorem tagAt_some {s : Str} {k : Nat} {tag rest : Str} (h : tagAt s = some (k, tag, rest)) :
    HasTag s ∧ s.length = k + tag.length + 2 + rest.length := by
  induction s generalizing k with
  | nil => cases h
  | cons c t ih =>
    unfold tagAt at h
    split at h
    · rename_i heq
      cases heq
      cases hb : tagAt t with
      | none => rw [hb] at h; cases h
      | some p =>
        obtain ⟨k', tag', rest'⟩ := p
        rw [hb] at h
        cases h
        obtain ⟨⟨a, c, b, r, h1, h2⟩, h3⟩ := ih hb
        refine ⟨⟨'\\' :: a, c, b, r, by rw [h1]; rfl, h2⟩, ?_⟩
        simp only [List.length_cons]; omega
    · rename_i heq
      cases heq
      cases t with
      | nil => cases h
      | cons c t =>
        simp only [tagText] at h
        by_cases hc : tagStart c = true
        · rw [if_pos hc] at h
          cases hb : tagBody t with
          | none => rw [hb] at h; cases h
          | some p =>
            obtain ⟨b, r⟩ := p
            rw [hb] at h
            cases h
            obtain ⟨h1, h2⟩ := tagBody_some hb
            refine ⟨⟨[], c, b, r, by rw [h1]; rfl, h2, (tagStart_iff c).mp hc⟩, ?_⟩
            rw [h1]; simp only [List.length_cons, List.length_append]; omega
        · rw [if_neg hc] at h; cases h
    · cases h

/-- A tag is at the start or further on. -/
theorem HasTag.tail {c : Char} {t : Str} (h : HasTag (c :: t)) (hn : tagAt (c :: t) = none) : HasTag t := by
  obtain ⟨a, x, b, r, h1, h2, h3⟩ := h
  cases a with
  | cons y a =>
    cases h1
    exact ⟨a, x, b, r, rfl, h2, h3⟩
  | nil =>
    exfalso
    rw [List.nil_append] at h1
    cases h1
    have hs := (tagStart_iff x).mpr h3
    have hb := tagBody_isSome (r := r) h2
    have : tagAt ('[' :: x :: (b ++ ']' :: r)) = ((tagBody (b ++ ']' :: r)).map fun (b, r) => (x :: b, r)).map fun x => (0, x) := by
      show (tagText (x :: (b ++ ']' :: r))).map (fun x => (0, x)) = _
      simp only [tagText]
      rw [if_pos hs]
    rw [this] at hn
    cases hx : tagBody (b ++ ']' :: r) with
    | none => exact hb hx
    | some p => rw [hx] at hn; cases hn

/-! ### Texts without markup -/

theorem renderN_plain (n : Nat) (s : Str) (h1 : ¬ HasTag s) (h2 : ¬ HasEscape s) : renderN n s = s := by
  induction n generalizing s with
  | zero => rfl
  | succ n ih =>
    unfold renderN
    cases ht : tagAt s with
    | some p => obtain ⟨k, tag, rest⟩ := p; exact absurd (tagAt_some ht).1 h1
    | none =>
      simp only
      split
      · rfl
      · rename_i t
        exact absurd ⟨[], t, rfl⟩ h2
      · rename_i c t _
        rw [ih t]
        · rintro ⟨a, x, b, r, h, hh⟩; exact h1 ⟨c :: a, x, b, r, by rw [h]; rfl, hh⟩
        · rintro ⟨a, r, h⟩; exact h2 ⟨c :: a, r, by rw [h]; rfl⟩

theorem NoMarkup.shown {s : Str} (h : NoMarkup s) : render s = s := renderN_plain _ s h.tag h.escape

theorem NoMarkup.of_noBracket {s : Str} (h : '[' ∉ s) : NoMarkup s :=
  ⟨fun ⟨a, c, b, r, e, _⟩ => h (by rw [e]; simp), fun ⟨a, c, b, e, _⟩ => h (by rw [e]; simp), fun ⟨a, r, e⟩ => h (by rw [e]; simp)⟩

/-- The end of a text without markup has none. -/
theorem NoMarkup.suffix {s : Str} (u : Str) (h : NoMarkup (u ++ s)) : NoMarkup s :=
  ⟨fun ⟨a, c, b, r, e, hh⟩ => h.tag ⟨u ++ a, c, b, r, by rw [e]; simp, hh⟩, fun ⟨a, c, b, e, hh⟩ => h.opens ⟨u ++ a, c, b, by rw [e]; simp, hh⟩,
    fun ⟨a, r, e⟩ => h.escape ⟨u ++ a, r, by rw [e]; simp⟩⟩

theorem NoMarkup.tail {c : Char} {s : Str} (h : NoMarkup (c :: s)) : NoMarkup s := h.suffix [c]

/-- So has what precedes text without brackets. -/
theorem NoMarkup.prefix {s w : Str} (hw : '[' ∉ w) (h : NoMarkup (s ++ w)) : NoMarkup s :=
  ⟨fun ⟨a, c, b, r, e, hh⟩ => h.tag ⟨a, c, b, r ++ w, by rw [e]; simp, hh⟩,
    fun ⟨a, c, b, e, hb, hc⟩ => h.opens ⟨a, c, b ++ w, by rw [e]; simp, by simp [hb, hw], hc⟩,
    fun ⟨a, r, e⟩ => h.escape ⟨a, r ++ w, by rw [e]; simp⟩⟩

theorem NoMarkup.cons {c : Char} {s : Str} (h1 : c ≠ '[') (h2 : c ≠ '\\') (h : NoMarkup s) : NoMarkup (c :: s) := by
  refine ⟨?_, ?_, ?_⟩
  · rintro ⟨a, x, b, r, e, hh⟩
    cases a with
    | nil => cases e; exact h1 rfl
    | cons y a => cases e; exact h.tag ⟨a, x, b, r, rfl, hh⟩
  · rintro ⟨a, x, b, e, hh⟩
    cases a with
    | nil => cases e; exact h1 rfl
    | cons y a => cases e; exact h.opens ⟨a, x, b, rfl, hh⟩
  · rintro ⟨a, r, e⟩
    cases a with
    | nil => cases e; exact h2 rfl
    | cons y a => cases e; exact h.escape ⟨a, r, rfl⟩

/-- A bracket before a character that no tag begins with. -/
theorem NoMarkup.bracket {c : Char} {s : Str} (hc : tagStart c = false) (h : NoMarkup (c :: s)) : NoMarkup ('[' :: c :: s) := by
  have hn : ∀ x : Char, x = c → ¬ (('a'.toNat ≤ x.toNat ∧ x.toNat ≤ 'z'.toNat) ∨ x ∈ ['#', '/', '@']) := fun x hx hh => by
    rw [← hx, (tagStart_iff x).mpr hh] at hc
    cases hc
  refine ⟨?_, ?_, ?_⟩
  · rintro ⟨a, x, b, r, e, hb, hx⟩
    cases a with
    | nil => cases e; exact hn _ rfl hx
    | cons y a => injection e with _ e; exact h.tag ⟨a, x, b, r, e, hb, hx⟩
  · rintro ⟨a, x, b, e, hb, hx⟩
    cases a with
    | nil => cases e; exact hn _ rfl hx
    | cons y a => injection e with _ e; exact h.opens ⟨a, x, b, e, hb, hx⟩
  · rintro ⟨a, r, e⟩
    cases a with
    | nil => cases e
    | cons y a => injection e with _ e; exact h.escape ⟨a, r, e⟩

theorem NoMarkup.after {a s : Str} (ha : ∀ c ∈ a, c ≠ '[' ∧ c ≠ '\\') (h : NoMarkup s) : NoMarkup (a ++ s) := by
  induction a with
  | nil => exact h
  | cons c a ih => exact .cons (ha c (by simp)).1 (ha c (by simp)).2 (ih fun x hx => ha x (by simp [hx]))

/-- Names with brackets and without markup. -/
theorem noMarkup_operator : NoMarkup (str "operator[]") :=
  .after (a := str "operator") (by decide) (.bracket (by decide) (.of_noBracket (by decide)))

/-- Text without brackets that begins with a character no tag begins with can be added. -/
theorem NoMarkup.append {s : Str} (h : NoMarkup s) {q : Char} {w : Str} (hq : tagStart q = false) (h1 : '[' ∉ q :: w) (h2 : ']' ∉ q :: w) :
    NoMarkup (s ++ q :: w) := by
  refine ⟨?_, ?_, ?_⟩
  · rintro ⟨a, x, b, r, e, hh⟩
    have e : s ++ q :: w = (a ++ '[' :: x :: b) ++ ']' :: r := by rw [e]; simp
    rcases List.append_eq_append_iff.mp e with ⟨a', e1, e2⟩ | ⟨c', e1, e2⟩
    · exact h2 (by rw [e2]; simp)
    · cases c' with
      | nil => rw [List.nil_append] at e2; cases e2; exact h2 (by simp)
      | cons y c' =>
        cases e2
        exact h.tag ⟨a, x, b, c', by rw [e1]; simp, hh⟩
  · rintro ⟨a, x, b, e, hb, hc⟩
    rcases List.append_eq_append_iff.mp e with ⟨a', e1, e2⟩ | ⟨c', e1, e2⟩
    · exact h1 (by rw [e2]; simp)
    · cases c' with
      | nil => rw [List.nil_append] at e2; cases e2; exact h1 (by simp)
      | cons y c' =>
        rw [List.cons_append] at e2
        injection e2 with e3 e2
        subst e3
        cases c' with
        | nil =>
          rw [List.nil_append] at e2
          injection e2 with e3 e2
          subst e3
          rw [(tagStart_iff x).mpr hc] at hq
          cases hq
        | cons z c' =>
          injection e2 with e3 e2
          subst e3
          refine h.opens ⟨a, x, c', e1, fun hm => hb ?_, hc⟩
          rw [e2]; simp [hm]
  · rintro ⟨a, r, e⟩
    have e : s ++ q :: w = (a ++ ['\\']) ++ '[' :: r := by rw [e]; simp
    rcases List.append_eq_append_iff.mp e with ⟨a', e1, e2⟩ | ⟨c', e1, e2⟩
    · exact h1 (by rw [e2]; simp)
    · cases c' with
      | nil => rw [List.nil_append] at e2; cases e2; exact h1 (by simp)
      | cons y c' =>
        cases e2
        exact h.escape ⟨a, c', by rw [e1]; simp⟩

/-- Texts without markup can be joined by a character no tag begins with. -/
theorem NoMarkup.sep {s w : Str} (h : NoMarkup s) (hw : NoMarkup w) {q : Char} (hq : tagStart q = false) (h1 : q ≠ '[') (h2 : q ≠ '\\') :
    NoMarkup (s ++ q :: w) := by
  have cut : ∀ {a : Str} {y : Char} {z : Str}, y ≠ q → s ++ q :: w = a ++ y :: z →
      (∃ a', w = a' ++ y :: z) ∨ ∃ c', s = a ++ y :: c' ∧ z = c' ++ q :: w := by
    intro a y z hy e
    rcases List.append_eq_append_iff.mp e with ⟨a', e1, e2⟩ | ⟨c', e1, e2⟩
    · cases a' with
      | nil => injection e2 with e3; exact absurd e3.symm hy
      | cons c a' => injection e2 with e3 e4; exact .inl ⟨a', e4⟩
    · cases c' with
      | nil => injection e2 with e3; exact absurd e3 hy
      | cons c c' => injection e2 with e3 e4; subst e3; exact .inr ⟨c', e1, e4⟩
  refine ⟨?_, ?_, ?_⟩
  · rintro ⟨a, x, b, r, e, hb, hx⟩
    rcases cut (Ne.symm h1) e with ⟨a', e1⟩ | ⟨c', e1, e2⟩
    · exact hw.tag ⟨a', x, b, r, e1, hb, hx⟩
    · cases c' with
      | nil => injection e2 with e3; subst e3; rw [(tagStart_iff x).mpr hx] at hq; cases hq
      | cons c c' =>
        injection e2 with e3 e4
        subst e3
        rcases List.append_eq_append_iff.mp e4 with ⟨u, e5, e6⟩ | ⟨u, e5, e6⟩
        · cases u with
          | nil => exact h.opens ⟨a, x, c', e1, by rw [e5]; simpa using hb, hx⟩
          | cons y u =>
            injection e6 with e7 e8
            subst e7
            exact h.tag ⟨a, x, b, u, by rw [e1, e5], hb, hx⟩
        · exact h.opens ⟨a, x, c', e1, fun hm => hb (by rw [e5]; simp [hm]), hx⟩
  · rintro ⟨a, x, b, e, hb, hx⟩
    rcases cut (Ne.symm h1) e with ⟨a', e1⟩ | ⟨c', e1, e2⟩
    · exact hw.opens ⟨a', x, b, e1, hb, hx⟩
    · cases c' with
      | nil => injection e2 with e3; subst e3; rw [(tagStart_iff x).mpr hx] at hq; cases hq
      | cons c c' =>
        injection e2 with e3 e4
        subst e3
        exact h.opens ⟨a, x, c', e1, fun hm => hb (by rw [e4]; simp [hm]), hx⟩
  · rintro ⟨a, r, e⟩
    rcases cut (Ne.symm h2) e with ⟨a', e1⟩ | ⟨c', e1, e2⟩
    · exact hw.escape ⟨a', r, e1⟩
    · cases c' with
      | nil => injection e2 with e3; exact h1 e3.symm
      | cons c c' =>
        injection e2 with e3 e4
        subst e3
        exact h.escape ⟨a, c', e1⟩

theorem tagBody_before {u : Str} {q : Char} {t : Str} (h : tagBody (u ++ q :: t) ≠ none) : '[' ∉ u ∨ tagBody u ≠ none := by
  induction u with
  | nil => exact .inl (by simp)
  | cons c u ih =>
    by_cases h1 : c = ']'
    · subst h1; exact .inr (by intro hh; cases hh)
    · by_cases h2 : c = '['
      · subst h2; exact absurd rfl h
      · have e : ∀ u : Str, tagBody (c :: u) = (tagBody u).map fun (b, r) => (c :: b, r) := by
          intro u
          rw [tagBody.eq_def]
          split
          · rename_i heq; cases heq
          · rename_i heq; cases heq; exact absurd rfl h1
          · rename_i heq; cases heq; exact absurd rfl h2
          · rename_i heq; cases heq; rfl
        rw [List.cons_append, e] at h
        rw [e]
        rcases ih (fun hh => h (by rw [hh]; rfl)) with hx | hx
        · left
          intro hm
          rcases List.mem_cons.mp hm with hm | hm
          · exact h2 hm.symm
          · exact hx hm
        · right
          cases hb : tagBody u with
          | none => exact absurd hb hx
          | some p => intro hh; cases hh

/-- No tag begins in a text without markup, whatever follows it. -/
theorem tagAt_noMarkup {s : Str} (h : NoMarkup s) {q : Char} (h1 : q ≠ '[') (h2 : q ≠ '\\') (h3 : tagStart q = false) (t : Str) :
    tagAt (s ++ q :: t) = none := by
  induction s with
  | nil =>
    unfold tagAt
    split
    · rename_i heq; cases heq; exact absurd rfl h2
    · rename_i heq; cases heq; exact absurd rfl h1
    · rfl
  | cons c s ih =>
    rw [List.cons_append]
    by_cases hc : c = '\\'
    · subst hc
      show (tagAt (s ++ q :: t)).map _ = _
      rw [ih h.tail]; rfl
    · by_cases hb : c = '['
      · subst hb
        show (tagText (s ++ q :: t)).map _ = _
        have : tagText (s ++ q :: t) = none := by
          cases s with
          | nil => simp only [List.nil_append, tagText, h3, Bool.false_eq_true, if_false]
          | cons x s =>
            simp only [List.cons_append, tagText]
            by_cases hx : tagStart x = true
            · rw [if_pos hx]
              cases hbody : tagBody (s ++ q :: t) with
              | none => rfl
              | some p =>
                exfalso
                rcases tagBody_before (u := s) (q := q) (t := t) (by rw [hbody]; simp) with hm | hm
                · exact h.opens ⟨[], x, s, rfl, hm, (tagStart_iff x).mp hx⟩
                · cases hy : tagBody s with
                  | none => exact hm hy
                  | some p =>
                    obtain ⟨b, r⟩ := p
                    obtain ⟨e1, e2⟩ := tagBody_some hy
                    exact h.tag ⟨[], x, b, r, by rw [e1]; rfl, e2, (tagStart_iff x).mp hx⟩
            · rw [if_neg hx]
        rw [this]; rfl
      · unfold tagAt
        split
        · rename_i heq; cases heq; exact absurd rfl hc
        · rename_i heq; cases heq; exact absurd rfl hb
        · rfl

end EspSize
