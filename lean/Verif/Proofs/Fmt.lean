import Verif.Py.Fmt
import Verif.Py.Split
import Verif.Proofs.MapText
/-! # Integers printed and read back -/
namespace EspSize

theorem intStr_natCast (n : Nat) : intStr (n : Int) = Nat.toDigits 10 n := by
  show (Int.repr (n : Int)).toList = _
  rw [Int.repr_eq_if]
  rw [if_pos (by omega)]
  simp [Nat.toList_repr]

theorem intStr_neg (n : Nat) : intStr (-((n + 1 : Nat) : Int)) = '-' :: Nat.toDigits 10 (n + 1) := by
  show (Int.repr _).toList = _
  rw [Int.repr_eq_if]
  rw [if_neg (by omega)]
  simp [Nat.toList_repr]

/-- A character of a printed number. -/
def NumChar (c : Char) : Prop := c.isDigit = true ∨ c = '-'

theorem intStr_chars (i : Int) : ∀ c ∈ intStr i, NumChar c := by
  intro c hc
  match i with
  | .ofNat n =>
    rw [show Int.ofNat n = (n : Int) from rfl, intStr_natCast] at hc
    exact Or.inl (Nat.isDigit_of_mem_toDigits (by omega) (by omega) hc)
  | .negSucc n =>
    rw [show Int.negSucc n = -((n + 1 : Nat) : Int) from rfl, intStr_neg] at hc
    rcases List.mem_cons.mp hc with rfl | hc
    · exact Or.inr rfl
    · exact Or.inl (Nat.isDigit_of_mem_toDigits (by omega) (by omega) hc)

theorem isDigit_range {c : Char} (h : c.isDigit = true) : '0' ≤ c ∧ c ≤ '9' := by
  unfold Char.isDigit at h
  simp only [Bool.and_eq_true, decide_eq_true_eq] at h
  exact ⟨h.1, h.2⟩

theorem isDigit_toNat {c : Char} (h : c.isDigit = true) : 48 ≤ c.toNat ∧ c.toNat ≤ 57 := by
  have := isDigit_range h
  exact ⟨this.1, this.2⟩

theorem numChar_not_space {c : Char} (h : NumChar c) : isSpace c = false := by
  rcases h with h | rfl
  · have := isDigit_toNat h
    unfold isSpace
    simp only [Bool.or_eq_false_iff, Bool.and_eq_false_iff, decide_eq_false_iff_not]
    omega
  · decide

theorem intStr_ne_nil (i : Int) : intStr i ≠ [] := by
  match i with
  | .ofNat n => rw [show Int.ofNat n = (n : Int) from rfl, intStr_natCast]; exact Nat.toDigits_ne_nil
  | .negSucc n => rw [show Int.negSucc n = -((n + 1 : Nat) : Int) from rfl, intStr_neg]; simp

theorem intStr_word (i : Int) : Word (intStr i) := ⟨intStr_ne_nil i, fun c hc => numChar_not_space (intStr_chars i c hc)⟩

theorem digitVal_isDigit {c : Char} (h : c.isDigit = true) : digitVal c = some (c.toNat - 48) := by
  unfold digitVal
  rw [if_pos (isDigit_range h)]; rfl

theorem parseDigits_digits (l : Str) (hl : ∀ c ∈ l, c.isDigit = true) (us : Bool) (acc : Nat)
    (h : l ≠ [] ∨ us = false) : parseDigits 10 us acc l = some (Nat.ofDigitChars 10 l acc) := by
  induction l generalizing us acc with
  | nil =>
    rcases h with h | h
    · exact absurd rfl h
    · subst h; rfl
  | cons c t ih =>
    have hc := hl c (by simp)
    have hr := isDigit_toNat hc
    have hu : c ≠ '_' := by rintro rfl; revert hc; decide
    unfold parseDigits
    rw [if_neg hu, digitVal_isDigit hc]
    simp only
    rw [if_pos (by omega), ih (fun x hx => hl x (by simp [hx])) _ _ (Or.inr rfl), Nat.ofDigitChars_cons]
    congr 2
    have : '0'.toNat = 48 := rfl
    omega

theorem parseDigits_toDigits (n : Nat) : parseDigits 10 true 0 (Nat.toDigits 10 n) = some n := by
  rw [parseDigits_digits _ (fun c hc => Nat.isDigit_of_mem_toDigits (by omega) (by omega) hc) _ _
    (Or.inl Nat.toDigits_ne_nil), Nat.ofDigitChars_ten_toDigits]

/-- Unsigned digits are read as they are. -/
theorem pyInt10_unsigned {s : Str} {c : Char} {t : Str} (h : strip s = c :: t) (hc : c.isDigit = true) :
    pyInt10 s = (parseDigits 10 true 0 (c :: t)).map fun (n : Nat) => (n : Int) := by
  unfold pyInt10
  rw [h]
  split
  · rename_i heq; cases heq; exact absurd hc (by decide)
  · rename_i heq; cases heq; exact absurd hc (by decide)
  · rfl

theorem pyInt10_strip (s : Str) (i : Int) (h : strip s = intStr i) : pyInt10 s = some i := by
  match i with
  | .ofNat n =>
    rw [show Int.ofNat n = (n : Int) from rfl, intStr_natCast] at h
    obtain ⟨c, t, hct⟩ := List.exists_cons_of_ne_nil (Nat.toDigits_ne_nil (n := n) (b := 10))
    have hc : c.isDigit = true :=
      Nat.isDigit_of_mem_toDigits (b := 10) (n := n) (by omega) (by omega) (by rw [hct]; simp)
    rw [pyInt10_unsigned (h.trans hct) hc, ← hct, parseDigits_toDigits]; rfl
  | .negSucc n =>
    rw [show Int.negSucc n = -((n + 1 : Nat) : Int) from rfl, intStr_neg] at h
    unfold pyInt10
    rw [h]
    simp only
    rw [parseDigits_toDigits]; rfl

theorem pyInt10_strip_plus (s : Str) (n : Nat) (h : strip s = '+' :: intStr n) : pyInt10 s = some n := by
  unfold pyInt10
  rw [h]
  simp only
  rw [intStr_natCast, parseDigits_toDigits]; rfl

/-- `int(str(i)) == i`. -/
theorem pyInt10_intStr (i : Int) : pyInt10 (intStr i) = some i := pyInt10_strip _ _ (strip_word (intStr_word i))

theorem strip_padLeft {n : Nat} {t : Str} (h : Word t) : strip (padLeft n t) = t := by
  unfold padLeft
  have hw : Blank (List.replicate (n - t.length) ' ') := by
    intro c hc; rw [(List.mem_replicate.mp hc).2]; decide
  have := strip_trimmed hw (fun _ h => nomatch h : Blank []) h.trimmed
  simpa using this

theorem pyInt10_int6 (i : Int) : pyInt10 (int6 i) = some i := pyInt10_strip _ _ (strip_padLeft (intStr_word i))

theorem pyInt10_plus6 (i : Int) : pyInt10 (plus6 i) = some i := by
  unfold plus6
  by_cases h : i < 0
  · rw [if_pos h]; exact pyInt10_strip _ _ (strip_padLeft (intStr_word i))
  · rw [if_neg h]
    obtain ⟨n, rfl⟩ : ∃ n : Nat, i = n := ⟨i.toNat, by omega⟩
    refine pyInt10_strip_plus _ _ (strip_padLeft ⟨by simp, ?_⟩)
    intro c hc
    rcases List.mem_cons.mp hc with rfl | hc
    · decide
    · exact numChar_not_space (intStr_chars _ c hc)

end EspSize
