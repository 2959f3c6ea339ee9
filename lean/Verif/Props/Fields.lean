import Verif.Spec.Fields
import Verif.Proofs.Split
/-! # C89: fields of a line and the numbers in them -/
namespace EspSize

/-- **C89** White space is what `str.isspace` says. -/
theorem C89_white (c : Char) : isSpace c = true ↔ IsWhite c := by
  unfold isSpace IsWhite whites
  simp only [List.mem_cons, List.not_mem_nil, or_false, Bool.or_eq_true, Bool.and_eq_true, decide_eq_true_eq]
  omega

theorem not_white {c : Char} : isSpace c = false ↔ ¬ IsWhite c := by
  rw [← C89_white]; simp

theorem blank_white {w : Str} : Blank w ↔ ∀ c ∈ w, IsWhite c := by
  unfold Blank
  simp only [C89_white]

theorem fieldsOf_iff {s : Str} {ts : List Str} : FieldsOf s ts ↔ Words s ts := by
  constructor
  · intro h
    induction h with
    | nil h => exact .nil (blank_white.mpr h)
    | cons h1 h2 h3 h4 _ ih =>
      refine .cons (blank_white.mpr h1) ⟨h2, fun c hc => not_white.mpr (h3 c hc)⟩ ?_ ih
      rcases h4 with h4 | ⟨c, u, rfl, h4⟩
      · exact .inl h4
      · exact .inr ⟨c, rfl, (C89_white c).mpr h4⟩
  · intro h
    induction h with
    | nil h => exact .nil (blank_white.mp h)
    | @cons w t r ts h1 h2 h3 _ ih =>
      refine .cons (blank_white.mp h1) h2.1 (fun c hc => not_white.mp (h2.2 c hc)) ?_ ih
      rcases h3 with h3 | ⟨c, h3, h4⟩
      · exact .inl h3
      · cases r with
        | nil => cases h3
        | cons d u =>
          have hd : d = c := by simpa using h3
          exact .inr ⟨c, u, by rw [hd], (C89_white c).mp h4⟩

/-- **C89** `line.split()` gives exactly the fields between white space. -/
theorem C89_split (s : Str) (ts : List Str) : split s = ts ↔ FieldsOf s ts := by
  rw [fieldsOf_iff, words_iff]

theorem splitN_zero {w t : Str} {c : Char} (h : Blank w) (hc : isSpace c = false) : splitN 0 (w ++ c :: t) = [c :: t] := by
  unfold splitN
  rw [lstrip_blank_append h, lstrip_of_head (c := c) rfl hc]

theorem splitN_succ {n : Nat} {w t r : Str} (h : Blank w) (h1 : t ≠ []) (h2 : ∀ c ∈ t, isSpace c = false)
    (h3 : r = [] ∨ ∃ c u, r = c :: u ∧ isSpace c = true) : splitN (n + 1) (w ++ (t ++ r)) = t :: splitN n r := by
  cases t with
  | nil => exact absurd rfl h1
  | cons c t =>
    have hc := h2 c (by simp)
    rw [splitN, lstrip_blank_append h, lstrip_of_head (s := c :: t ++ r) (c := c) rfl hc]
    have htake : (c :: t ++ r).takeWhile (fun c => !isSpace c) = c :: t := by
      rw [List.takeWhile_append_of_pos (fun a ha => by simp [h2 a ha])]
      rcases h3 with rfl | ⟨d, u, rfl, hd⟩
      · simp
      · simp [hd]
    have hdrop : (c :: t ++ r).dropWhile (fun c => !isSpace c) = r := by
      rw [List.dropWhile_append_of_pos (fun a ha => by simp [h2 a ha])]
      rcases h3 with rfl | ⟨d, u, rfl, hd⟩
      · simp
      · simp [hd]
    show _ :: splitN n _ = _
    rw [htake, hdrop]

theorem splitN_of_fields {n : Nat} {s : Str} {ts : List Str} (h : FieldsUpTo n s ts) : splitN n s = ts := by
  induction h with
  | nil h => exact splitN_blank _ (blank_white.mpr h)
  | last h hc => exact splitN_zero (blank_white.mpr h) (not_white.mpr hc)
  | cons h1 h2 h3 h4 _ ih =>
    rw [splitN_succ (blank_white.mpr h1) h2 (fun c hc => not_white.mpr (h3 c hc)) ?_, ih]
    rcases h4 with h4 | ⟨c, u, h4, h5⟩
    · exact .inl h4
    · exact .inr ⟨c, u, h4, (C89_white c).mpr h5⟩

theorem span_white (s : Str) : ∃ w r, s = w ++ r ∧ (∀ c ∈ w, IsWhite c) ∧ (r = [] ∨ ∃ c u, r = c :: u ∧ ¬ IsWhite c) := by
  induction s with
  | nil => exact ⟨[], [], rfl, by simp, .inl rfl⟩
  | cons c s ih =>
    by_cases h : IsWhite c
    · obtain ⟨w, r, rfl, hw, hr⟩ := ih
      refine ⟨c :: w, r, rfl, ?_, hr⟩
      intro d hd
      rcases List.mem_cons.mp hd with rfl | hd
      · exact h
      · exact hw d hd
    · exact ⟨[], c :: s, rfl, by simp, .inr ⟨c, s, rfl, h⟩⟩

theorem span_word (s : Str) : ∃ t r, s = t ++ r ∧ (∀ c ∈ t, ¬ IsWhite c) ∧ (r = [] ∨ ∃ c u, r = c :: u ∧ IsWhite c) := by
  induction s with
  | nil => exact ⟨[], [], rfl, by simp, .inl rfl⟩
  | cons c s ih =>
    by_cases h : IsWhite c
    · exact ⟨[], c :: s, rfl, by simp, .inr ⟨c, s, rfl, h⟩⟩
    · obtain ⟨w, r, rfl, hw, hr⟩ := ih
      refine ⟨c :: w, r, rfl, ?_, hr⟩
      intro d hd
      rcases List.mem_cons.mp hd with rfl | hd
      · exact h
      · exact hw d hd

theorem fieldsUpTo_exist (n : Nat) : ∀ s : Str, ∃ ts, FieldsUpTo n s ts := by
  induction n with
  | zero =>
    intro s
    obtain ⟨w, r, rfl, hw, rfl | ⟨c, u, rfl, hc⟩⟩ := span_white s
    · exact ⟨[], by rw [List.append_nil]; exact .nil hw⟩
    · exact ⟨_, .last hw hc⟩
  | succ n ih =>
    intro s
    obtain ⟨w, r, rfl, hw, rfl | ⟨c, u, rfl, hc⟩⟩ := span_white s
    · exact ⟨[], by rw [List.append_nil]; exact .nil hw⟩
    · obtain ⟨t, r, ht, h1, h2⟩ := span_word (c :: u)
      obtain ⟨ts, hts⟩ := ih r
      refine ⟨t :: ts, ?_⟩
      rw [ht]
      refine .cons hw ?_ h1 h2 hts
      rintro rfl
      rcases h2 with rfl | ⟨d, v, rfl, hd⟩
      · cases ht
      · cases ht; exact hc hd

/-- **C89** `line.split(maxsplit=n)` gives the first `n` fields and the rest of the line. -/
theorem C89_maxsplit (n : Nat) (s : Str) (ts : List Str) : splitN n s = ts ↔ FieldsUpTo n s ts := by
  refine ⟨?_, splitN_of_fields⟩
  intro h
  obtain ⟨ts', h'⟩ := fieldsUpTo_exist n s
  have := splitN_of_fields h'
  rw [h] at this
  rwa [this]

example : splitN 1 (str " a\tb c ") = [str "a", str "b c "] ∧ split (str " a b c ") = [str "a", str "b", str "c"] := by
  decide +kernel

/-! ### Numbers -/

theorem digit_table : ∀ n : Fin 128, ∀ d : Fin 16,
    digitVal (Char.ofNat n) = some d.val ↔
      ((str "0123456789abcdef")[d.val]? = some (Char.ofNat n) ∨ (str "0123456789ABCDEF")[d.val]? = some (Char.ofNat n)) := by
  decide +kernel

theorem digit_ascii : ∀ (d : Fin 16) (c : Char),
    (str "0123456789abcdef")[d.val]? = some c ∨ (str "0123456789ABCDEF")[d.val]? = some c → c.toNat < 128 := by
  have h : ∀ d : Fin 16, (∀ c, (str "0123456789abcdef")[d.val]? = some c → c.toNat < 128) ∧
      (∀ c, (str "0123456789ABCDEF")[d.val]? = some c → c.toNat < 128) := by
    intro d
    constructor
    · intro c hc
      have hm := List.mem_of_getElem? hc
      revert hm; revert c
      have : ∀ c ∈ str "0123456789abcdef", c.toNat < 128 := by decide
      intro c _ hm; exact this c hm
    · intro c hc
      have hm := List.mem_of_getElem? hc
      have : ∀ c ∈ str "0123456789ABCDEF", c.toNat < 128 := by decide
      exact this c hm
  intro d c hc
  rcases hc with hc | hc
  · exact (h d).1 c hc
  · exact (h d).2 c hc

theorem digitVal_ascii {c : Char} {d : Nat} (h : digitVal c = some d) : c.toNat < 128 := by
  have key : ∀ a : Char, a.toNat < 128 → c ≤ a → c.toNat < 128 := fun a ha hca => by
    have : c.toNat ≤ a.toNat := hca
    omega
  unfold digitVal at h
  split at h
  · rename_i hh; exact key '9' (by decide) hh.2
  · split at h
    · rename_i hh; exact key 'z' (by decide) hh.2
    · split at h
      · rename_i hh; exact key 'Z' (by decide) hh.2
      · cases h

theorem digitVal_iff {c : Char} {d : Nat} (hd : d < 16) : digitVal c = some d ↔ DigitIs c d := by
  have hofNat : Char.ofNat c.toNat = c := Char.ofNat_toNat c
  constructor
  · intro h
    have := digit_table ⟨c.toNat, digitVal_ascii h⟩ ⟨d, hd⟩
    simp only [hofNat] at this
    exact this.mp h
  · intro h
    have := digit_table ⟨c.toNat, digit_ascii ⟨d, hd⟩ c h⟩ ⟨d, hd⟩
    simp only [hofNat] at this
    exact this.mpr h

theorem digit_not_under {d : Nat} (h : DigitIs '_' d) : False := by
  rcases h with h | h
  · have := List.mem_of_getElem? h; revert this; decide
  · have := List.mem_of_getElem? h; revert this; decide

theorem parseDigits_spelled {base : Nat} (hb : base ≤ 16) (m : Nat) : ∀ (s : Str) (acc : Nat),
    (parseDigits base true acc s = some m ↔ ∃ ds, Spelled base s ds ∧ m = ds.foldl (fun a d => a * base + d) acc) ∧
    (parseDigits base false acc s = some m ↔ (s = [] ∧ m = acc) ∨ parseDigits base true acc s = some m ∨
      ∃ t, s = '_' :: t ∧ parseDigits base true acc t = some m) := by
  intro s
  induction hn : s.length using Nat.strongRecOn generalizing s with
  | _ n ih =>
    intro acc
    cases s with
    | nil =>
      constructor
      · constructor
        · intro h; simp [parseDigits] at h
        · rintro ⟨_, h, _⟩; cases h
      · constructor
        · intro h; simp [parseDigits] at h; exact .inl ⟨rfl, h.symm⟩
        · rintro (⟨_, rfl⟩ | h | ⟨_, h, _⟩)
          · simp [parseDigits]
          · simp [parseDigits] at h
          · cases h
    | cons c t =>
      have iht := fun acc => ih t.length (by rw [← hn]; simp only [List.length_cons]; omega) t rfl acc
      by_cases hc : c = '_'
      · subst hc
        have ht : parseDigits base true acc ('_' :: t) = none := by simp [parseDigits]
        constructor
        · rw [ht]
          constructor
          · intro h; cases h
          · rintro ⟨_, h, _⟩
            cases h with
            | one h => exact absurd h digit_not_under
            | cons h => exact absurd h digit_not_under
            | under h => exact absurd h digit_not_under
        · have hf : parseDigits base false acc ('_' :: t) = parseDigits base true acc t := by simp [parseDigits]
          rw [hf, ht]
          constructor
          · intro h; exact .inr (.inr ⟨t, rfl, h⟩)
          · rintro (⟨h, _⟩ | h | ⟨u, h, h'⟩)
            · cases h
            · cases h
            · cases h; exact h'
      · have hsame : ∀ us, parseDigits base us acc (c :: t) = match digitVal c with
            | some d => if d < base then parseDigits base false (acc * base + d) t else none
            | none => none := by
          intro us; rw [parseDigits, if_neg hc]; rfl
        constructor
        · rw [hsame]
          constructor
          · intro h
            split at h
            · rename_i d hd
              split at h
              · rename_i hlt
                have hdig := (digitVal_iff (by omega)).mp hd
                rcases ((iht (acc * base + d)).2).mp h with ⟨rfl, rfl⟩ | h | ⟨u, rfl, h⟩
                · exact ⟨[d], .one hdig hlt, rfl⟩
                · obtain ⟨ds, h1, h2⟩ := ((iht _).1).mp h
                  exact ⟨d :: ds, .cons hdig hlt h1, h2⟩
                · have ihu := ih u.length (by rw [← hn]; simp only [List.length_cons]; omega) u rfl (acc * base + d)
                  obtain ⟨ds, h1, h2⟩ := (ihu.1).mp h
                  exact ⟨d :: ds, .under hdig hlt h1, h2⟩
              · cases h
            · cases h
          · rintro ⟨ds, h, rfl⟩
            cases h with
            | one h hlt =>
              rw [(digitVal_iff (by omega)).mpr h]
              simp only [hlt, if_true]
              exact ((iht _).2).mpr (.inl ⟨rfl, rfl⟩)
            | cons h hlt hs =>
              rw [(digitVal_iff (by omega)).mpr h]
              simp only [hlt, if_true]
              exact ((iht _).2).mpr (.inr (.inl (((iht _).1).mpr ⟨_, hs, rfl⟩)))
            | @under _ d u _ h hlt hs =>
              rw [(digitVal_iff (by omega)).mpr h]
              simp only [hlt, if_true]
              have ihu := ih u.length (by rw [← hn]; simp only [List.length_cons]; omega) u rfl (acc * base + d)
              exact ((iht _).2).mpr (.inr (.inr ⟨u, rfl, (ihu.1).mpr ⟨_, hs, rfl⟩⟩))
        · rw [hsame false, hsame true]
          constructor
          · intro h; exact .inr (.inl h)
          · rintro (⟨h, _⟩ | h | ⟨u, h, _⟩)
            · cases h
            · exact h
            · cases h; exact absurd rfl hc

theorem decimal_iff {s : Str} {n : Nat} : parseDigits 10 true 0 s = some n ↔ Decimal s n :=
  (parseDigits_spelled (by decide) n s 0).1

theorem spelled_not_under {base : Nat} {s : Str} {ds : List Nat} : ¬ Spelled base ('_' :: s) ds := by
  intro h
  cases h with
  | one h => exact digit_not_under h
  | cons h => exact digit_not_under h
  | under h => exact digit_not_under h

theorem prefixed_iff {base : Nat} (hb : base ≤ 16) {s : Str} {n : Nat} : parsePrefixed base s = some n ↔
    ∃ ds, n = digitsValue base ds ∧ (Spelled base s ds ∨ ∃ t, s = '_' :: t ∧ Spelled base t ds) := by
  unfold parsePrefixed
  split
  · rename_i t
    rw [(parseDigits_spelled hb n t 0).1]
    constructor
    · rintro ⟨ds, h1, h2⟩; exact ⟨ds, h2, .inr ⟨t, rfl, h1⟩⟩
    · rintro ⟨ds, h1, h2 | ⟨u, h2, h3⟩⟩
      · exact absurd h2 spelled_not_under
      · cases h2; exact ⟨ds, h3, h1⟩
  · rename_i hne
    rw [(parseDigits_spelled hb n s 0).1]
    constructor
    · rintro ⟨ds, h1, h2⟩; exact ⟨ds, h2, .inl h1⟩
    · rintro ⟨ds, h1, h2 | ⟨u, h2, h3⟩⟩
      · exact ⟨ds, h2, h1⟩
      · exact absurd h2 (hne u)

theorem letters_digits : ∀ p ∈ baseLetters, ∀ c ∈ p.2, ∀ d, d < 10 → ¬ DigitIs c d := by
  intro p hp c hc d hd h
  have key : ∀ p ∈ baseLetters, ∀ c ∈ p.2, ∀ d : Fin 10, digitVal c ≠ some d.val := by decide +kernel
  exact key p hp c hc ⟨d, hd⟩ ((digitVal_iff (by omega)).mpr h)

/-- A number with the letter of a base is no decimal number. -/
theorem decimal_letter {c : Char} {t : Str} {ds : List Nat} {p : Nat × List Char} (hp : p ∈ baseLetters) (hc : c ∈ p.2) :
    ¬ Spelled 10 ('0' :: c :: t) ds := by
  have hu : c ≠ '_' := by
    have : ∀ p ∈ baseLetters, ∀ c ∈ p.2, c ≠ '_' := by decide
    exact this p hp c hc
  have hno : ∀ {ds}, ¬ Spelled 10 (c :: t) ds := by
    intro ds h
    cases h with
    | one h hlt => exact letters_digits p hp c hc _ hlt h
    | cons h hlt => exact letters_digits p hp c hc _ hlt h
    | under h hlt => exact letters_digits p hp c hc _ hlt h
  intro h
  cases h with
  | cons _ _ h => exact hno h
  | under => exact hu rfl

theorem literal_based {base : Nat} {letters : List Char} {c : Char} {t : Str} {n : Nat} (hb : (base, letters) ∈ baseLetters)
    (hc : c ∈ letters) (huniq : ∀ b' l', (b', l') ∈ baseLetters → c ∈ l' → b' = base) :
    Literal ('0' :: c :: t) n ↔ parsePrefixed base t = some n := by
  have hb16 : base ≤ 16 := by
    have : ∀ p ∈ baseLetters, p.1 ≤ 16 := by decide
    exact this _ hb
  rw [prefixed_iff hb16]
  constructor
  · intro h
    cases h with
    | decimal h => exact absurd h (decimal_letter hb hc)
    | based h1 h2 h3 => rw [huniq _ _ h1 h2] at h3 ⊢; exact ⟨_, rfl, .inl h3⟩
    | basedUnder h1 h2 h3 => rw [huniq _ _ h1 h2] at h3 ⊢; exact ⟨_, rfl, .inr ⟨_, rfl, h3⟩⟩
  · rintro ⟨ds, rfl, h | ⟨u, rfl, h⟩⟩
    · exact .based hb hc h
    · exact .basedUnder hb hc h

theorem parseNat0_iff (s : Str) (n : Nat) : parseNat0 s = some n ↔ Literal s n := by
  have plain : ∀ s, (∀ p ∈ baseLetters, ∀ c ∈ p.2, ∀ t, s ≠ '0' :: c :: t) →
      (Literal s n ↔ Decimal s n ∧ (s.head? ≠ some '0' ∨ n = 0)) := by
    intro s hs
    constructor
    · intro h
      cases h with
      | decimal h h' => exact ⟨⟨_, h, rfl⟩, h'⟩
      | based h1 h2 _ => exact absurd rfl (hs _ h1 _ h2 _)
      | basedUnder h1 h2 _ => exact absurd rfl (hs _ h1 _ h2 _)
    · rintro ⟨⟨ds, h, rfl⟩, h'⟩
      exact .decimal h h'
  have huniq : ∀ p ∈ baseLetters, ∀ q ∈ baseLetters, ∀ c ∈ p.2, c ∈ q.2 → p.1 = q.1 := by decide
  have based : ∀ {base letters} {c : Char} {t : Str}, (base, letters) ∈ baseLetters → c ∈ letters →
      (parsePrefixed base t = some n ↔ Literal ('0' :: c :: t) n) := fun hb hc =>
    (literal_based hb hc (fun b' l' h' hc' => huniq _ h' _ hb _ hc' hc)).symm
  unfold parseNat0
  split
  · rename_i c t
    by_cases h1 : c = 'x' ∨ c = 'X'
    · rw [if_pos h1]
      exact based (letters := ['x', 'X']) (by decide) (by simpa using h1)
    by_cases h2 : c = 'o' ∨ c = 'O'
    · rw [if_neg h1, if_pos h2]
      exact based (letters := ['o', 'O']) (by decide) (by simpa using h2)
    by_cases h3 : c = 'b' ∨ c = 'B'
    · rw [if_neg h1, if_neg h2, if_pos h3]
      exact based (letters := ['b', 'B']) (by decide) (by simpa using h3)
    rw [if_neg h1, if_neg h2, if_neg h3, plain]
    · rw [← decimal_iff]
      constructor
      · intro h
        split at h
        · rename_i hh; cases h; exact ⟨hh, .inr rfl⟩
        · cases h
      · rintro ⟨h, h' | rfl⟩
        · exact absurd rfl h'
        · rw [h]; rfl
    · intro p hp d hd u he
      cases he
      simp only [baseLetters, List.mem_cons, List.not_mem_nil, or_false] at hp
      rcases hp with rfl | rfl | rfl
      · exact h1 (by simpa using hd)
      · exact h2 (by simpa using hd)
      · exact h3 (by simpa using hd)
  · rename_i hne
    rw [plain s (fun p _ c _ t h => hne c t h), decimal_iff]
    constructor
    · intro h
      refine ⟨h, ?_⟩
      cases s with
      | nil => exact .inl (by simp)
      | cons c t =>
        by_cases hc : c = '0'
        · subst hc
          cases t with
          | nil =>
            obtain ⟨ds, h, rfl⟩ := h
            cases h with
            | @one _ d h hlt =>
              have hd : d = 0 := by
                have h1 := (digitVal_iff (c := '0') (by omega)).mpr h
                have h2 : digitVal '0' = some 0 := by decide
                rw [h2] at h1; exact (Option.some.inj h1).symm
              subst hd
              exact .inr rfl
            | cons _ _ h => cases h
          | cons d t => exact absurd rfl (hne d t)
        · exact .inl (by simpa using hc)
    · exact fun h => h.1

/-- No number begins with a sign. -/
theorem spelled_not_sign {base : Nat} (hb : base ≤ 16) {c : Char} (hc : digitVal c = none) {s : Str} {ds : List Nat} :
    ¬ Spelled base (c :: s) ds := by
  intro h
  have : ∀ {d}, DigitIs c d → d < base → False := fun h hlt => by
    rw [← digitVal_iff (by omega), hc] at h; cases h
  cases h with
  | one h hl => exact this h hl
  | cons h hl => exact this h hl
  | under h hl => exact this h hl

theorem sign_iff {P : Str → Nat → Prop} {f : Str → Option Nat} (hf : ∀ s n, f s = some n ↔ P s n)
    (hs : ∀ c, c = '-' ∨ c = '+' → ∀ s n, ¬ P (c :: s) n) (s : Str) (n : Int) :
    (match s with
      | '-' :: t => (f t).map fun (n : Nat) => -(n : Int)
      | '+' :: t => (f t).map fun (n : Nat) => (n : Int)
      | t => (f t).map fun (n : Nat) => (n : Int)) = some n ↔ WithSign P s n := by
  split
  · rename_i t
    rw [Option.map_eq_some_iff]
    constructor
    · rintro ⟨m, h, rfl⟩; exact .minus ((hf _ _).mp h)
    · intro h
      cases h with
      | none h => exact absurd h (hs _ (.inl rfl) _ _)
      | minus h => exact ⟨_, (hf _ _).mpr h, rfl⟩
  · rename_i t
    rw [Option.map_eq_some_iff]
    constructor
    · rintro ⟨m, h, rfl⟩; exact .plus ((hf _ _).mp h)
    · intro h
      cases h with
      | none h => exact absurd h (hs _ (.inr rfl) _ _)
      | plus h => exact ⟨_, (hf _ _).mpr h, rfl⟩
  · rename_i h1 h2
    rw [Option.map_eq_some_iff]
    constructor
    · rintro ⟨m, h, rfl⟩; exact .none ((hf _ _).mp h)
    · intro h
      cases h with
      | none h => exact ⟨_, (hf _ _).mpr h, rfl⟩
      | plus _ => exact absurd rfl (h2 _)
      | minus _ => exact absurd rfl (h1 _)

theorem decimal_not_sign (c : Char) (hc : c = '-' ∨ c = '+') (s : Str) (n : Nat) : ¬ Decimal (c :: s) n := by
  rintro ⟨ds, h, _⟩
  refine spelled_not_sign (by decide) ?_ h
  rcases hc with rfl | rfl <;> decide

theorem literal_not_sign (c : Char) (hc : c = '-' ∨ c = '+') (s : Str) (n : Nat) : ¬ Literal (c :: s) n := by
  intro h
  cases h with
  | decimal h _ => exact decimal_not_sign c hc s _ ⟨_, h, rfl⟩
  | based => rcases hc with h | h <;> exact absurd h (by decide)
  | basedUnder => rcases hc with h | h <;> exact absurd h (by decide)

/-- **C89** A field of a line is a number for `int(field, 0)` iff it is an integer literal, with or without sign, and then it
is read as its value; every other field raises `ValueError`. -/
theorem C89_number (s : Str) (hne : s ≠ []) (hs : ∀ c ∈ s, ¬ IsWhite c) :
    (∀ n : Int, int0 s = .ok n ↔ WithSign Literal s n) ∧ ((∀ n, ¬ WithSign Literal s n) → int0 s = .error .valueError) := by
  have hst : strip s = s := strip_word ⟨hne, fun c hc => not_white.mpr (hs c hc)⟩
  have key : ∀ n : Int, pyInt0 s = some n ↔ WithSign Literal s n := by
    intro n
    unfold pyInt0
    rw [hst]
    exact sign_iff parseNat0_iff literal_not_sign s n
  unfold int0
  constructor
  · intro n
    rw [← key]
    split
    · rename_i m hm
      rw [hm]
      simp
    · rename_i hm
      rw [hm]
      simp
  · intro h
    split
    · rename_i m hm; exact absurd ((key m).mp hm) (h m)
    · rfl

/-- **C89** `--sort` is a column number iff it is a decimal number, with or without sign and white space around it. -/
theorem C89_sort_number (w s w' : Str) (hw : ∀ c ∈ w, IsWhite c) (hw' : ∀ c ∈ w', IsWhite c) (hne : s ≠ [])
    (hs : ∀ c ∈ s, ¬ IsWhite c) (n : Int) : pyInt10 (w ++ s ++ w') = some n ↔ WithSign Decimal s n := by
  unfold pyInt10
  rw [strip_trimmed (blank_white.mpr hw) (blank_white.mpr hw') (Word.trimmed ⟨hne, fun c hc => not_white.mpr (hs c hc)⟩)]
  exact sign_iff (fun _ _ => decimal_iff) decimal_not_sign s n

example : WithSign Literal (str "-0X_fF") (-255) ∧ (∀ n, ¬ WithSign Literal (str "010") n) ∧ WithSign Literal (str "1_000") 1000 := by
  have h := fun s hne hs n => (C89_number s hne hs).1 n
  refine ⟨(h _ (by decide) (by decide) _).mp (by decide), fun n => ?_, (h _ (by decide) (by decide) _).mp (by decide)⟩
  rw [← h _ (by decide) (by decide)]
  have : int0 (str "010") = .error .valueError := by decide
  rw [this]
  exact fun h => (nomatch h)

end EspSize
