import Verif.Spec.Json
import Verif.Proofs.Fmt
/-! # Reading what `json.dumps` writes -/
namespace EspSize

theorem hexValue_hexChar : ∀ d : Fin 16, hexValue (hexChar d) = some d.val := by decide

theorem hexValue_mod (n : Nat) : hexValue (hexChar (n % 16)) = some (n % 16) :=
  hexValue_hexChar ⟨n % 16, Nat.mod_lt _ (by omega)⟩

theorem hexFour_escape (n : Nat) (h : n < 0x10000) (t : Str) :
    hexFour (hexChar (n / 4096 % 16) :: hexChar (n / 256 % 16) :: hexChar (n / 16 % 16) :: hexChar (n % 16) :: t)
      = some (n, t) := by
  simp only [hexFour, hexValue_mod, bind, Option.bind, Option.some.injEq, Prod.mk.injEq, and_true]
  omega

theorem char_ofNat_toNat (c : Char) : Char.ofNat c.toNat = c := by
  simp

theorem char_range (c : Char) : c.toNat < 0xd800 ∨ 0xe000 ≤ c.toNat ∧ c.toNat < 0x110000 := by
  have h := c.valid
  unfold UInt32.isValidChar Nat.isValidChar at h
  unfold Char.toNat
  omega

theorem readUnicode_small (c : Char) (h : c.toNat < 0x10000) (t : Str) :
    readChar (uEscape c.toNat ++ t) = some (c, t) := by
  show readUnicode (hexChar (c.toNat / 4096 % 16) :: hexChar (c.toNat / 256 % 16) :: hexChar (c.toNat / 16 % 16) ::
    hexChar (c.toNat % 16) :: t) = _
  unfold readUnicode
  simp only [bind, Option.bind]
  rw [hexFour_escape _ h]
  have := char_range c
  simp only
  rw [if_pos (by omega)]
  simp

theorem readUnicode_units (c : Char) (a b : Nat) (ha : 0xd800 ≤ a) (ha' : a < 0xdc00) (hb : 0xdc00 ≤ b) (hb' : b < 0xe000)
    (h : 0x10000 + (a - 0xd800) * 1024 + (b - 0xdc00) = c.toNat) (t : Str) :
    readChar (uEscape a ++ (uEscape b ++ t)) = some (c, t) := by
  show readUnicode (hexChar (a / 4096 % 16) :: hexChar (a / 256 % 16) :: hexChar (a / 16 % 16) :: hexChar (a % 16) ::
    '\\' :: 'u' :: hexChar (b / 4096 % 16) :: hexChar (b / 256 % 16) :: hexChar (b / 16 % 16) ::
    hexChar (b % 16) :: t) = _
  unfold readUnicode
  simp only [bind, Option.bind]
  rw [hexFour_escape _ (by omega)]
  simp only
  rw [if_neg (by omega), if_pos (by omega), hexFour_escape _ (by omega)]
  simp only
  rw [if_pos (by omega), h, char_ofNat_toNat]

theorem readUnicode_pair (c : Char) (h : 0x10000 ≤ c.toNat) (t : Str) :
    readChar (uEscape (0xd800 + (c.toNat - 0x10000) / 1024) ++ uEscape (0xdc00 + (c.toNat - 0x10000) % 1024) ++ t)
      = some (c, t) := by
  have hr := char_range c
  rw [List.append_assoc]
  exact readUnicode_units c _ _ (by omega) (by omega) (by omega) (by omega) (by omega) t

theorem char_eq_of_toNat {c d : Char} (h : c.toNat = d.toNat) : c = d := by
  rw [← char_ofNat_toNat c, h, char_ofNat_toNat]

/-- An escaped character is read back. -/
theorem readChar_escape (c : Char) (t : Str) : readChar (escapeChar c ++ t) = some (c, t) := by
  unfold escapeChar
  split
  · subst_vars; rfl
  split
  · subst_vars; rfl
  split
  · subst_vars; rfl
  split
  · subst_vars; rfl
  split
  · subst_vars; rfl
  split
  · rename_i h; rw [char_eq_of_toNat (d := Char.ofNat 12) h]; rfl
  split
  · rename_i h; rw [char_eq_of_toNat (d := Char.ofNat 8) h]; rfl
  split
  · rename_i h1 h2 _ _ _ _ _ h
    show readChar (c :: t) = _
    unfold readChar
    split
    · rename_i heq; cases heq; exact absurd rfl h2
    · rename_i heq; cases heq; exact absurd rfl h2
    · rename_i heq; cases heq; rw [if_neg]; rintro (h' | h')
      · omega
      · exact h2 h'
    · rename_i heq; cases heq
  split
  · rename_i h; exact readUnicode_small c h t
  · rename_i h; exact readUnicode_pair c (by omega) t

/-- An escaped character does not start with a quote. -/
theorem escape_head (c : Char) (t : Str) : ∃ d r, escapeChar c ++ t = d :: r ∧ d ≠ '"' := by
  have hu : ∀ n t, ∃ d r, uEscape n ++ t = d :: r ∧ d ≠ '"' := fun n t => ⟨_, _, rfl, by decide⟩
  unfold escapeChar
  split
  · exact ⟨_, _, rfl, by decide⟩
  rename_i h0
  split
  · exact ⟨_, _, rfl, by decide⟩
  split
  · exact ⟨_, _, rfl, by decide⟩
  split
  · exact ⟨_, _, rfl, by decide⟩
  split
  · exact ⟨_, _, rfl, by decide⟩
  split
  · exact ⟨_, _, rfl, by decide⟩
  split
  · exact ⟨_, _, rfl, by decide⟩
  split
  · exact ⟨_, _, rfl, h0⟩
  split
  · exact hu _ _
  · rw [List.append_assoc]; exact hu _ _

theorem escape_length (c : Char) : 1 ≤ (escapeChar c).length := by
  obtain ⟨d, r, h, _⟩ := escape_head c []
  rw [List.append_nil] at h
  rw [h]; simp

theorem readStr_escape (s : Str) (t : Str) (n : Nat) (h : s.length < n) :
    readStr n (s.flatMap escapeChar ++ '"' :: t) = some (s, t) := by
  induction s generalizing n with
  | nil => cases n with
    | zero => simp at h
    | succ n => rfl
  | cons c s ih =>
    cases n with
    | zero => simp at h
    | succ n =>
      simp only [List.length_cons, Nat.add_lt_add_iff_right] at h
      simp only [List.flatMap_cons, List.append_assoc]
      obtain ⟨d, r, e, hd⟩ := escape_head c (s.flatMap escapeChar ++ '"' :: t)
      have hc := readChar_escape c (s.flatMap escapeChar ++ '"' :: t)
      rw [e] at hc ⊢
      unfold readStr
      split
      · rename_i heq; cases heq; exact absurd rfl hd
      · rw [hc]
        simp only [bind, Option.bind]
        rw [ih n h]

theorem escape_flat_length (s : Str) : s.length ≤ (s.flatMap escapeChar).length := by
  induction s with
  | nil => simp
  | cons c s ih =>
    have := escape_length c
    simp only [List.flatMap_cons, List.length_append, List.length_cons]; omega

/-! ## Numbers -/

/-- The text does not go on with a digit. -/
def NoDigit (t : Str) : Prop := ∀ c ∈ t.head?, c.isDigit = false

theorem takeWhile_append {p : Char → Bool} {a t : Str} (ha : ∀ c ∈ a, p c = true) (ht : ∀ c ∈ t.head?, p c = false) :
    (a ++ t).takeWhile p = a ∧ (a ++ t).dropWhile p = t := by
  induction a with
  | nil =>
    cases t with
    | nil => exact ⟨rfl, rfl⟩
    | cons c t =>
      have := ht c rfl
      simp [this]
  | cons c a ih =>
    have hc := ha c (by simp)
    have := ih fun x hx => ha x (by simp [hx])
    simp [hc, this]

theorem readNat_digits (n : Nat) (t : Str) (ht : NoDigit t) : readNat (Nat.toDigits 10 n ++ t) = some (n, t) := by
  have ha : ∀ c ∈ Nat.toDigits 10 n, c.isDigit = true := fun c hc => Nat.isDigit_of_mem_toDigits (by omega) (by omega) hc
  obtain ⟨h1, h2⟩ := takeWhile_append ha ht
  unfold readNat
  rw [h1, h2]
  split
  · rename_i h; exact absurd h Nat.toDigits_ne_nil
  · rw [Nat.ofDigitChars_ten_toDigits]

theorem toDigits_head (n : Nat) : ∃ c t, Nat.toDigits 10 n = c :: t ∧ c.isDigit = true := by
  obtain ⟨c, t, h⟩ := List.exists_cons_of_ne_nil (Nat.toDigits_ne_nil (n := n) (b := 10))
  exact ⟨c, t, h, Nat.isDigit_of_mem_toDigits (b := 10) (n := n) (by omega) (by omega) (by rw [h]; simp)⟩

theorem readInt_intStr (i : Int) (t : Str) (ht : NoDigit t) : readInt (intStr i ++ t) = some (i, t) := by
  match i with
  | .ofNat n =>
    rw [show Int.ofNat n = (n : Int) from rfl, intStr_natCast]
    obtain ⟨c, r, h, hc⟩ := toDigits_head n
    have hn := readNat_digits n t ht
    rw [h] at hn ⊢
    unfold readInt
    simp only [List.cons_append] at hn ⊢
    split
    · rename_i heq; cases heq; exact absurd hc (by decide)
    · rw [hn]; rfl
  | .negSucc n =>
    rw [show Int.negSucc n = -((n + 1 : Nat) : Int) from rfl, intStr_neg]
    unfold readInt
    simp only [List.cons_append]
    rw [readNat_digits _ _ ht]
    rfl

/-! ## Values -/

theorem skipWs_id {c : Char} {t : Str} (h : jsonWs c = false) : skipWs (c :: t) = c :: t := by
  unfold skipWs; simp [h]

theorem skipWs_nl (lvl : Nat) (t : Str) : skipWs (jsonNl lvl ++ t) = skipWs t := by
  unfold skipWs jsonNl
  simp only [List.cons_append]
  rw [List.dropWhile_cons_of_pos (by decide)]
  induction 4 * lvl with
  | zero => rfl
  | succ k ih => rw [List.replicate_succ, List.cons_append, List.dropWhile_cons_of_pos (by decide), ih]

theorem skipWs_blank (t : Str) : skipWs (' ' :: t) = skipWs t := by
  unfold skipWs; rw [List.dropWhile_cons_of_pos (by decide)]

/-- The first character of a value. -/
theorem dump_head (lvl : Nat) (v : Json) : ∃ c t, v.dump lvl = c :: t ∧ jsonWs c = false ∧ c ≠ ']' ∧ c ≠ '}' := by
  cases v with
  | int i =>
    match i with
    | .ofNat n =>
      obtain ⟨c, r, h, hc⟩ := toDigits_head n
      refine ⟨c, r, ?_, ?_, ?_, ?_⟩
      · unfold Json.dump; rw [show Int.ofNat n = (n : Int) from rfl, intStr_natCast, h]
      · have := isDigit_toNat hc
        unfold jsonWs
        simp only [Bool.or_eq_false_iff, decide_eq_false_iff_not]
        refine ⟨⟨⟨?_, ?_⟩, ?_⟩, ?_⟩ <;> rintro rfl <;> revert hc <;> decide
      · rintro rfl; revert hc; decide
      · rintro rfl; revert hc; decide
    | .negSucc n =>
      refine ⟨'-', Nat.toDigits 10 (n + 1), ?_, by decide, by decide, by decide⟩
      unfold Json.dump; rw [show Int.negSucc n = -((n + 1 : Nat) : Int) from rfl, intStr_neg]
  | str s => exact ⟨'"', _, by unfold Json.dump jsonStr; rfl, by decide, by decide, by decide⟩
  | arr l => cases l <;> exact ⟨'[', _, by unfold Json.dump; rfl, by decide, by decide, by decide⟩
  | obj l => cases l <;> exact ⟨'{', _, by unfold Json.dump; rfl, by decide, by decide, by decide⟩

theorem skipWs_dump (lvl : Nat) (v : Json) (t : Str) : skipWs (v.dump lvl ++ t) = v.dump lvl ++ t := by
  obtain ⟨c, r, h, hw, _, _⟩ := dump_head lvl v
  rw [h]; exact skipWs_id hw

theorem skipWs_idem (s : Str) : skipWs (skipWs s) = skipWs s := by
  unfold skipWs
  induction s with
  | nil => rfl
  | cons c s ih =>
    by_cases h : jsonWs c = true
    · rw [List.dropWhile_cons_of_pos h, ih]
    · rw [List.dropWhile_cons_of_neg h, List.dropWhile_cons_of_neg h]

theorem readValue_ws (n : Nat) {s t : Str} (h : skipWs s = skipWs t) : readValue n s = readValue n t := by
  cases n with
  | zero => unfold readValue; rfl
  | succ n => unfold readValue; rw [h]

theorem noDigit_cons {c : Char} {t : Str} (h : c.isDigit = false) : NoDigit (c :: t) := by
  intro x hx; cases hx; exact h

theorem noDigit_nl (lvl : Nat) (t : Str) : NoDigit (jsonNl lvl ++ t) := noDigit_cons (by decide)

theorem jsonNl_length (lvl : Nat) : 1 ≤ (jsonNl lvl).length := by unfold jsonNl; simp

theorem dumpItems_one (lvl : Nat) (x : Json) : dumpItems lvl [x] = jsonNl lvl ++ x.dump lvl := by
  rw [dumpItems, dumpItems]; simp

theorem dumpItems_more (lvl : Nat) (x y : Json) (l : List Json) :
    dumpItems lvl (x :: y :: l) = jsonNl lvl ++ (x.dump lvl ++ ',' :: dumpItems lvl (y :: l)) := by
  rw [dumpItems]; simp

theorem dumpMembers_one (lvl : Nat) (k : Str) (x : Json) :
    dumpMembers lvl [(k, x)] = jsonNl lvl ++ (jsonStr k ++ ':' :: ' ' :: x.dump lvl) := by
  rw [dumpMembers, dumpMembers, dumpMember]; simp

theorem dumpMembers_more (lvl : Nat) (k : Str) (x : Json) (y : Str × Json) (l : List (Str × Json)) :
    dumpMembers lvl ((k, x) :: y :: l) =
      jsonNl lvl ++ (jsonStr k ++ ':' :: ' ' :: (x.dump lvl ++ ',' :: dumpMembers lvl (y :: l))) := by
  rw [dumpMembers, dumpMember]; simp

mutual
/-- A dumped value is read back, whatever follows. -/
theorem readValue_dump (v : Json) (lvl n : Nat) (t : Str) (ht : NoDigit t) (h : (v.dump lvl).length < n) :
    readValue n (v.dump lvl ++ t) = some (v, t) := by
  cases n with
  | zero => simp at h
  | succ n =>
    match v with
    | .int i =>
      obtain ⟨c, r, hc, hw, _, _⟩ := dump_head lvl (.int i)
      unfold readValue
      rw [skipWs_dump]
      have hi := readInt_intStr i t ht
      have e : intStr i = Json.dump lvl (.int i) := by unfold Json.dump; rfl
      rw [e] at hi
      have hcc : c = '-' ∨ c.isDigit = true := by
        have := intStr_chars i c (by rw [e, hc]; simp)
        exact this.symm
      have hne : ∀ x : Char, (x = '"' ∨ x = '[' ∨ x = '{') → c ≠ x := by
        rintro x (rfl | rfl | rfl) rfl <;> rcases hcc with h | h <;> revert h <;> decide
      rw [hc] at hi ⊢
      simp only [List.cons_append] at hi ⊢
      split
      · rename_i heq; cases heq; exact absurd rfl (hne _ (Or.inl rfl))
      · rename_i heq; cases heq; exact absurd rfl (hne _ (Or.inr (Or.inl rfl)))
      · rename_i heq; cases heq; exact absurd rfl (hne _ (Or.inr (Or.inr rfl)))
      · rw [hi]; rfl
    | .str s =>
      unfold readValue Json.dump jsonStr
      unfold Json.dump jsonStr at h
      have := escape_flat_length s
      simp only [List.length_cons, List.length_append, List.length_nil] at h
      simp only [List.cons_append, List.append_assoc, List.nil_append]
      rw [skipWs_id (by decide)]
      simp only
      rw [readStr_escape s t n (by omega)]
      rfl
    | .arr [] => unfold readValue Json.dump; rfl
    | .arr (x :: l) =>
      unfold readValue Json.dump
      unfold Json.dump at h
      simp only [List.isEmpty_cons, Bool.false_eq_true, if_false, List.length_cons, List.length_append, List.length_nil] at h
      simp only [List.isEmpty_cons, Bool.false_eq_true, if_false, List.cons_append, List.append_assoc, List.nil_append]
      rw [skipWs_id (by decide)]
      simp only
      obtain ⟨c, r, hc, hne, hi⟩ := readItems_dump x l (lvl + 1) n lvl t (by omega)
      rw [hc]
      split
      · rename_i heq; cases heq; exact absurd rfl hne
      · rw [← hc, hi]; rfl
    | .obj [] => unfold readValue Json.dump; rfl
    | .obj (x :: l) =>
      unfold readValue Json.dump
      unfold Json.dump at h
      simp only [List.isEmpty_cons, Bool.false_eq_true, if_false, List.length_cons, List.length_append, List.length_nil] at h
      simp only [List.isEmpty_cons, Bool.false_eq_true, if_false, List.cons_append, List.append_assoc, List.nil_append]
      rw [skipWs_id (by decide)]
      simp only
      obtain ⟨c, r, hc, hne, hi⟩ := readMembers_dump x l (lvl + 1) n lvl t (by omega)
      rw [hc]
      split
      · rename_i heq; cases heq; exact absurd rfl hne
      · rw [← hc, hi]; rfl
termination_by n
/-- The items of a list, after white space. -/
theorem readItems_dump (x : Json) (l : List Json) (lvl n m : Nat) (t : Str) (h : (dumpItems lvl (x :: l)).length < n) :
    ∃ c r, skipWs (dumpItems lvl (x :: l) ++ (jsonNl m ++ ']' :: t)) = c :: r ∧ c ≠ ']' ∧
      readItems n (skipWs (dumpItems lvl (x :: l) ++ (jsonNl m ++ ']' :: t))) = some (x :: l, t) := by
  cases n with
  | zero => simp at h
  | succ n =>
    obtain ⟨c, r, hc, hw, hne, _⟩ := dump_head lvl x
    have hnl := jsonNl_length lvl
    match l with
    | [] =>
      rw [dumpItems_one] at h ⊢
      simp only [List.length_append] at h
      simp only [List.append_assoc]
      rw [skipWs_nl, skipWs_dump]
      refine ⟨c, r ++ (jsonNl m ++ ']' :: t), by rw [hc]; rfl, hne, ?_⟩
      unfold readItems
      rw [readValue_dump x lvl n _ (noDigit_nl _ _) (by omega)]
      simp only [bind, Option.bind]
      rw [skipWs_nl, skipWs_id (by decide)]
      rfl
    | y :: l =>
      rw [dumpItems_more] at h ⊢
      simp only [List.length_append, List.length_cons] at h
      simp only [List.append_assoc, List.cons_append]
      rw [skipWs_nl, skipWs_dump]
      refine ⟨c, _, by rw [hc]; rfl, hne, ?_⟩
      unfold readItems
      rw [readValue_dump x lvl n _ (noDigit_cons (by decide)) (by omega)]
      simp only [bind, Option.bind]
      rw [skipWs_id (by decide)]
      simp only
      obtain ⟨_, _, _, _, hi⟩ := readItems_dump y l lvl n m t (by omega)
      have hs : readItems n (dumpItems lvl (y :: l) ++ (jsonNl m ++ ']' :: t)) =
          readItems n (skipWs (dumpItems lvl (y :: l) ++ (jsonNl m ++ ']' :: t))) := by
        cases n with
        | zero => unfold readItems; rfl
        | succ n => unfold readItems; rw [readValue_ws n (skipWs_idem _)]
      rw [hs, hi]
termination_by n
/-- The members of an object, after white space. -/
theorem readMembers_dump (x : Str × Json) (l : List (Str × Json)) (lvl n m : Nat) (t : Str)
    (h : (dumpMembers lvl (x :: l)).length < n) :
    ∃ c r, skipWs (dumpMembers lvl (x :: l) ++ (jsonNl m ++ '}' :: t)) = c :: r ∧ c ≠ '}' ∧
      readMembers n (skipWs (dumpMembers lvl (x :: l) ++ (jsonNl m ++ '}' :: t))) = some (x :: l, t) := by
  cases n with
  | zero => simp at h
  | succ n =>
    have hnl := jsonNl_length lvl
    obtain ⟨k, x⟩ := x
    have hk := escape_flat_length k
    match l with
    | [] =>
      rw [dumpMembers_one] at h ⊢
      unfold jsonStr at h ⊢
      simp only [List.length_append, List.length_cons, List.length_nil] at h
      simp only [List.append_assoc, List.cons_append, List.nil_append]
      rw [skipWs_nl, skipWs_id (by decide)]
      refine ⟨'"', _, rfl, by decide, ?_⟩
      unfold readMembers
      rw [skipWs_id (by decide)]
      simp only
      rw [readStr_escape k _ n (by omega)]
      simp only [bind, Option.bind]
      rw [skipWs_id (by decide)]
      simp only
      rw [readValue_ws n (skipWs_blank _), readValue_dump x lvl n _ (noDigit_nl _ _) (by omega)]
      simp only
      rw [skipWs_nl, skipWs_id (by decide)]
      rfl
    | y :: l =>
      rw [dumpMembers_more] at h ⊢
      unfold jsonStr at h ⊢
      simp only [List.length_append, List.length_cons, List.length_nil] at h
      simp only [List.append_assoc, List.cons_append, List.nil_append]
      rw [skipWs_nl, skipWs_id (by decide)]
      refine ⟨'"', _, rfl, by decide, ?_⟩
      unfold readMembers
      rw [skipWs_id (by decide)]
      simp only
      rw [readStr_escape k _ n (by omega)]
      simp only [bind, Option.bind]
      rw [skipWs_id (by decide)]
      simp only
      rw [readValue_ws n (skipWs_blank _), readValue_dump x lvl n _ (noDigit_cons (by decide)) (by omega)]
      simp only
      rw [skipWs_id (by decide)]
      simp only
      obtain ⟨_, _, _, _, hi⟩ := readMembers_dump y l lvl n m t (by omega)
      have hs : readMembers n (dumpMembers lvl (y :: l) ++ (jsonNl m ++ '}' :: t)) =
          readMembers n (skipWs (dumpMembers lvl (y :: l) ++ (jsonNl m ++ '}' :: t))) := by
        cases n with
        | zero => unfold readMembers; rfl
        | succ n => unfold readMembers; rw [skipWs_idem]
      rw [hs, hi]
termination_by n
end

theorem readJson_dumps (v : Json) : readJson (jsonDumps v) = some v := by
  unfold readJson jsonDumps
  have := readValue_dump v 0 ((v.dump 0).length + 1) [] (fun _ h => nomatch h) (by omega)
  rw [List.append_nil] at this
  rw [this]; rfl

end EspSize
