import Verif.Py.Basic
/-! # Fields of a line and the numbers in them -/
namespace EspSize

/-- The code points of white space. -/
def whites : List Nat := [9, 10, 11, 12, 13, 28, 29, 30, 31, 32, 133, 160, 5760, 8192, 8193, 8194, 8195, 8196, 8197, 8198, 8199,
  8200, 8201, 8202, 8232, 8233, 8239, 8287, 12288]

/-- White space. -/
def IsWhite (c : Char) : Prop := c.toNat ∈ whites

instance (c : Char) : Decidable (IsWhite c) := by unfold IsWhite; infer_instance

/-- `ts` are the fields of `s` between white space. -/
inductive FieldsOf : Str → List Str → Prop
  | nil {w} : (∀ c ∈ w, IsWhite c) → FieldsOf w []
  | cons {w t r ts} : (∀ c ∈ w, IsWhite c) → t ≠ [] → (∀ c ∈ t, ¬ IsWhite c) → (r = [] ∨ ∃ c u, r = c :: u ∧ IsWhite c) →
      FieldsOf r ts → FieldsOf (w ++ (t ++ r)) (t :: ts)

/-- `ts` are the first `n` fields of `s`, followed by the rest of it where there is more. -/
inductive FieldsUpTo : Nat → Str → List Str → Prop
  | nil {n w} : (∀ c ∈ w, IsWhite c) → FieldsUpTo n w []
  | last {w c t} : (∀ c ∈ w, IsWhite c) → ¬ IsWhite c → FieldsUpTo 0 (w ++ c :: t) [c :: t]
  | cons {n w t r ts} : (∀ c ∈ w, IsWhite c) → t ≠ [] → (∀ c ∈ t, ¬ IsWhite c) → (r = [] ∨ ∃ c u, r = c :: u ∧ IsWhite c) →
      FieldsUpTo n r ts → FieldsUpTo (n + 1) (w ++ (t ++ r)) (t :: ts)

/-- The character is the digit `d`. -/
def DigitIs (c : Char) (d : Nat) : Prop := (str "0123456789abcdef")[d]? = some c ∨ (str "0123456789ABCDEF")[d]? = some c

/-- Digits of a number; single underscores may separate them. -/
inductive Spelled (base : Nat) : Str → List Nat → Prop
  | one {c d} : DigitIs c d → d < base → Spelled base [c] [d]
  | cons {c d s ds} : DigitIs c d → d < base → Spelled base s ds → Spelled base (c :: s) (d :: ds)
  | under {c d s ds} : DigitIs c d → d < base → Spelled base s ds → Spelled base (c :: '_' :: s) (d :: ds)

/-- The number with these digits. -/
def digitsValue (base : Nat) (ds : List Nat) : Nat := ds.foldl (fun a d => a * base + d) 0

/-- The letters that mark a base. -/
def baseLetters : List (Nat × List Char) := [(16, ['x', 'X']), (8, ['o', 'O']), (2, ['b', 'B'])]

/-- An unsigned integer literal: decimal digits without leading zeros, unless all are zero, or `0`, the letter of a base and
its digits. -/
inductive Literal : Str → Nat → Prop
  | decimal {s ds} : Spelled 10 s ds → (s.head? ≠ some '0' ∨ digitsValue 10 ds = 0) → Literal s (digitsValue 10 ds)
  | based {base letters c s ds} : (base, letters) ∈ baseLetters → c ∈ letters → Spelled base s ds →
      Literal ('0' :: c :: s) (digitsValue base ds)
  | basedUnder {base letters c s ds} : (base, letters) ∈ baseLetters → c ∈ letters → Spelled base s ds →
      Literal ('0' :: c :: '_' :: s) (digitsValue base ds)

/-- A sign may come before a number. -/
inductive WithSign (P : Str → Nat → Prop) : Str → Int → Prop
  | none {s n} : P s n → WithSign P s n
  | plus {s n} : P s n → WithSign P ('+' :: s) n
  | minus {s n} : P s n → WithSign P ('-' :: s) (-(n : Int))

/-- Decimal digits. -/
def Decimal (s : Str) (n : Nat) : Prop := ∃ ds, Spelled 10 s ds ∧ n = digitsValue 10 ds

end EspSize
