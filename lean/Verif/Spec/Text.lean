import Verif.Py.Split
/-! # Text printed by the linker: blanks, words and numbers -/
namespace EspSize

/-- Only blanks. -/
def Blank (w : Str) : Prop := ∀ c ∈ w, isSpace c = true

/-- At least one blank. -/
def Gap (w : Str) : Prop := w ≠ [] ∧ Blank w

/-- A word: not empty, without blanks. -/
def Word (t : Str) : Prop := t ≠ [] ∧ ∀ c ∈ t, isSpace c = false

instance (w : Str) : Decidable (Blank w) := by unfold Blank; infer_instance
instance (w : Str) : Decidable (Gap w) := by unfold Gap; infer_instance
instance (w : Str) : Decidable (Word w) := by unfold Word; infer_instance

/-- Text that starts and ends with a non-blank character, blanks inside are allowed. -/
def Trimmed (p : Str) : Prop := ∃ c d, p.head? = some c ∧ p.getLast? = some d ∧ isSpace c = false ∧ isSpace d = false

/-- Hexadecimal digit of `d < 16`. -/
def hexDigit (d : Nat) : Char := (str "0123456789abcdef").getD d '0'

/-- `s` is `0x` and hexadecimal digits of `n`, leading zeros are allowed. -/
def HexOf (n : Int) (s : Str) : Prop :=
  ∃ ds : List Nat, ds ≠ [] ∧ (∀ d ∈ ds, d < 16) ∧ s = '0' :: 'x' :: ds.map hexDigit ∧
    n = (ds.foldl (fun a d => a * 16 + d) 0 : Nat)

/-- `ts` are the words of `s`. -/
inductive Words : Str → List Str → Prop
  | nil {w} : Blank w → Words w []
  | cons {w t r ts} : Blank w → Word t → (r = [] ∨ ∃ c, r.head? = some c ∧ isSpace c = true) → Words r ts →
      Words (w ++ (t ++ r)) (t :: ts)

/-- `p` is `archive(member)`, or an object outside of archives. -/
def RefText (archive member p : Str) : Prop :=
  (p = archive ++ '(' :: (member ++ str ")") ∧ '(' ∉ archive) ∨
  (archive = str "(exe)" ∧ p = member ∧ '(' ∉ member)

end EspSize
