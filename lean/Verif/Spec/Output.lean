import Verif.Spec.Fields
import Verif.Spec.Files
import Verif.Spec.Sort
import Verif.Model.Output
/-! # Bytes of a text in some encoding -/
namespace EspSize

/-- The characters of ASCII are encoded as in ASCII. -/
def AsciiCompatible (k : Codec) : Prop := ∀ c : Char, c.toNat < 128 → k c = some [c.toNat.toUInt8]

/-- The bytes of a text in ASCII. -/
def asciiBytes (s : Str) : List UInt8 := s.map fun c => c.toNat.toUInt8

/-- `n` as exactly `len` lower case hexadecimal digits. -/
def HexText (len n : Nat) (s : Str) : Prop :=
  ∃ ds, s.length = len ∧ All2 (fun c d => (str "0123456789abcdef")[d]? = some c) s ds ∧ n = digitsValue 16 ds

/-- The escape sequence of a character: a backslash, `x`, `u` or `U`, and its number in 2, 4 or 8 digits. -/
inductive EscapeOf (c : Char) : Str → Prop
  | two {s} : c.toNat < 0x100 → HexText 2 c.toNat s → EscapeOf c ('\\' :: 'x' :: s)
  | four {s} : 0x100 ≤ c.toNat → c.toNat < 0x10000 → HexText 4 c.toNat s → EscapeOf c ('\\' :: 'u' :: s)
  | eight {s} : 0x10000 ≤ c.toNat → HexText 8 c.toNat s → EscapeOf c ('\\' :: 'U' :: s)

/-- The bytes written for a text: those of the characters the encoding has, the escape sequences of the others. -/
inductive WrittenAs (k : Codec) : Str → List UInt8 → Prop
  | nil : WrittenAs k [] []
  | char {c s b bs} : k c = some b → WrittenAs k s bs → WrittenAs k (c :: s) (b ++ bs)
  | escape {c s e bs} : k c = none → EscapeOf c e → WrittenAs k s bs → WrittenAs k (c :: s) (asciiBytes e ++ bs)

/-- A character for which there are no bytes: the encoding has neither it nor the whole of its escape sequence. -/
def Unwritable (k : Codec) (c : Char) : Prop := k c = none ∧ ∀ e, EscapeOf c e → ∃ d ∈ e, k d = none

end EspSize
