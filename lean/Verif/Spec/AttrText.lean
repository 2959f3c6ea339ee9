import Verif.Spec.Dump
/-!
# The text of an attribute
-/
namespace EspSize

/-- Two hexadecimal digits for each byte, the high one first. -/
def BlockText : Bytes → Str → Prop
  | [], s => s = []
  | x :: t, s => ∃ c d r, s = c :: d :: r ∧ (str "0123456789abcdef")[x.toNat / 16]? = some c ∧ (str "0123456789abcdef")[x.toNat % 16]? = some d ∧
      BlockText t r

/-- A number in hexadecimal, with a sign if it is negative. -/
def SignedHex (n : Int) (s : Str) : Prop := (0 ≤ n ∧ HexOf n s) ∨ (n < 0 ∧ ∃ t, s = '-' :: t ∧ HexOf (-n) t)

/-- The text of an attribute: its value, if it can be evaluated, otherwise what is stored. -/
inductive ShownAs : EVal → AVal → Str → Prop where
  | text {s : Str} {raw : AVal} : ShownAs (.str s) raw s
  | address {n : Nat} {raw : AVal} {s : Str} : HexOf n s → ShownAs (.num n) raw s
  | number {n : Int} {s : Str} : SignedHex n s → ShownAs .none_ (.num n) s
  | flag : ShownAs .none_ .true_ (str "0x1")
  | block {b : Bytes} {s : Str} : BlockText b s → ShownAs .none_ (.bytes b) s

end EspSize
