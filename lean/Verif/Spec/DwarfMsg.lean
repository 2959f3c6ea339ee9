import Verif.Model.DwarfMsg
import Verif.Spec.Markup
/-! # What is wrong with debugging information -/
namespace EspSize

/-- The number in the `k` bytes at `off`, or in as many of them as there are. -/
def fieldAt (o : Order) (d : Bytes) (off k : Nat) : Nat := fromBytes o ((d.drop off).take k)

/-- Where the header goes on behind the unit length, and the size of an offset. -/
def headerAt (o : Order) (d : Bytes) (off : Nat) : Nat × Nat := if fieldAt o d off 4 = 0xFFFFFFFF then (off + 12, 8) else (off + 4, 4)

/-- Where the address size is: DWARF 5 has the unit type and the address size behind the version, the versions before it the offset of the
abbreviations and the address size. -/
def addrSizeAt (o : Order) (d : Bytes) (off : Nat) : Nat :=
  (headerAt o d off).1 + (if fieldAt o d (headerAt o d off).1 2 = 5 then 3 else 2 + (headerAt o d off).2)

/-- What is wrong with the header of a unit. -/
inductive UnitWrong (o : Order) (d : Bytes) (off : Nat) : DwarfProblem → Prop
  | version (v : Nat) : fieldAt o d (headerAt o d off).1 2 = v → 5 < v → UnitWrong o d off (.version v)
  | addrSize (n : Nat) : fieldAt o d (headerAt o d off).1 2 ≤ 5 → fieldAt o d (addrSizeAt o d off) 1 = n → n ≠ 4 → n ≠ 8 → UnitWrong o d off (.addrSize n)

/-- Going from unit to unit one gets from the first offset to the second. -/
inductive UnitsTo (o : Order) (d : Bytes) : Nat → Nat → Prop
  | here (off : Nat) : UnitsTo o d off off
  | next (off to : Nat) (u : CU) : off < d.length → cuAt o d off = .ok u → UnitsTo o d (off + (u.lenBytes + u.length)) to → UnitsTo o d off to

/-- The forms that have a value. -/
def SupportedForm (f : Nat) : Prop := 1 ≤ f ∧ f ≤ 0x28 ∧ f ≠ 2 ∧ f ≠ 0x16 ∧ f ≠ 0x1B

/-- An expression of operations `DW_OP_addr` only; the last address may be cut. -/
inductive AddrOps (o : Order) (n : Nat) : Bytes → List Nat → Prop
  | nil : AddrOps o n [] []
  | op (a t : Bytes) (l : List Nat) : a.length = n ∨ (a.length < n ∧ t = []) → AddrOps o n t l → AddrOps o n (3 :: (a ++ t)) (fromBytes o a :: l)

end EspSize
