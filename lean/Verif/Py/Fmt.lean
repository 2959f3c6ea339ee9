import Verif.Py.Basic
/-! # Formatting of integers, indexing of lists -/
namespace EspSize

/-- `str(int)`. -/
def intStr (i : Int) : Str := (toString i).toList

/-- Right-aligned in a field of width `w`. -/
def padLeft (w : Nat) (s : Str) : Str := List.replicate (w - s.length) ' ' ++ s

/-- `f'{i:+6}'`. -/
def plus6 (i : Int) : Str := padLeft 6 (if i < 0 then intStr i else '+' :: intStr i)

/-- `f'{i:6}'`. -/
def int6 (i : Int) : Str := padLeft 6 (intStr i)

/-- `l[i]`. -/
def pyIndex {α : Type} (l : List α) (i : Int) : Except Err α :=
  let j := if i < 0 then i + l.length else i
  if j < 0 then .error .indexError
  else match l[j.toNat]? with
    | some x => .ok x
    | none => .error .indexError

end EspSize
