import Verif.Py.Basic
/-!
# Python `sorted(l, key=..., reverse=...)`

CPython's sort is stable in both directions.  Insertion sort gives the same result; that it is a
stable sort is proved in `Proofs/Sort.lean`.
-/
namespace EspSize
variable {α : Type}

/-- Insert `x` before the first element that must not precede it. -/
def insertBy (before : α → α → Bool) (x : α) : List α → List α
  | [] => [x]
  | y :: t => if before x y then x :: y :: t else y :: insertBy before x t

def isortBy (before : α → α → Bool) : List α → List α
  | [] => []
  | x :: t => insertBy before x (isortBy before t)

/-- `sorted(l, key=key, reverse=rev)` for integer keys. -/
def sortedBy (key : α → Int) (rev : Bool) : List α → List α :=
  isortBy fun x y => if rev then key y ≤ key x else key x ≤ key y

end EspSize
