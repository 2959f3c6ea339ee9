import Verif.Py.Dict
/-! # What sorting means -/
namespace EspSize
variable {α β : Type}

/-- `b` is the stable sort of `a`: the same elements, ordered by the key, elements with equal keys
in their original order. -/
structure StableSort (key : α → Int) (rev : Bool) (a b : List α) : Prop where
  perm : b.Perm a
  sorted : b.Pairwise fun x y => if rev then key y ≤ key x else key x ≤ key y
  stable : ∀ k, (b.filter fun x => key x = k) = a.filter fun x => key x = k

/-- Elementwise relation of two lists of the same length. -/
def All2 (R : α → β → Prop) : List α → List β → Prop
  | [], [] => True
  | x :: a, y :: b => R x y ∧ All2 R a b
  | _, _ => False

end EspSize
