import Verif.Spec.Symbols
/-! # Symbols that do not overlap -/
namespace EspSize

/-- No address belongs to two of the functions and objects with a size. -/
def DisjointSyms (syms : List ElfSym) : Prop :=
  (∀ y ∈ syms, 0 ≤ y.size) ∧
  (syms.filter fun y => Sized y).Pairwise fun y z =>
    ∀ x, ¬ (y.value ≤ x ∧ x < y.value + y.size ∧ z.value ≤ x ∧ x < z.value + z.size)

end EspSize
