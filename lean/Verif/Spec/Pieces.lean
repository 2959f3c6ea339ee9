import Verif.Spec.Sections
/-! # Pieces of input sections and symbols by address -/
namespace EspSize

/-- Number of addresses of `[lo, hi)` in `[a, b)`. -/
def overlap (a b lo hi : Int) : Int := max 0 (min hi b - max lo a)

/-- `[lo, hi)` has a piece in the part `[a, b)`: it ends behind the start of the part, or the part is the first one, and
does not start behind its end. -/
def Reaches (first : Bool) (a b lo hi : Int) : Prop := (first = true ∨ a < hi) ∧ lo ≤ b

instance (first : Bool) (a b lo hi : Int) : Decidable (Reaches first a b lo hi) := inferInstanceAs (Decidable (_ ∧ _))

/-- The piece of a symbol in the part `[a, b)`. -/
def pieceSym (first : Bool) (a b : Int) (y : MSym) : Option MSym :=
  if Reaches first a b y.address (y.address + y.size) then
    some { y with address := max y.address a, size := overlap a b y.address (y.address + y.size) }
  else none

/-- The piece of an input section with its padding in the part `[a, b)`. -/
def pieceInput (first : Bool) (a b : Int) (i : ISec) : Option ISec :=
  if Reaches first a b i.address (i.address + i.size + i.fill) then
    some { i with
      address := max i.address a
      size := overlap a b i.address (i.address + i.size)
      fill := overlap a b (i.address + i.size) (i.address + i.size + i.fill)
      symbols := i.symbols.filterMap (pieceSym first a b) }
  else none

/-- The symbols lie inside their input section and its padding. -/
def SymsInside (i : ISec) : Prop :=
  ∀ y ∈ i.symbols, 0 ≤ y.size ∧ i.address ≤ y.address ∧ y.address + y.size ≤ i.address + i.size + i.fill

instance (i : ISec) : Decidable (SymsInside i) := inferInstanceAs (Decidable (∀ y ∈ i.symbols, _))

end EspSize
