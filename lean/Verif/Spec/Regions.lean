import Verif.Model.Regions
/-! # Specification of region splitting -/
namespace EspSize

/-- Address `x` is in the window of `t` that starts at `base`. -/
def InWindow (t : MemTypeInfo) (base x : Int) : Prop := base ≤ x ∧ x < base + t.length

/-- The windows of a memory type. -/
def IsBase (t : MemTypeInfo) (base : Int) : Prop :=
  base = t.primary ∨ (t.secondary ≠ 0 ∧ base = t.secondary)

/-- Address `x` belongs to some memory type of the table. -/
def CoveredAddr (types : Dict Str MemTypeInfo) (x : Int) : Prop :=
  ∃ k t base, (k, t) ∈ types ∧ IsBase t base ∧ InWindow t base x

/-- `ps` are adjacent pieces from `a` to `b`. -/
def Tiles (a b : Int) : List SReg → Prop
  | [] => a = b
  | p :: ps => p.origin = a ∧ Tiles (a + p.length) b ps

/-- A piece of region `r`, not empty, inside a window of its memory type, which is in the table. -/
def PieceOk (types : Dict Str MemTypeInfo) (r : Region) (p : SReg) : Prop :=
  p.name = r.name ∧ p.attrs = r.attrs ∧ 0 < p.length ∧
  ∃ k base, (k, p.type) ∈ types ∧ IsBase p.type base ∧
    base ≤ p.origin ∧ p.origin + p.length ≤ base + p.type.length

/-- The first address of `[a, b)` that belongs to no memory type is `g`. -/
def FirstGap (types : Dict Str MemTypeInfo) (a b g : Int) : Prop :=
  a ≤ g ∧ g < b ∧ ¬ CoveredAddr types g ∧ ∀ x, a ≤ x → x < g → CoveredAddr types x

/-- All addresses of the region belong to memory types. -/
def FullyCovered (types : Dict Str MemTypeInfo) (r : Region) : Prop :=
  ∀ x, r.origin ≤ x → x < r.origin + r.length → CoveredAddr types x

/-- The loop for region `r`, started after the pieces `acc` were produced, ends. -/
def Ends (types : Dict Str MemTypeInfo) (r : Region) (acc : List SReg) : Prop :=
  ∃ n, (splitLoop types r n { origin := r.origin, length := r.length, acc := acc }).isSome = true

end EspSize
