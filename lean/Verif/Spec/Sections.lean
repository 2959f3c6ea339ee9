import Verif.Model.Sections
/-! # Specification of output section splitting -/
namespace EspSize

/-- Adjacent parts, all named `name`, from address `a` to `b`. -/
def SecTiles (name : Str) (a b : Int) : List OSec → Prop
  | [] => a = b
  | s :: ss => s.name = name ∧ s.address = a ∧ SecTiles name (a + s.size) b ss

/-- Address `x` lies in region `r`. -/
def InRegion (r : SReg) (x : Int) : Prop := r.origin ≤ x ∧ x < r.origin + r.length

/-- The part is inside one region, or starts in none. -/
def PartPlaced (regions : List SReg) (s : OSec) : Prop :=
  (∃ r ∈ regions, InRegion r s.address ∧ s.address + s.size ≤ r.origin + r.length) ∨
  (∀ r ∈ regions, ¬ InRegion r s.address)

/-- Sum over the input sections of some of the archives, object files, names. -/
def inputSum (P : Str → Str → Str → Bool) (f : ISec → Int) (s : OSec) : Int :=
  sumBy (fun i => if P i.archive i.objectFile i.name then f i else 0) s.inputs

/-- Sum over the symbols of some of the archives, object files, names. -/
def symbolSum (P : Str → Str → Str → Bool) (s : OSec) : Int :=
  sumBy (fun i => sumBy (fun y => if P i.archive i.objectFile y.name then y.size else 0) i.symbols) s.inputs

/-- An input section, with its padding, lies in `[lo, hi]`. -/
def ISecIn (lo hi : Int) (i : ISec) : Prop :=
  0 ≤ i.size ∧ 0 ≤ i.fill ∧ lo ≤ i.address ∧ i.address + i.size + i.fill ≤ hi

/-- All input sections lie inside their output section. -/
def InputsInside (s : OSec) : Prop := ∀ i ∈ s.inputs, ISecIn s.address (s.address + s.size) i

instance (r : SReg) (x : Int) : Decidable (InRegion r x) := inferInstanceAs (Decidable (_ ∧ _))
instance (lo hi : Int) (i : ISec) : Decidable (ISecIn lo hi i) := inferInstanceAs (Decidable (_ ∧ _))
instance (s : OSec) : Decidable (InputsInside s) := inferInstanceAs (Decidable (∀ i ∈ s.inputs, _))

end EspSize
