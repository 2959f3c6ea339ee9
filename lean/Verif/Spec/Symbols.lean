import Verif.Model.Sections
import Verif.Spec.Sort
/-! # Specification of the attribution of ELF symbols to input sections -/
namespace EspSize

/-- End address of an input section. -/
def ISec.stop (i : ISec) : Int := i.address + i.size

/-- The ELF symbols that count: functions and objects with a size. -/
def Sized (y : ElfSym) : Prop := (y.type = 2 ∨ y.type = 1) ∧ y.size ≠ 0

/-- The symbol entry for an ELF symbol: functions get `()`. -/
def symEntry (y : ElfSym) : MSym :=
  { name := if y.type = 2 then y.name ++ str "()" else y.name, address := y.value, size := y.size }

/-- The input section as its own symbol. -/
def ownEntry (i : ISec) : MSym := { name := i.name, address := i.address, size := i.size }

/-- The symbol starts in the input section. -/
def StartsIn (i : ISec) (y : ElfSym) : Prop := i.address ≤ y.value ∧ y.value < i.stop

/-- No address belongs to both input sections. -/
def DisjointISec (i j : ISec) : Prop := ∀ x, ¬ (i.address ≤ x ∧ x < i.stop ∧ j.address ≤ x ∧ x < j.stop)

/-- In a list of input sections ordered by address, the first one that ends after the start of the symbol
also holds its end. -/
def FitsIn (l : List ISec) (y : ElfSym) : Prop :=
  ∃ pre p post, l = pre ++ p :: post ∧ (∀ q ∈ pre, q.stop ≤ y.value) ∧ y.value < p.stop ∧ y.value + y.size ≤ p.stop

instance (y : ElfSym) : Decidable (Sized y) := inferInstanceAs (Decidable (_ ∧ _))
instance (i : ISec) (y : ElfSym) : Decidable (StartsIn i y) := inferInstanceAs (Decidable (_ ∧ _))

/-- The symbols of the input section `i`, when the sections `pre` come before it in the order of addresses
and `ys` are the symbols in the order of addresses: those that start in it and in or before no earlier section;
if there are none and a symbol lies behind, the section itself. -/
def symsAt (ys : List ElfSym) (pre : List ISec) (i : ISec) : List MSym :=
  let own := ys.filter fun y => (∀ q ∈ pre, q.stop ≤ y.value) ∧ StartsIn i y
  if own = [] ∧ ∃ y ∈ ys, (∀ q ∈ pre, q.stop ≤ y.value) ∧ i.stop ≤ y.value then [ownEntry i] else own.map symEntry

/-- `o'` is `o` with other symbols, related by `R` to each input section. -/
def SymsOf (R : ISec → List MSym → Prop) (o o' : OSec) : Prop :=
  o' = { o with inputs := o'.inputs } ∧
  All2 (fun i i' => i' = { i with symbols := i'.symbols } ∧ R i i'.symbols) o.inputs o'.inputs

end EspSize
