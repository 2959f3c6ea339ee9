import Verif.Model.MapFile
import Verif.Model.Sections
/-! # Specification of the dependency report -/
namespace EspSize

/-- What iterating over a Python `set` built from a list can give. -/
def SetOrder (ord : List Str → List Str) : Prop := ∀ l, (ord l).Nodup ∧ ∀ x, x ∈ ord l ↔ x ∈ l

/-- The row `(s, refs)` of the cross reference table makes archive `A` depend on archive `B`: the first
archive listed, where the symbol is defined, is `B`; `A` is another archive listed; both are among the
archives `arch`, and the symbol satisfies `sym`. -/
def Refers (arch sym : Str → Prop) (A B : Str) (row : Str × List (Str × Str)) : Prop :=
  sym row.1 ∧ arch A ∧ arch B ∧ A ≠ B ∧
    ∃ df refs, row.2 = df :: refs ∧ df.1 = B ∧ ∃ o, (A, o) ∈ refs

/-- The name is that of a function or object symbol of the ELF file that is not absolute. -/
def LinkedSym (syms : List ElfSym) (n : Str) : Prop :=
  ∃ s ∈ syms, s.name = n ∧ (s.type = 1 ∨ s.type = 2) ∧ s.shndx ≠ 0xfff1

end EspSize
