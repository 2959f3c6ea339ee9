import Verif.Model.ElfObj
/-! # Uses of an `Elf` object -/
namespace EspSize

/-- The file has a variable with a location among the entries of its units. -/
def LocatedVariable (e : ElfFile) : Prop :=
  ∃ info cus dies, e.infoData = .ok info ∧ e.cus = .ok cus ∧ e.allDies info cus [] = .ok dies ∧
    ∃ p ∈ dies, p.2.1.tag = 0x34 ∧ dget p.2.1.attrs 2 ≠ none

/-- Uses that only read, with the filter of `add_cus_to_symbols` for entries. -/
def PlainUses (ops : List ElfOp) : Prop :=
  ∀ op ∈ ops, match op with
    | .addCus => False
    | .dies _ f => f = some [0x11, 0x2E, 0x34]
    | _ => True

end EspSize
