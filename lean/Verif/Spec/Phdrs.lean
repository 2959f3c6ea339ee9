import Verif.Spec.Elf
import Verif.Model.Phdrs
/-!
# Program headers and header tables, as the ELF specification lays them out
-/
namespace EspSize

/-- A program header: the place of `p_flags` depends on the class. -/
def phdrFields (c : ElfClass) (p : RawPhdr) : List (Nat × Nat) :=
  match c with
  | .c32 => [(4, p.type), (4, p.offset), (4, p.vaddr), (4, p.paddr), (4, p.filesz), (4, p.memsz), (4, p.flags), (4, p.align)]
  | .c64 => [(4, p.type), (4, p.flags), (8, p.offset), (8, p.vaddr), (8, p.paddr), (8, p.filesz), (8, p.memsz), (8, p.align)]

/-- The file has these program headers, one after the other, at `e_phoff`. -/
structure HasPhdrs (o : Order) (c : ElfClass) (h : Ehdr) (phdrs : List RawPhdr) (file : Bytes) : Prop where
  count : h.phnum = phdrs.length
  entsize : h.phentsize = (match c with | .c32 => 32 | .c64 => 56)
  table : phdrs ≠ [] → ∃ pre post, file = pre ++ (phdrs.flatMap fun p => fieldBytes o (phdrFields c p)) ++ post ∧ pre.length = h.phoff
  fits : ∀ p ∈ phdrs, Fits (phdrFields c p)

/-- The bytes of a section header. -/
def ElfClass.shdrBytes : ElfClass → Nat
  | .c32 => 40
  | .c64 => 64

/-- The bytes of a program header. -/
def ElfClass.phdrBytes : ElfClass → Nat
  | .c32 => 32
  | .c64 => 56

end EspSize
