import Verif.Spec.Elf
import Verif.Model.Sections
/-!
# ELF files with named sections and symbols

ELF gABI chapters 4 (sections, string table, symbol table).
-/
namespace EspSize

/-- The bytes of the section with header `s`. -/
def SectionBytes (file : Bytes) (s : RawShdr) (d : Bytes) : Prop :=
  ∃ pre post, file = pre ++ d ++ post ∧ pre.length = s.offset ∧ d.length = s.size

/-- String table `s` has `name`, in UTF-8, at byte `i`. -/
def StringIn (file : Bytes) (s : RawShdr) (i : Nat) (name : Str) : Prop :=
  ∃ pre post, SectionBytes file s (pre ++ name.utf8Encode.data.toList ++ 0 :: post) ∧ pre.length = i ∧
    (0 : UInt8) ∉ name.utf8Encode.data.toList

/-- `SHT_SYMTAB` and `SHT_DYNSYM`. -/
def IsSymtab (s : RawShdr) : Prop := s.type = 2 ∨ s.type = 11

instance (s : RawShdr) : Decidable (IsSymtab s) := inferInstanceAs (Decidable (_ ∨ _))

/-- A file with these sections, by name, and these symbols, by name, in each symbol table. -/
structure ElfNamed (o : Order) (c : ElfClass) (h : Ehdr) (secs : List (Str × RawShdr)) (syms : RawShdr → List (Str × RawSym))
    (file : Bytes) : Prop where
  elf : IsElf o c h (secs.map (·.2)) file
  names : ∃ st, (secs.map (·.2))[h.shstrndx]? = some st ∧ ∀ p ∈ secs, StringIn file st p.2.name p.1
  tables : ∀ p ∈ secs, IsSymtab p.2 →
    SectionBytes file p.2 ((syms p.2).flatMap fun y => fieldBytes o (symFields c y.2)) ∧
    ∃ st, (secs.map (·.2))[p.2.link]? = some st ∧
      ∀ y ∈ syms p.2, y.2.strndx = p.2.link ∧ Fits (symFields c y.2) ∧ StringIn file st y.2.name y.1

/-- The symbols of a file, table by table. -/
def allSyms (secs : List (Str × RawShdr)) (syms : RawShdr → List (Str × RawSym)) : List (Str × RawSym) :=
  (secs.filter fun p => decide (IsSymtab p.2)).flatMap fun p => syms p.2

/-- A section that is loaded into memory: it has a size and `SHF_ALLOC`. -/
def LoadedSec (s : RawShdr) : Prop := s.size ≠ 0 ∧ s.flags.testBit 1 = true

instance (s : RawShdr) : Decidable (LoadedSec s) := inferInstanceAs (Decidable (_ ∧ _))

/-- A section with contents in the image: `SHF_ALLOC` and `SHT_PROGBITS`. -/
def inImage (s : RawShdr) : Bool := s.flags.testBit 1 && s.type == 1

end EspSize
