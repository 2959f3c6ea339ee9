import Verif.Model.Lazy
import Verif.Spec.ElfView
/-!
# Which attributes of an ELF file are needed
-/
namespace EspSize

/-- The symbol is a function or an object that is not empty. -/
def IsSized (y : RawSym) : Prop := (y.info % 16 = 1 ∨ y.info % 16 = 2) ∧ y.size ≠ 0

/-- The names needed can be read, and are those given by `sn` (sections) and `yn` (symbols): of the sections of the image (not empty, with the flag `SHF_ALLOC`);
of the sized functions and objects, if symbols are wanted; of those with a unit, if the units are used.  Other
names may be anything. -/
structure NamesRead (e : ElfFile) (symbols units : Bool) (sn : RawShdr → Str) (yn : RawSym → Str) : Prop where
  sections : ∀ s ∈ e.shdrs, LoadedSec s → e.shdrName s = .ok (sn s)
  table : symbols = true → ∃ l, e.symbols = .ok l ∧ ∀ y ∈ l, IsSized y → e.symName y = .ok (yn y)
  cus : units = true → ∀ d, e.addCus = .ok d → ∀ p ∈ d, ∀ cu, p.2.2 = some cu → cu ≠ [] → p.2.1.size ≠ 0 → e.symName p.2.1 = .ok (yn p.2.1)

/-- Some attribute that is needed raises `x`. -/
inductive Unreadable (e : ElfFile) (symbols units : Bool) (x : Err) : Prop where
  | section : ∀ s ∈ e.shdrs, LoadedSec s → e.shdrName s = .error x → Unreadable e symbols units x
  | table : symbols = true → e.symbols = .error x → Unreadable e symbols units x
  | symbol : symbols = true → ∀ l, e.symbols = .ok l → ∀ y ∈ l, IsSized y → e.symName y = .error x → Unreadable e symbols units x
  | units : units = true → e.addCus = .error x → Unreadable e symbols units x
  | named : units = true → ∀ d, e.addCus = .ok d → ∀ p ∈ d, ∀ cu, p.2.2 = some cu → cu ≠ [] → p.2.1.size ≠ 0 →
      e.symName p.2.1 = .error x → Unreadable e symbols units x

/-- What is used of the file, with the names given by `sn` and `yn`. -/
def ElfFile.named (e : ElfFile) (sn : RawShdr → Str) (yn : RawSym → Str) : ElfData where
  shdrs := e.shdrs.map fun s => { name := sn s, type := s.type, flags := s.flags, size := s.size }
  syms := match e.symbols with
    | .ok l => l.map fun y => { name := yn y, value := y.value, size := y.size, type := y.info % 16, shndx := y.shndx }
    | .error _ => []
  cuSyms := e.addCus.map fun d => d.map fun p =>
    ((p.1 : Int), { name := yn p.2.1, value := p.2.1.value, size := p.2.1.size, cuName := p.2.2 })

end EspSize
