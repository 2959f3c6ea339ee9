import Verif.Model.Dwarf
import Verif.Model.Get
/-!
# What the memory map uses of an ELF file

`/repo/esp_idf_size/elf.py:1927-2010,2139-2200`.  The names of sections and symbols are attributes evaluated on first use
(`elf.py:1399-1403,1444-1448`); here they are evaluated when the file is opened.  The two agree for files in which every
name can be read (`C104_same`; `Model/Lazy.lean` has the evaluation on first use).
-/
namespace EspSize

/-- The attributes of a section used by `memorymap.py:1197-1232`, with `Elf_Shdr.name`, `elf.py:1399-1403`. -/
def ElfFile.shdrView (e : ElfFile) (s : RawShdr) : Except Err Shdr := do
  let n ← e.shdrName s
  .ok { name := n, type := s.type, flags := s.flags, size := s.size }

/-- The attributes of a symbol used by `memorymap.py:1119-1192` and `deps.py:100`, with `Elf_Sym.name`, `elf.py:1444-1448`. -/
def ElfFile.symView (e : ElfFile) (s : RawSym) : Except Err ElfSym := do
  let n ← e.symName s
  .ok { name := n, value := s.value, size := s.size, type := s.type, shndx := s.shndx }

/-- A value of the dictionary returned by `add_cus_to_symbols`, `elf.py:2162-2200`. -/
def ElfFile.cuView (e : ElfFile) (p : Nat × (RawSym × Option Str)) : Except Err (Int × CuSym) := do
  let n ← e.symName p.2.1
  .ok ((p.1 : Int), { name := n, value := p.2.1.value, size := p.2.1.size, cuName := p.2.2 })

/-- `Elf.add_cus_to_symbols`, `elf.py:2139-2200`, with the names of the symbols. -/
def ElfFile.cuSyms (e : ElfFile) : Except Err (Dict Int CuSym) := do
  let d ← e.addCus
  d.mapM e.cuView

/-- The attributes of an open ELF file that are used. -/
def ElfFile.view (e : ElfFile) : Except Err ElfData := do
  let sh ← e.shdrs.mapM e.shdrView
  let raw ← e.symbols
  let sy ← raw.mapM e.symView
  .ok { shdrs := sh, syms := sy, cuSyms := e.cuSyms }

/-- `Elf(fn)` on a file with contents `file`, `elf.py:1927-1987`, and the attributes used. -/
def elfView (long : Nat) (file : Bytes) : Except Err ElfData := do
  let e ← openElf long file
  e.view

end EspSize
