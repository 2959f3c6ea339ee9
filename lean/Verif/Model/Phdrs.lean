import Verif.Model.Elf
/-!
# Program headers

`/repo/esp_idf_size/elf.py:1355-1369,1971-1978`.  `openElf` reads the table of the program headers and does not keep it; this is
what `Elf.__init__` stores in `self.phdrs`.
-/
namespace EspSize

/-- `Elf_Phdr`, `elf.py:1355-1369`. -/
structure RawPhdr where
  type : Nat
  offset : Nat
  vaddr : Nat
  paddr : Nat
  filesz : Nat
  memsz : Nat
  flags : Nat
  align : Nat
deriving DecidableEq, Repr

/-- `Elf_Phdr(self, *hdr)`, `elf.py:1978`: the same order of the fields for both classes. -/
def phdrOf (o : Order) : List Bytes → Except Err RawPhdr
  | [a, b, c, d, e, f, g, h] =>
    let u := fromBytes o
    .ok { type := u a, offset := u b, vaddr := u c, paddr := u d, filesz := u e, memsz := u f, flags := u g, align := u h }
  | _ => .error .typeError

/-- `self.phdrs` after `Elf.__init__`, `elf.py:1971-1978`. -/
def ElfFile.phdrs (e : ElfFile) : Except Err (List RawPhdr) := do
  let t ← table e.file (phdrFmt e.cls) e.ehdr.phnum e.ehdr.phentsize e.ehdr.phoff
  t.mapM (phdrOf e.order)

end EspSize
