import Verif.Model.Elf
/-!
# Encodings of the DWARF and ELF standards

Written from the standards (DWARF 5 §7.6; ELF gABI chapters 4-5), not from the decoder.
-/
namespace EspSize

/-- Unsigned LEB128, with any padding: seven bits per byte, least significant first, the last byte below 128. -/
inductive Uleb : Nat → Bytes → Prop
  | last {b : UInt8} : b.toNat < 128 → Uleb b.toNat [b]
  | more {b : UInt8} {n : Nat} {bs : Bytes} : 128 ≤ b.toNat → Uleb n bs → Uleb (b.toNat - 128 + 128 * n) (b :: bs)

/-- Signed LEB128: bit 6 of the last byte is the sign. -/
inductive Sleb : Int → Bytes → Prop
  | pos {b : UInt8} : b.toNat < 64 → Sleb b.toNat [b]
  | neg {b : UInt8} : 64 ≤ b.toNat → b.toNat < 128 → Sleb (b.toNat - 128) [b]
  | more {b : UInt8} {n : Int} {bs : Bytes} : 128 ≤ b.toNat → Sleb n bs → Sleb (b.toNat - 128 + 128 * n) (b :: bs)

/-- What the program may read for `z` in `n` bytes: `z`, or the number with the other sign that has the same `7 * n` bits. -/
def SlebRead (z : Int) (n : Nat) (v : Int) : Prop :=
  v = z ∨ (z < 0 ∧ v = z + (2 ^ (n * 7) : Nat)) ∨ (0 ≤ z ∧ v = z - (2 ^ (n * 7) : Nat))

/-- `v` in `n` bytes, least significant first. -/
def leBytes : Nat → Nat → Bytes
  | 0, _ => []
  | n + 1, v => UInt8.ofNat (v % 256) :: leBytes n (v / 256)

/-- `v` in `n` bytes in the given byte order. -/
def intBytes (o : Order) (n v : Nat) : Bytes :=
  match o with
  | .little => leBytes n v
  | .big => (leBytes n v).reverse

/-- Integer fields, as width and value, one after the other. -/
def fieldBytes (o : Order) (fs : List (Nat × Nat)) : Bytes := fs.flatMap fun f => intBytes o f.1 f.2

/-- Every value fits its field. -/
def Fits (fs : List (Nat × Nat)) : Prop := ∀ f ∈ fs, f.2 < 256 ^ f.1

/-- The size of an address or offset field of a class. -/
def ElfClass.word : ElfClass → Nat
  | .c32 => 4
  | .c64 => 8

/-- The ELF header after `e_ident`. -/
def ehdrFields (c : ElfClass) (h : Ehdr) : List (Nat × Nat) :=
  [(2, h.type), (2, h.machine), (4, h.version), (c.word, h.entry), (c.word, h.phoff), (c.word, h.shoff), (4, h.flags), (2, h.ehsize),
   (2, h.phentsize), (2, h.phnum), (2, h.shentsize), (2, h.shnum), (2, h.shstrndx)]

/-- A section header. -/
def shdrFields (c : ElfClass) (s : RawShdr) : List (Nat × Nat) :=
  [(4, s.name), (4, s.type), (c.word, s.flags), (c.word, s.addr), (c.word, s.offset), (c.word, s.size), (4, s.link), (4, s.info),
   (c.word, s.addralign), (c.word, s.entsize)]

/-- A symbol: the order of the fields depends on the class. -/
def symFields (c : ElfClass) (s : RawSym) : List (Nat × Nat) :=
  match c with
  | .c32 => [(4, s.name), (4, s.value), (4, s.size), (1, s.info), (1, s.other), (2, s.shndx)]
  | .c64 => [(4, s.name), (1, s.info), (1, s.other), (2, s.shndx), (8, s.value), (8, s.size)]

def ElfClass.code : ElfClass → UInt8
  | .c32 => 1
  | .c64 => 2

def Order.code : Order → UInt8
  | .little => 1
  | .big => 2

/-- A file with this header and these section headers, anywhere after the ELF header. -/
structure IsElf (o : Order) (c : ElfClass) (h : Ehdr) (shdrs : List RawShdr) (file : Bytes) : Prop where
  ident : ∃ rest, h.ident = 0x7F :: 0x45 :: 0x4C :: 0x46 :: c.code :: o.code :: rest ∧ rest.length = 10
  header : ∃ rest, file = h.ident ++ fieldBytes o (ehdrFields c h) ++ rest
  fits : Fits (ehdrFields c h)
  count : h.shnum = shdrs.length
  entsize : h.shentsize = (shdrFields c ⟨0, 0, 0, 0, 0, 0, 0, 0, 0, 0⟩).foldl (fun a f => a + f.1) 0
  table : shdrs ≠ [] → ∃ pre post, file = pre ++ (shdrs.flatMap fun s => fieldBytes o (shdrFields c s)) ++ post ∧ pre.length = h.shoff
  shdrFits : ∀ s ∈ shdrs, Fits (shdrFields c s)

/-- The bytes needed before the program accepts a header: those of the ELF specification where `long` has 4 bytes, more where it has 8. -/
def bytesNeeded (long : Nat) : ElfClass → Nat
  | .c32 => if long = 8 then 76 else 52
  | .c64 => if long = 8 then 76 else 64

end EspSize
