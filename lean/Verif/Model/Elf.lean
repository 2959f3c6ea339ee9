import Verif.Py.Bytes
import Verif.Py.Dict
/-!
# ELF files

`/repo/esp_idf_size/elf.py:1334-1474,1926-2137`.  A file is its bytes.  The properties `data`, `name`, `symbols` are
computed on each access; their caches hold what the first access computed.  Program headers are not kept
(nothing uses them; see `Model/Phdrs`), but reading them may fail.  `seek` to an offset of `2^63` or more
(an `OverflowError`) is not modelled.
-/
namespace EspSize

/-! ## Integers -/

/-- `Elf.get_int`, `elf.py:2063-2066`, unsigned. -/
def getUint (o : Order) (d : Bytes) (size off : Nat) : Nat × Nat := (fromBytes o (slice d off size), off + size)

/-- `Elf.get_int`, signed. -/
def getSint (o : Order) (d : Bytes) (size off : Nat) : Int × Nat := (fromBytesSigned o (slice d off size), off + size)

/-- `Elf.get_bytes`, `elf.py:2053-2056`. -/
def getBytes (cnt : Nat) (d : Bytes) (off : Nat) : Bytes × Nat := (slice d off cnt, off + cnt)

/-- `Elf.get_string`, `elf.py:2058-2061`. -/
def getString (d : Bytes) (off : Nat) : Except Err (Bytes × Nat) := do
  let e ← indexNul d off
  .ok (slice d off (e - off), e + 1)

/-- The loop of `get_uleb128`, `elf.py:2115-2119`; the first argument is `data[offset + idx:]`. -/
def ulebLoop : Bytes → Nat → Nat → Except Err (Nat × Nat)
  | [], _, _ => .error .indexError
  | b :: t, res, idx =>
    let res := res ||| ((b.toNat &&& 0x7F) <<< (idx * 7))
    if b.toNat &&& 0x80 = 0 then .ok (res, idx + 1) else ulebLoop t res (idx + 1)

/-- `Elf.get_uleb128`, `elf.py:2111-2120`. -/
def getUleb128 (d : Bytes) (off : Nat) : Except Err (Nat × Nat) := do
  let r ← ulebLoop (d.drop off) 0 0
  .ok (r.1, off + r.2)

/-- `Elf.get_sleb128`, `elf.py:2122-2137`.  The byte tested is the one before the number.  `value | -(1 << k)` is
`value - 2^k`, because `value < 2^k`. -/
def getSleb128 (d : Bytes) (off : Nat) : Except Err (Int × Nat) := do
  let r ← getUleb128 d off
  let msb ← byteBefore d off
  if msb &&& 0x40 = 0 then .ok ((r.1 : Int), r.2) else .ok ((r.1 : Int) - (2 ^ ((r.2 - off) * 7) : Nat), r.2)

/-! ## Headers -/

/-- `Elf_Ehdr`, `elf.py:1334-1352`. -/
structure Ehdr where
  ident : Bytes
  type : Nat
  machine : Nat
  version : Nat
  entry : Nat
  phoff : Nat
  shoff : Nat
  flags : Nat
  ehsize : Nat
  phentsize : Nat
  phnum : Nat
  shentsize : Nat
  shnum : Nat
  shstrndx : Nat
deriving DecidableEq, Repr

/-- `Elf_Shdr`, `elf.py:1372-1403`. -/
structure RawShdr where
  name : Nat
  type : Nat
  flags : Nat
  addr : Nat
  offset : Nat
  size : Nat
  link : Nat
  info : Nat
  addralign : Nat
  entsize : Nat
deriving DecidableEq, Repr

/-- `Elf_Sym`, `elf.py:1406-1448`. -/
structure RawSym where
  strndx : Nat
  name : Nat
  value : Nat
  size : Nat
  info : Nat
  other : Nat
  shndx : Nat
deriving DecidableEq, Repr

/-- `elf.py:1450-1460`. -/
def RawSym.type (s : RawSym) : Nat := s.info &&& 0xF
def RawSym.bind (s : RawSym) : Nat := s.info >>> 4
def RawSym.visibility (s : RawSym) : Nat := s.other &&& 0x03

inductive ElfClass where
  | c32 | c64
deriving DecidableEq, Repr

def ehdrFmt : ElfClass → Str
  | .c32 => str "16s2H5L6H"
  | .c64 => str "16s2HL3QL6H"
def phdrFmt : ElfClass → Str
  | .c32 => str "8L"
  | .c64 => str "2L6Q"
def shdrFmt : ElfClass → Str
  | .c32 => str "10L"
  | .c64 => str "2L4Q2L2Q"
def symFmt : ElfClass → Str
  | .c32 => str "3L2BH"
  | .c64 => str "L2BH2Q"

/-- `Elf_Ehdr(*hdr)`. -/
def ehdrOf (o : Order) : List Bytes → Except Err Ehdr
  | [i, a, b, c, d, e, f, g, h, j, k, l, m, n] =>
    let u := fromBytes o
    .ok { ident := i, type := u a, machine := u b, version := u c, entry := u d, phoff := u e, shoff := u f, flags := u g,
          ehsize := u h, phentsize := u j, phnum := u k, shentsize := u l, shnum := u m, shstrndx := u n }
  | _ => .error .typeError

/-- `Elf_Shdr(self, *hdr)`. -/
def shdrOf (o : Order) : List Bytes → Except Err RawShdr
  | [a, b, c, d, e, f, g, h, i, j] =>
    let u := fromBytes o
    .ok { name := u a, type := u b, flags := u c, addr := u d, offset := u e, size := u f, link := u g, info := u h,
          addralign := u i, entsize := u j }
  | _ => .error .typeError

/-- `Elf_Sym(self, sh_link, sym)`, `elf.py:1424-1442`. -/
def symOf (o : Order) (cls : ElfClass) (link : Nat) : List Bytes → Except Err RawSym
  | [a, b, c, d, e, f] =>
    let u := fromBytes o
    match cls with
    | .c32 => .ok { strndx := link, name := u a, value := u b, size := u c, info := u d, other := u e, shndx := u f }
    | .c64 => .ok { strndx := link, name := u a, info := u b, other := u c, shndx := u d, value := u e, size := u f }
  | _ => .error .indexError

/-- An open ELF file. -/
structure ElfFile where
  file : Bytes
  order : Order
  cls : ElfClass
  ehdr : Ehdr
  shdrs : List RawShdr
deriving DecidableEq, Repr

/-- `Elf.read`, `elf.py:2032-2037`. -/
def readAt (file : Bytes) (off count : Nat) : Except Err Bytes :=
  if (slice file off count).length = count then .ok (slice file off count) else .error .elf

/-- `while offset < size: hdr, offset = self.get_fmt(fmt, data, offset)`, `elf.py:1976-1978,1985-1987,2005-2008`: the
first argument is `data[offset:]`, `size` is the length of `data`. -/
def records (fmt : Str) (rest : Bytes) : Except Err (List (List Bytes)) :=
  if rest = [] then .ok []
  else if rest.length < calcsize fmt then .error .structError
  else if calcsize fmt = 0 then .error .structError
  else do
    let t ← records fmt (rest.drop (calcsize fmt))
    .ok (chunks (fmtWidths fmt) rest :: t)
termination_by rest.length
decreasing_by
  rename_i h1 _ _
  have : rest.length ≠ 0 := fun h => h1 (List.length_eq_zero_iff.mp h)
  simp only [List.length_drop]
  omega

/-- The table of `num` entries of `entsize` bytes at `off`; `if num: ...`, `elf.py:1971-1987`. -/
def table (file : Bytes) (fmt : Str) (num entsize off : Nat) : Except Err (List (List Bytes)) :=
  if num = 0 then .ok []
  else do
    let data ← readAt file off (num * entsize)
    records fmt data

/-- The byte order, from `e_ident[EI_DATA:]`, `elf.py:1943-1949`. -/
def orderOf : Bytes → Except Err Order
  | b :: _ => if b = 1 then .ok .little else if b = 2 then .ok .big else .error .elf
  | [] => .error .indexError

/-- The class, from `e_ident[EI_CLASS:]`, `elf.py:1953-1965`. -/
def classOf : Bytes → Except Err ElfClass
  | b :: _ => if b = 1 then .ok .c32 else if b = 2 then .ok .c64 else .error .elf
  | [] => .error .indexError

/-- `Elf.__init__`, `elf.py:1927-1987`; `long` is the size of `long` on the platform. -/
def openElf (long : Nat) (file : Bytes) : Except Err ElfFile := do
  let ident ← readAt file 0 16
  if ident.take 4 ≠ [0x7F, 0x45, 0x4C, 0x46] then .error .elf
  else
    let order ← orderOf (ident.drop 5)
    let cls ← classOf (ident.drop 4)
    let data ← readAt file 0 (nativeSize long (ehdrFmt cls))
    let ehdr ← ehdrOf order (← unpackFrom (ehdrFmt cls) data 0)
    let _ ← table file (phdrFmt cls) ehdr.phnum ehdr.phentsize ehdr.phoff
    let sh ← table file (shdrFmt cls) ehdr.shnum ehdr.shentsize ehdr.shoff
    let shdrs ← sh.mapM (shdrOf order)
    .ok { file := file, order := order, cls := cls, ehdr := ehdr, shdrs := shdrs }

/-- `Elf_Shdr.data`, `elf.py:1393-1397`. -/
def ElfFile.data (e : ElfFile) (s : RawShdr) : Except Err Bytes := readAt e.file s.offset s.size

/-- `Elf.lookup_string`, `elf.py:2039-2041`, on the data of the string table. -/
def lookupString (d : Bytes) (index : Nat) : Except Err Bytes := do
  let e ← indexNul d index
  .ok (slice d index (e - index))

/-- `lookup_string(self.shdrs[ndx], index).decode()`. -/
def ElfFile.stringAt (e : ElfFile) (ndx index : Nat) : Except Err Str :=
  match e.shdrs[ndx]? with
  | none => .error .indexError
  | some s => do
    let d ← e.data s
    let b ← lookupString d index
    decodeUtf8 b

/-- `Elf_Shdr.name`, `elf.py:1399-1403`. -/
def ElfFile.shdrName (e : ElfFile) (s : RawShdr) : Except Err Str := e.stringAt e.ehdr.shstrndx s.name

/-- `Elf_Sym.name`, `elf.py:1444-1448`. -/
def ElfFile.symName (e : ElfFile) (s : RawSym) : Except Err Str := e.stringAt s.strndx s.name

/-- `Elf.lookup_shdr`, `elf.py:2043-2047`. -/
def ElfFile.lookupShdr (e : ElfFile) (name : Str) : List RawShdr → Except Err (Option RawShdr)
  | [] => .ok none
  | s :: t => do
    let n ← e.shdrName s
    if n = name then .ok (some s) else e.lookupShdr name t

/-- The symbols of one table, `elf.py:2001-2008`. -/
def ElfFile.tableSymbols (e : ElfFile) (s : RawShdr) : Except Err (List RawSym) :=
  if s.type = 2 ∨ s.type = 11 then
    if s.size = 0 then .ok []
    else do
      let d ← e.data s
      let rs ← records (symFmt e.cls) d
      rs.mapM (symOf e.order e.cls s.link)
  else .ok []

/-- `Elf.symbols`, `elf.py:1993-2010`. -/
def ElfFile.symbols (e : ElfFile) : Except Err (List RawSym) := do
  let l ← e.shdrs.mapM e.tableSymbols
  .ok l.flatten

end EspSize
