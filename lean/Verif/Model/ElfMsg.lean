import Verif.Model.Elf
import Verif.Py.Fmt
/-!
# The texts about ELF files that cannot be opened

The `Elf_Exception` of `Elf.__init__`, `/repo/esp_idf_size/elf.py:1927-1987`, with what is in it, and the message of `_load_elf_file`.
-/
namespace EspSize

/-- The four texts of `Elf.__init__` and `Elf.read`. -/
inductive ElfProblem where
  | magic (b : Bytes)                          -- elf.py:1941
  | data (b : UInt8)                           -- elf.py:1949
  | cls (b : UInt8)                            -- elf.py:1965
  | short (off : Nat)                          -- elf.py:2036
deriving DecidableEq, Repr

/-- The quote of `repr`: a double one if the bytes have single ones only. -/
def bytesQuote (bs : Bytes) : Char := if (39 : UInt8) ∈ bs ∧ (34 : UInt8) ∉ bs then '"' else '\''

def byteDigit (n : Nat) : Char := Nat.digitChar n

/-- One byte in `repr(bytes)`. -/
def byteRepr (q : Char) (b : UInt8) : Str :=
  let c := Char.ofNat b.toNat
  if c = q ∨ c = '\\' then ['\\', c]
  else if c = '\t' then str "\\t"
  else if c = '\n' then str "\\n"
  else if c = '\r' then str "\\r"
  else if b.toNat < 32 ∨ 127 ≤ b.toNat then ['\\', 'x', byteDigit (b.toNat / 16), byteDigit (b.toNat % 16)]
  else [c]

/-- `repr(bytes)`. -/
def bytesRepr (bs : Bytes) : Str := 'b' :: bytesQuote bs :: (bs.flatMap (byteRepr (bytesQuote bs)) ++ [bytesQuote bs])

/-- `str(e)`. -/
def ElfProblem.text : ElfProblem → Str
  | .magic b => str "invalid ELF magic " ++ bytesRepr b
  | .data b => str "invalid ELF data " ++ intStr b.toNat
  | .cls b => str "invalid ELF class " ++ intStr b.toNat
  | .short off => str "error while reading ELF file at offset " ++ intStr off

/-- The message of `_load_elf_file`, `memorymap.py:1099`. -/
def badElfText (fn : Str) (p : ElfProblem) : Str := str "cannot parse ELF file " ++ fn ++ str ": " ++ p.text

/-- `Elf.read`, `elf.py:2032-2037`: no problem if the table can be read, or if its records are the wrong ones, `elf.py:1971-1987`. -/
def tableProblem (file : Bytes) (num entsize off : Nat) : Option ElfProblem :=
  if num = 0 then none
  else match readAt file off (num * entsize) with
    | .error _ => some (.short off)
    | .ok _ => none

/-- The `Elf_Exception` of `Elf.__init__`, `elf.py:1927-1987`. -/
def elfProblem (long : Nat) (file : Bytes) : Option ElfProblem :=
  match readAt file 0 16 with
  | .error _ => some (.short 0)
  | .ok ident =>
    if ident.take 4 ≠ [0x7F, 0x45, 0x4C, 0x46] then some (.magic (ident.take 4))
    else match orderOf (ident.drop 5) with
      | .error _ => (ident.drop 5).head?.map .data
      | .ok order => match classOf (ident.drop 4) with
        | .error _ => (ident.drop 4).head?.map .cls
        | .ok cls => match readAt file 0 (nativeSize long (ehdrFmt cls)) with
          | .error _ => some (.short 0)
          | .ok d => match unpackFrom (ehdrFmt cls) d 0 >>= ehdrOf order with
            | .error _ => none
            | .ok eh => match table file (phdrFmt cls) eh.phnum eh.phentsize eh.phoff with
              | .error _ => tableProblem file eh.phnum eh.phentsize eh.phoff
              | .ok _ => tableProblem file eh.shnum eh.shentsize eh.shoff

end EspSize
