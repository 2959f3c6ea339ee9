import Verif.Model.ElfMsg
import Verif.Spec.Markup
/-! # What is wrong with an ELF file -/
namespace EspSize

def orderByte : Order → UInt8
  | .little => 1
  | .big => 2

def classByte : ElfClass → UInt8
  | .c32 => 1
  | .c64 => 2

/-- The first six bytes of an ELF file. -/
structure IdentOk (file : Bytes) (o : Order) (c : ElfClass) : Prop where
  magic : file.take 4 = [0x7F, 0x45, 0x4C, 0x46]
  data : file[5]? = some (orderByte o)
  cls : file[4]? = some (classByte c)
  long : 16 ≤ file.length

/-- The file header, as it is read; see C97 for its bytes. -/
def HeaderOf (long : Nat) (file : Bytes) (o : Order) (c : ElfClass) (h : Ehdr) : Prop :=
  nativeSize long (ehdrFmt c) ≤ file.length ∧ (unpackFrom (ehdrFmt c) (file.take (nativeSize long (ehdrFmt c))) 0 >>= ehdrOf o) = .ok h

/-- A table that is not empty and ends behind the file. -/
def CutTable (file : Bytes) (num entsize off : Nat) : Prop := 0 < num * entsize ∧ file.length < off + num * entsize

/-- What is wrong first, in the order in which a file is read. -/
inductive ElfWrong (long : Nat) (file : Bytes) : ElfProblem → Prop
  | short : file.length < 16 → ElfWrong long file (.short 0)
  | magic : 16 ≤ file.length → file.take 4 ≠ [0x7F, 0x45, 0x4C, 0x46] → ElfWrong long file (.magic (file.take 4))
  | data (b : UInt8) : 16 ≤ file.length → file.take 4 = [0x7F, 0x45, 0x4C, 0x46] → file[5]? = some b → b ≠ 1 → b ≠ 2 → ElfWrong long file (.data b)
  | cls (x b : UInt8) : 16 ≤ file.length → file.take 4 = [0x7F, 0x45, 0x4C, 0x46] → file[5]? = some x → x = 1 ∨ x = 2 → file[4]? = some b → b ≠ 1 → b ≠ 2 →
      ElfWrong long file (.cls b)
  | header (o : Order) (c : ElfClass) : IdentOk file o c → file.length < nativeSize long (ehdrFmt c) → ElfWrong long file (.short 0)
  | programs (o : Order) (c : ElfClass) (h : Ehdr) : IdentOk file o c → HeaderOf long file o c h → CutTable file h.phnum h.phentsize h.phoff →
      ElfWrong long file (.short h.phoff)
  | sections (o : Order) (c : ElfClass) (h : Ehdr) (t : List (List Bytes)) : IdentOk file o c → HeaderOf long file o c h →
      table file (phdrFmt c) h.phnum h.phentsize h.phoff = .ok t → CutTable file h.shnum h.shentsize h.shoff → ElfWrong long file (.short h.shoff)

/-- A text that tells the path and the problem. -/
def SaysElf (fn text : Str) : ElfProblem → Prop
  | .magic b => text = str "cannot parse ELF file " ++ (fn ++ (str ": invalid ELF magic " ++ bytesRepr b))
  | .data b => text = str "cannot parse ELF file " ++ (fn ++ (str ": invalid ELF data " ++ intStr b.toNat))
  | .cls b => text = str "cannot parse ELF file " ++ (fn ++ (str ": invalid ELF class " ++ intStr b.toNat))
  | .short off => text = str "cannot parse ELF file " ++ (fn ++ (str ": error while reading ELF file at offset " ++ intStr off))

end EspSize
