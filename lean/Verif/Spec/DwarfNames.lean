import Verif.Spec.Dwarf
import Verif.Spec.ElfView
/-!
# The compilation units of functions and variables

DWARF 5 §2.17 (addresses of entries), §2.6 (locations), §3.1.1 (unit entries), §3.3.8.2 (abstract origins), §7.5.5 (strings).
-/
namespace EspSize

/-- `d` are the bytes of the first section called `name`. -/
def SectionNamed (secs : List (Str × RawShdr)) (file : Bytes) (name : Str) (d : Bytes) : Prop :=
  ∃ p s q, secs = p ++ (name, s) :: q ∧ (∀ x ∈ p, x.1 ≠ name) ∧ SectionBytes file s d

/-- A symbol that can belong to a unit: a function or an object with a size, not at an absolute address. -/
def Candidate (s : RawSym) : Prop := s.size ≠ 0 ∧ (s.info % 16 = 1 ∨ s.info % 16 = 2) ∧ s.shndx ≠ 0xFFF1

/-- The entries of units for units, functions and variables, each with the entries of its unit. -/
def entriesOf (us : List (List Die)) : List (List Die × Die) :=
  us.flatMap fun ds => (ds.filter fun x => decide (x.tag = 0x11 ∨ x.tag = 0x2E ∨ x.tag = 0x34)).map fun x => (ds, x)

/-- The entry is a function that starts at `a`, or a variable whose location is `DW_OP_addr a`. -/
inductive EntryAt (o : Order) (asize : Nat) (x : Die) (a : Nat) : Prop
  | func (at' : DAttr) : x.tag = 0x2E → dget x.attrs 0x11 = some at' → at'.value = .num a → EntryAt o asize x a
  | var (at' : DAttr) : x.tag = 0x34 → dget x.attrs 2 = some at' → at'.form = 0x18 → a < 256 ^ asize →
      at'.value = .bytes (3 :: intBytes o asize a) → EntryAt o asize x a

/-- Usual addresses: a function has none or a `DW_FORM_addr`; a variable has none, a list of locations, a location that does
not begin with `DW_OP_addr`, or `DW_OP_addr` with an operand, at most followed by another operation. -/
structure PlainEntry (o : Order) (asize : Nat) (x : Die) : Prop where
  func : x.tag = 0x2E → ∀ at', dget x.attrs 0x11 = some at' → at'.form = 1 ∧ ∃ a : Nat, at'.value = .num a
  var : x.tag = 0x34 → ∀ at', dget x.attrs 2 = some at' →
    at'.form ∉ [0x0E, 0x1F, 0x08, 0x18] ∨
    (at'.form = 0x18 ∧ ∃ b, at'.value = .bytes b ∧
      ((∃ op t, b = op :: t ∧ op ≠ 3) ∨
        ∃ a t, a < 256 ^ asize ∧ b = 3 :: intBytes o asize a ++ t ∧ (t = [] ∨ ∃ op t', t = op :: t' ∧ op ≠ 3)))

/-- The attribute is a text: inline, or in one of the two string sections. -/
inductive AttrText (secs : List (Str × RawShdr)) (file : Bytes) (at' : DAttr) (nm : Str) : Prop
  | inline : at'.form = 0x08 → at'.value = .bytes nm.utf8Encode.data.toList → AttrText secs file at' nm
  | strp (pre post : Bytes) : at'.form = 0x0E → at'.value = .num pre.length →
      SectionNamed secs file (str ".debug_str") (pre ++ nm.utf8Encode.data.toList ++ 0 :: post) →
      (0 : UInt8) ∉ nm.utf8Encode.data.toList → AttrText secs file at' nm
  | line (pre post : Bytes) : at'.form = 0x1F → at'.value = .num pre.length →
      SectionNamed secs file (str ".debug_line_str") (pre ++ nm.utf8Encode.data.toList ++ 0 :: post) →
      (0 : UInt8) ∉ nm.utf8Encode.data.toList → AttrText secs file at' nm

/-- The unit with these entries is a compile unit with `DW_AT_name` `nm`. -/
def UnitNamed (secs : List (Str × RawShdr)) (file : Bytes) (ds : List Die) (nm : Str) : Prop :=
  ∃ hd t at', ds = hd :: t ∧ hd.tag = 0x11 ∧ dget hd.attrs 3 = some at' ∧ AttrText secs file at' nm

/-- The unit an entry belongs to: that of its abstract origin, if it has one. -/
inductive UnitOf (us : List (List Die)) (x : List Die × Die) : List Die → Prop
  | own : dget x.2.attrs 0x31 = none → UnitOf us x x.1
  | origin (ao : DAttr) (y : List Die × Die) : dget x.2.attrs 0x31 = some ao → ao.form ∈ [0x10, 0x11, 0x12, 0x13, 0x14, 0x15] →
      ao.value = .num y.2.offset → y ∈ entriesOf us → UnitOf us x y.1

/-- The name of the unit an entry belongs to. -/
def EntryNamed (secs : List (Str × RawShdr)) (file : Bytes) (us : List (List Die)) (x : List Die × Die) (nm : Str) : Prop :=
  ∃ ds, UnitOf us x ds ∧ UnitNamed secs file ds nm

end EspSize
