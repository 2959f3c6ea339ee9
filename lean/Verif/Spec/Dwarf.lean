import Verif.Spec.Elf
import Verif.Model.Dwarf
/-!
# Encodings of DWARF

From DWARF 5 §7.4 (formats), §7.5.1 (unit headers), §7.5.2 (entries), §7.5.3 (abbreviations), §7.5.5-7.5.6 (forms),
and DWARF 2 §7.5.4 for `DW_FORM_ref_addr`.
-/
namespace EspSize

/-- The bytes `bs` stand at `off` in `d`. -/
def At (d : Bytes) (off : Nat) (bs : Bytes) : Prop := ∃ pre post, d = pre ++ bs ++ post ∧ pre.length = off

/-! ## Units -/

/-- A unit of `.debug_info`. -/
structure Unit where
  /-- 64-bit DWARF -/
  wide : Bool
  version : Nat
  unitType : Nat
  addrSize : Nat
  abbrevOff : Nat
  /-- what follows the fields above -/
  body : Bytes

def Unit.offSize (u : Unit) : Nat := if u.wide then 8 else 4

/-- The unit after its length. -/
def Unit.content (o : Order) (u : Unit) : Bytes :=
  intBytes o 2 u.version ++
  (if u.version = 5 then intBytes o 1 u.unitType ++ intBytes o 1 u.addrSize ++ intBytes o u.offSize u.abbrevOff
   else intBytes o u.offSize u.abbrevOff ++ intBytes o 1 u.addrSize) ++ u.body

def Unit.bytes (o : Order) (u : Unit) : Bytes :=
  (if u.wide then intBytes o 4 0xFFFFFFFF ++ intBytes o 8 (u.content o).length else intBytes o 4 (u.content o).length) ++ u.content o

/-- The unit can be encoded: versions 2 to 5, addresses of 4 or 8 bytes. -/
structure Unit.Valid (o : Order) (u : Unit) : Prop where
  version : 2 ≤ u.version ∧ u.version ≤ 5
  type : u.unitType < 256
  addr : u.addrSize = 4 ∨ u.addrSize = 8
  abbrevs : u.abbrevOff < 256 ^ u.offSize
  length : (u.content o).length < if u.wide then 256 ^ 8 else 0xFFFFFFF0

/-- The fields of the header between the length and the first entry: 4 and 2 more for the unit types of DWARF 5
(type units: signature and offset; skeleton and split units: an identifier). -/
def Unit.headerSize (u : Unit) : Nat :=
  if u.version = 5 then
    4 + u.offSize + (if u.unitType = 2 ∨ u.unitType = 6 then 8 + u.offSize else if u.unitType = 4 ∨ u.unitType = 5 then 8 else 0)
  else 3 + u.offSize

def Unit.lenSize (u : Unit) : Nat := if u.wide then 12 else 4

/-! ## Forms -/

/-- Forms that are a number of fixed size. -/
def fixedForms (E : FormEnv) (version : Nat) : List (Nat × Nat) :=
  [(0x01, E.addrSize), (0x05, 2), (0x06, 4), (0x07, 8), (0x0B, 1), (0x0C, 1), (0x0E, E.offSize),
   (0x10, if version = 2 then E.addrSize else E.offSize), (0x17, E.offSize), (0x1C, 4), (0x1D, E.offSize), (0x1E, 16), (0x1F, E.offSize),
   (0x20, 8), (0x24, 8), (0x25, 1), (0x26, 2), (0x27, 3), (0x28, 4), (0x29, 1), (0x2A, 2), (0x2B, 3), (0x2C, 4)]

/-- The bytes of a value in a form; references are relative to the unit. -/
inductive FormEnc (E : FormEnv) (version : Nat) : Nat → AVal → Bytes → Prop
  | fixed {f n v : Nat} : (f, n) ∈ fixedForms E version → v < 256 ^ n → FormEnc E version f (.num v) (intBytes E.order n v)
  | ref {f n v : Nat} : (f, n) ∈ [(0x11, 1), (0x12, 2), (0x13, 4), (0x14, 8)] → v < 256 ^ n →
      FormEnc E version f (.num ((v : Int) + E.cuOffset)) (intBytes E.order n v)
  | refUdata {v : Nat} {bs : Bytes} : Uleb v bs → FormEnc E version 0x15 (.num ((v : Int) + E.cuOffset)) bs
  | uleb {f v : Nat} {bs : Bytes} : f ∈ [0x0F, 0x1A, 0x1B] → Uleb v bs → FormEnc E version f (.num v) bs
  | index {f v : Nat} {bs : Bytes} : f ∈ [0x22, 0x23] → Uleb v bs → FormEnc E version f (.num v) bs
  | sdata {z : Int} {bs : Bytes} : Sleb z bs → FormEnc E version 0x0D (.num z) bs
  | block {f n : Nat} {data : Bytes} : (f, n) ∈ [(0x0A, 1), (0x03, 2), (0x04, 4)] → data.length < 256 ^ n →
      FormEnc E version f (.bytes data) (intBytes E.order n data.length ++ data)
  | ublock {f : Nat} {lb data : Bytes} : f ∈ [0x09, 0x18] → Uleb data.length lb → FormEnc E version f (.bytes data) (lb ++ data)
  | string {s : Bytes} : (∀ b ∈ s, b ≠ 0) → FormEnc E version 0x08 (.bytes s) (s ++ [0])
  | present : FormEnc E version 0x19 .true_ []
  | indirect {f : Nat} {v : AVal} {fb bs : Bytes} : Uleb f fb → FormEnc E version f v bs → FormEnc E version 0x16 v (fb ++ bs)

/-- The forms the decoder supports with the right size: not `ref_sig8`, `addrx` and its variants, `indirect`, nor
`ref_addr` in DWARF 2 if addresses and offsets differ. -/
def Supported (E : FormEnv) (version f : Nat) : Prop :=
  f ∉ [0x20, 0x1B, 0x29, 0x2A, 0x2B, 0x2C, 0x16] ∧ ¬ (f = 0x10 ∧ version = 2 ∧ E.addrSize ≠ E.offSize)

/-! ## Entries -/

/-- The attributes of an entry, in the order of the abbreviation: positions and values. -/
inductive AttrsEnc (E : FormEnv) (version : Nat) : List AbbrevAttr → Nat → Bytes → List DAttr → Prop
  | done {a : AbbrevAttr} {t : List AbbrevAttr} {off : Nat} : a.attr = 0 → a.form = 0 → AttrsEnc E version (a :: t) off [] []
  | implicit {a : AbbrevAttr} {t : List AbbrevAttr} {off v : Nat} {bs : Bytes} {l : List DAttr} : a.attr ≠ 0 → a.form = 0x21 →
      a.value = some v → AttrsEnc E version t off bs l →
      AttrsEnc E version (a :: t) off bs (⟨a.attr, a.form, off, .num v, 0⟩ :: l)
  | cons {a : AbbrevAttr} {t : List AbbrevAttr} {off : Nat} {v : AVal} {b bs : Bytes} {l : List DAttr} : a.attr ≠ 0 →
      FormEnc E version a.form v b → AttrsEnc E version t (off + b.length) bs l →
      AttrsEnc E version (a :: t) off (b ++ bs) (⟨a.attr, a.form, off, v, b.length⟩ :: l)

mutual
/-- An entry with its children, at an offset: its bytes and the entries, the parent first. -/
inductive DieEnc (E : FormEnv) (version : Nat) (abbrevs : Nat → Option AbbrevEntry) : Nat → Option Nat → Nat → Bytes → List Die → Prop
  | leaf {off level code : Nat} {parent : Option Nat} {cb ab : Bytes} {e : AbbrevEntry} {as : List DAttr} : Uleb code cb → code ≠ 0 →
      abbrevs code = some e → AttrsEnc E version e.attrs (off + cb.length) ab as → e.children = 0 →
      DieEnc E version abbrevs off parent level (cb ++ ab)
        [⟨off, parent, level, code, e.tag, (cb ++ ab).length, as.foldl (fun acc x => dset acc x.attr x) []⟩]
  | node {off level code : Nat} {parent : Option Nat} {cb ab kb : Bytes} {e : AbbrevEntry} {as : List DAttr} {ds : List Die} :
      Uleb code cb → code ≠ 0 → abbrevs code = some e → AttrsEnc E version e.attrs (off + cb.length) ab as → e.children ≠ 0 →
      KidsEnc E version abbrevs (off + (cb ++ ab).length) off (level + 1) kb ds →
      DieEnc E version abbrevs off parent level (cb ++ ab ++ kb)
        (⟨off, parent, level, code, e.tag, (cb ++ ab ++ kb).length, as.foldl (fun acc x => dset acc x.attr x) []⟩ :: ds)
/-- A chain of children, ended by a null entry. -/
inductive KidsEnc (E : FormEnv) (version : Nat) (abbrevs : Nat → Option AbbrevEntry) : Nat → Nat → Nat → Bytes → List Die → Prop
  | null {off parent level : Nat} {zb : Bytes} : Uleb 0 zb →
      KidsEnc E version abbrevs off parent level zb [⟨off, some parent, level, 0, 0, zb.length, []⟩]
  | cons {off parent level : Nat} {b kb : Bytes} {ds ds' : List Die} : DieEnc E version abbrevs off (some parent) level b ds →
      KidsEnc E version abbrevs (off + b.length) parent level kb ds' →
      KidsEnc E version abbrevs off parent level (b ++ kb) (ds ++ ds')
end

/-! ## Abbreviations -/

/-- An attribute specification; the value of `implicit_const` is a signed number, here not negative. -/
inductive AbbrevAttrEnc : AbbrevAttr → Bytes → Prop
  | plain {a f : Nat} {ab fb : Bytes} : Uleb a ab → Uleb f fb → f ≠ 0x21 → AbbrevAttrEnc ⟨a, f, none⟩ (ab ++ fb)
  | const {a v : Nat} {ab fb vb : Bytes} : Uleb a ab → Uleb 0x21 fb → Sleb v vb → AbbrevAttrEnc ⟨a, 0x21, some v⟩ (ab ++ fb ++ vb)

/-- Attribute specifications, ended by a pair of zeros. -/
inductive AbbrevAttrsEnc : List AbbrevAttr → Bytes → Prop
  | done {a : Bytes} : AbbrevAttrEnc ⟨0, 0, none⟩ a → AbbrevAttrsEnc [⟨0, 0, none⟩] a
  | cons {x : AbbrevAttr} {l : List AbbrevAttr} {a b : Bytes} : ¬ (x.attr = 0 ∧ x.form = 0) → AbbrevAttrEnc x a → AbbrevAttrsEnc l b →
      AbbrevAttrsEnc (x :: l) (a ++ b)

inductive AbbrevEntryEnc (o : Order) : AbbrevEntry → Bytes → Prop
  | mk {e : AbbrevEntry} {cb tb ab : Bytes} : Uleb e.code cb → e.code ≠ 0 → Uleb e.tag tb → e.children < 256 → AbbrevAttrsEnc e.attrs ab →
      AbbrevEntryEnc o e (cb ++ tb ++ intBytes o 1 e.children ++ ab)

/-- The declarations of a unit, ended by a zero. -/
inductive AbbrevsEnc (o : Order) : List AbbrevEntry → Bytes → Prop
  | done {z : Bytes} : Uleb 0 z → AbbrevsEnc o [] z
  | cons {e : AbbrevEntry} {l : List AbbrevEntry} {a b : Bytes} : AbbrevEntryEnc o e a → AbbrevsEnc o l b → AbbrevsEnc o (e :: l) (a ++ b)

end EspSize
