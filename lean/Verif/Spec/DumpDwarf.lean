import Verif.Spec.Dump
import Verif.Spec.Dwarf
import Verif.Model.DumpDwarf
/-! # Listings of abbreviations and debugging information: what the words of a line are -/
namespace EspSize

/-- A text between angle brackets. -/
def angle (s : Str) : Str := '<' :: (s ++ ['>'])

/-- The words of the line of an entry: level, offset, abbreviation, tag and size. -/
def DieLine (d : Die) (line : Str) : Prop :=
  ∃ o z, HexOf d.offset o ∧ HexOf d.size z ∧
    Words line (angle (intStr d.level) :: angle o :: str "Abbrev" :: str "Number:" :: angle (intStr d.code) ::
      (split ('(' :: (nameOrUnknown tagMap d.tag ++ [')'])) ++ [str "size:", z]))

/-- The words of the line of an attribute: offset, name, form and value. -/
def AttrLine (e : ElfFile) (a : DAttr) (line : Str) : Prop :=
  ∃ o v, HexOf a.offset o ∧ (e.getAttrStr ⟨a, none, none⟩).1 = .ok v ∧
    Words line (angle o :: (split (nameOrUnknown atMap a.attr) ++ (split (nameOrUnknown formMap a.form) ++ split v)))

/-- The lines of an entry: its own, and one for each attribute. -/
def DieBlock (e : ElfFile) (d : Die) (lines : List Str) : Prop :=
  ∃ head rest, lines = head :: rest ∧ DieLine d head ∧ All2 (AttrLine e) (d.attrs.map Prod.snd) rest

/-- The lines of a unit: those of its entries, in order. -/
def UnitBlock (e : ElfFile) (dies : List Die) (lines : List Str) : Prop :=
  ∃ blocks, lines = blocks.flatten ∧ All2 (DieBlock e) dies blocks

/-- All values of attributes can be shown. -/
def ValuesShown (e : ElfFile) (dies : List Die) : Prop := ∀ d ∈ dies, ∀ a ∈ d.attrs, ∃ v, (e.getAttrStr ⟨a.2, none, none⟩).1 = .ok v

/-- The names of the attributes leave room for a blank behind them. -/
def ShortNames (dies : List Die) : Prop := ∀ d ∈ dies, ∀ a ∈ d.attrs, (nameOrUnknown atMap a.2.attr).length < 30

/-- The words of the line of an attribute of a declaration at `off`. -/
def AbbrevAttrLine (a : AbbrevAttr) (off : Nat) (line : Str) : Prop :=
  ∃ o, HexOf off o ∧ Words line (angle o :: (split (nameOrUnknown atMap a.attr) ++ split (nameOrUnknown formMap a.form)))

/-- The words of the line of a declaration at `off`. -/
def AbbrevLine (x : AbbrevEntry) (off : Nat) (line : Str) : Prop :=
  ∃ o, HexOf off o ∧ Words line (angle o :: intStr x.code :: (split (nameOrUnknown tagMap x.tag) ++ ['[' :: (intStr x.children ++ [']'])]))

/-- The words of the line of a unit. -/
def UnitLine (cu : CU) (idx : Nat) (line : Str) : Prop :=
  ∃ a o, HexOf cu.abbrevOff a ∧ HexOf cu.offset o ∧ Words line [angle a, str "CU" ++ angle (intStr idx), str "at", str "offset", o]

/-- Lines for attributes that are encoded one after the other from `off` to `stop`. -/
inductive AttrsListed (d : Bytes) : Nat → Nat → List AbbrevAttr → List Str → Prop
  | nil {off} : AttrsListed d off off [] []
  | cons {off stop a bs t line lines} : AbbrevAttrEnc a bs → At d off bs → AbbrevAttrLine a off line →
      AttrsListed d (off + bs.length) stop t lines → AttrsListed d off stop (a :: t) (line :: lines)

/-- Lines for declarations that are encoded one after the other from `off` on. -/
inductive AbbrevsListed (o : Order) (d : Bytes) : Nat → List AbbrevEntry → List Str → Prop
  | nil {off} : AbbrevsListed o d off [] []
  | cons {off x bs t line start attrLines lines} : AbbrevEntryEnc o x bs → At d off bs → AbbrevLine x off line →
      AttrsListed d start (off + bs.length) x.attrs attrLines →
      AbbrevsListed o d (off + bs.length) t lines → AbbrevsListed o d off (x :: t) (line :: (attrLines ++ lines))

end EspSize
