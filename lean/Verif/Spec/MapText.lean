import Verif.Spec.Text
import Verif.Model.MapFile
/-!
# What the linker prints in the map file

Relations between the data and the lines of the map file.  The amount of blanks and leading zeros is free.
-/
namespace EspSize

/-- A line that starts with none of `ps`. -/
def NotStart (ps : List Str) (l : Str) : Prop := ∀ p ∈ ps, ¬ p <+: l

/-! ## Memory Configuration -/

/-- Line of a memory region: name, origin, length, and attributes if there are any. -/
def RegionText (r : Region) (line : Str) : Prop :=
  ∃ o n, Word r.name ∧ HexOf r.origin o ∧ HexOf r.length n ∧
    ((r.attrs = [] ∧ Words line [r.name, o, n]) ∨ (Word r.attrs ∧ Words line [r.name, o, n, r.attrs]))

/-- Region lines with blank lines anywhere. -/
inductive RegionsText : List Region → List Str → Prop
  | nil : RegionsText [] []
  | blank {rs w ls} : Blank w → RegionsText rs ls → RegionsText rs (w :: ls)
  | line {r rs l ls} : RegionText r l → RegionsText rs ls → RegionsText (r :: rs) (l :: ls)

/-- The part of a map file up to the memory regions: anything, the title, anything, the header. -/
def ConfigHead (ls : List Str) : Prop :=
  ∃ pre title mid header, ls = pre ++ title :: (mid ++ [header]) ∧
    (∀ l ∈ pre, NotStart [linkerScript, memConfig] l) ∧ memConfig <+: title ∧
    (∀ l ∈ mid, NotStart [linkerScript, str "Name"] l) ∧ str "Name" <+: header

/-! ## Cross reference table -/

/-- The lines of one symbol: the symbol with the definition, then a line for each reference. -/
inductive RefsText : List (Str × Str) → List Str → Prop
  | nil : RefsText [] []
  | cons {a m p g w refs ls} : RefText a m p → Trimmed p → Gap g → Blank w →
      (g.head? = some ' ' ∨ g.head? = some '\t') → RefsText refs ls →
      RefsText ((a, m) :: refs) ((g ++ p ++ w) :: ls)

inductive CrtText : List (Str × List (Str × Str)) → List Str → Prop
  | nil : CrtText [] []
  | cons {s a m p g refs ls t rest} : Word s → Gap g → RefText a m p → Trimmed p → RefsText refs ls → CrtText t rest →
      CrtText ((s, (a, m) :: refs) :: t) ((s ++ (g ++ p)) :: (ls ++ rest))

/-- Text after the table: nothing, or an empty line and anything. -/
def CrtEnd (ls : List Str) : Prop := ls = [] ∨ ∃ t, ls = [] :: t

/-! ## Linker script and memory map -/

/-- Padding printed after an input section: a `*fill*` line or an explicit BYTE, SHORT, LONG, QUAD, SQUAD. -/
structure Pad where
  isFill : Bool
  address : Int
  size : Int
deriving DecidableEq, Repr

/-- Input section as printed. -/
structure Listed where
  name : Str
  address : Int
  size : Int
  archive : Str
  object : Str
  pads : List Pad
deriving DecidableEq, Repr

/-- Output section as printed. -/
structure ListedOut where
  name : Str
  address : Int
  size : Int
  inputs : List Listed
deriving DecidableEq, Repr

/-- Names of explicit data. -/
def dataNames : List Str := [str "BYTE", str "SHORT", str "LONG", str "QUAD", str "SQUAD"]

/-- Line of an output section, or text after an input section, that carries nothing: not blank, not the start
of an input section. -/
def PlainLine (l : Str) : Prop :=
  ∃ w p w', l = w ++ p ++ w' ∧ Blank w ∧ Blank w' ∧ Trimmed p ∧ NotStart [str ".", str "COMMON"] p ∧ ¬ crossRef <+: l

/-- Such a line after an input section is ignored when it is no padding either. -/
def NoiseLine (l : Str) : Prop :=
  PlainLine l ∧ ¬ str "*fill*" <+: strip l ∧ ∀ a s b v, Words l [a, s, b, v] → b ∉ dataNames

/-- Line of padding. -/
def PadText (p : Pad) (l : Str) : Prop :=
  ∃ a s, HexOf p.address a ∧ HexOf p.size s ∧
    if p.isFill then Words l [str "*fill*", a, s] else ∃ b v, b ∈ dataNames ∧ Words l [a, s, b, v]

/-- Lines after an input section: padding and noise. -/
inductive PadsText : List Pad → List Str → Prop
  | nil : PadsText [] []
  | noise {ps l ls} : NoiseLine l → PadsText ps ls → PadsText ps (l :: ls)
  | pad {p ps l ls} : PadText p l → PadsText ps ls → PadsText (p :: ps) (l :: ls)

/-- Name of an input section. -/
def InputName (n : Str) : Prop := Word n ∧ (str "." <+: n ∨ str "COMMON" <+: n)

/-- Lines of an input section, on one line or on two, with its padding. -/
inductive InputText : Listed → List Str → Prop
  | one {i w g1 a g2 s g3 p w' ls} : InputName i.name → Blank w → Gap g1 → HexOf i.address a → Gap g2 → HexOf i.size s → Gap g3 →
      RefText i.archive i.object p → Trimmed p → Blank w' → PadsText i.pads ls →
      InputText i ((w ++ (i.name ++ (g1 ++ (a ++ (g2 ++ (s ++ (g3 ++ p)))))) ++ w') :: ls)
  | two {i w w1 w2 a g2 s g3 p w' ls} : InputName i.name → Blank w → Blank w1 → Blank w2 → HexOf i.address a → Gap g2 →
      HexOf i.size s → Gap g3 → RefText i.archive i.object p → Trimmed p → Blank w' → PadsText i.pads ls →
      InputText i ((w ++ i.name ++ w1) :: (w2 ++ (a ++ (g2 ++ (s ++ (g3 ++ p)))) ++ w') :: ls)

/-- Lines of the input sections. -/
inductive InputsText : List Listed → List Str → Prop
  | nil : InputsText [] []
  | cons {i is ls ls'} : InputText i ls → InputsText is ls' → InputsText (i :: is) (ls ++ ls')

/-- First lines of an output section: one line, two lines, or only the name of an empty section, which counts as
address 0 and size 0. -/
inductive HeadText : ListedOut → List Str → Prop
  | one {o a s l} : str "." <+: l → HexOf o.address a → HexOf o.size s → Words l [o.name, a, s] → HeadText o [l]
  | two {o a s l l'} : str "." <+: l → Words l [o.name] → HexOf o.address a → HexOf o.size s → Words l' [a, s] → HeadText o [l, l']
  | bare {o l l'} : str "." <+: l → Words l [o.name] → o.address = 0 → o.size = 0 → PlainLine l' → (∀ a s, ¬ Words l' [a, s]) →
      HeadText o [l, l']

/-- An output section: head, plain lines, input sections, a blank line. -/
inductive OutText : ListedOut → List Str → Prop
  | mk {o h m ls w} : HeadText o h → (∀ l ∈ m, PlainLine l) → InputsText o.inputs ls → Blank w → OutText o (h ++ (m ++ (ls ++ [w])))

/-- Output sections with other lines between them. -/
inductive OutsText : List ListedOut → List Str → Prop
  | nil : OutsText [] []
  | other {os l ls} : NotStart [str ".", crossRef] l → OutsText os ls → OutsText os (l :: ls)
  | cons {o os ls ls'} : OutText o ls → OutsText os ls' → OutsText (o :: os) (ls ++ ls')

/-! ### Which sizes and paddings count -/

/-- Input section as counted. -/
structure Got where
  name : Str
  address : Int
  size : Int
  fill : Int
  archive : Str
  object : Str
deriving DecidableEq, Repr

/-- Padding of an input section. -/
def Listed.padding (i : Listed) : Int := (i.pads.map (·.size)).sum

/-- Size before its place in the output section is looked at: a section with `*fill*` at its own address is not in
the image. -/
def Listed.ownSize (i : Listed) : Int := if i.pads.any (fun p => p.isFill && decide (p.address = i.address)) then 0 else i.size

/-- Add padding to the last section with nonzero size. -/
def addFill (n : Int) : List Got → List Got
  | [] => []
  | g :: gs => if gs.any (fun x => decide (x.size ≠ 0)) then g :: addFill n gs
    else if g.size ≠ 0 then { g with fill := g.fill + n } :: gs else g :: gs

/-- Replace the last. -/
def mapLast (f : Got → Got) : List Got → List Got
  | [] => []
  | [g] => [f g]
  | g :: gs => g :: mapLast f gs

/-- The next input section of the output section `[oa, oa + os)`, after the ones counted so far:

* a section outside the range (unless it is the first) counts with size 0,
* the one before at the same address counts with size 0,
* padding of a section of size 0 goes to the last section with nonzero size. -/
def settle (oa os : Int) (acc : List Got) (i : Listed) : List Got :=
  let g : Got := ⟨i.name, i.address, i.ownSize, i.padding, i.archive, i.object⟩
  match acc.getLast? with
  | none => [g]
  | some last =>
    let g := if oa ≤ i.address ∧ i.address < oa + os then g else { g with size := 0 }
    let acc := if last.address = i.address then mapLast (fun x => { x with size := 0 }) acc else acc
    if g.size = 0 then addFill g.fill acc ++ [{ g with fill := 0 }] else acc ++ [g]

/-- All input sections of an output section as counted. -/
def ListedOut.counted (o : ListedOut) : List Got := o.inputs.foldl (settle o.address o.size) []

/-- Padding of the section is a single `*fill*`, or the section certainly counts. -/
def SimplePads (oa os : Int) (i : Listed) : Prop :=
  i.pads = [] ∨ (∃ p, i.pads = [p] ∧ p.isFill = true) ∨ (i.ownSize ≠ 0 ∧ oa ≤ i.address ∧ i.address < oa + os)

def Got.toPSec (g : Got) : PSec := ⟨g.name, some g.address, some g.size, g.fill, g.archive, g.object⟩

/-- What the parser should return for the output section. -/
def ListedOut.toPOut (o : ListedOut) : POut := ⟨o.name, some o.address, some o.size, o.counted.map Got.toPSec⟩

end EspSize
