import Verif.Spec.MapFileText
/-!
# A printer of link map files

One of the many layouts that `MapFileText` allows.
-/
namespace EspSize

/-- Hexadecimal digits, the most significant first. -/
def hexDigits (n : Nat) : List Nat := if _h : n < 16 then [n] else hexDigits (n / 16) ++ [n % 16]
termination_by n
decreasing_by omega

def printHex (n : Int) : Str := '0' :: 'x' :: (hexDigits n.toNat).map hexDigit

/-- Words with one space between them. -/
def spaced : List Str → Str
  | [] => []
  | [w] => w
  | w :: ws => w ++ ' ' :: spaced ws

def printRef (a m : Str) : Str := if a = str "(exe)" then m else a ++ '(' :: (m ++ str ")")

def printRegion (r : Region) : Str :=
  if r.attrs = [] then spaced [r.name, printHex r.origin, printHex r.length]
  else spaced [r.name, printHex r.origin, printHex r.length, r.attrs]

def printPad (p : Pad) : Str :=
  if p.isFill then spaced [str "*fill*", printHex p.address, printHex p.size]
  else spaced [printHex p.address, printHex p.size, str "BYTE", str "0x0"]

def printInput (i : Listed) : List Str :=
  (' ' :: (i.name ++ (' ' :: (printHex i.address ++ (' ' :: (printHex i.size ++ (' ' :: printRef i.archive i.object))))))) ::
    i.pads.map printPad

def printOut (o : ListedOut) : List Str :=
  [spaced [o.name, printHex o.address, printHex o.size]] ++ (o.inputs.flatMap printInput ++ [[]])

def printCrtEntry (e : Str × List (Str × Str)) : List Str :=
  match e.2 with
  | [] => []
  | d :: refs => (e.1 ++ (' ' :: printRef d.1 d.2)) :: refs.map fun r => ' ' :: printRef r.1 r.2

/-- The whole file. -/
def printMap (regs : List Region) (target : Str) (os : List ListedOut) (t : List (Str × List (Str × Str))) : List Str :=
  [memConfig, str "Name Origin Length Attributes"] ++ (regs.map printRegion ++
    linkerScript :: (((str "IDF_TARGET_" ++ target ++ str " = 0x0") :: os.flatMap printOut) ++
      crossRef :: (str "Symbol File" :: t.flatMap printCrtEntry)))

/-- Names that can be told apart again: of an archive without `(`, or of an object outside of archives. -/
def RefPrints (a m : Str) : Prop :=
  Trimmed (printRef a m) ∧ ('(' ∉ if a = str "(exe)" then m else a)

structure RegionPrints (r : Region) : Prop where
  name : Word r.name
  origin : 0 ≤ r.origin
  length : 0 ≤ r.length
  attrs : r.attrs = [] ∨ Word r.attrs

structure ListedPrints (i : Listed) : Prop where
  name : InputName i.name
  address : 0 ≤ i.address
  size : 0 ≤ i.size
  ref : RefPrints i.archive i.object
  pads : ∀ p ∈ i.pads, 0 ≤ p.address ∧ 0 ≤ p.size

structure OutPrints (o : ListedOut) : Prop where
  name : Word o.name
  dot : str "." <+: o.name
  address : 0 ≤ o.address
  size : 0 ≤ o.size
  inputs : ∀ i ∈ o.inputs, ListedPrints i

structure CrtPrints (t : List (Str × List (Str × Str))) : Prop where
  some : t ≠ []
  nodup : (t.map (·.1)).Nodup
  entry : ∀ e ∈ t, Word e.1 ∧ e.2 ≠ [] ∧ ∀ r ∈ e.2, RefPrints r.1 r.2

end EspSize
