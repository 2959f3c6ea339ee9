import Verif.Model.MapMsg
import Verif.Spec.Markup
/-! # What the messages about a link map file say -/
namespace EspSize

/-- A line that cannot be what it should be: a region of 3 or 4 words, an input section alone on a line or with at least 3 further words, the rest of an input
section with at least 3 words, padding with 3 words, an output section alone on a line or with 2 further words. -/
def Misfit : LineKind → Str → Prop
  | .region, l => (split l).length ∉ [0, 3, 4]
  | .input, l => (str "." <+: l ∨ str "COMMON" <+: l) ∧ (split l).length ∈ [2, 3]
  | .cont, l => (split l).length < 3
  | .fill, l => str "*fill*" <+: l ∧ (split l).length ≠ 3
  | .output, l => str "." <+: l ∧ (split l).length ∉ [1, 3]

/-- The line as shown: without the space around it inside of an output section. -/
def Quotes : LineKind → Str → Str → Prop
  | .region, raw, q => q = raw
  | .output, raw, q => q = raw
  | _, raw, q => q = strip raw

/-- A text that says where the problem is: `start` "the line" at line `n`, `place` "the name of the file" map file. -/
def Locates (start place fn line : Str) (n : Nat) (text : Str) : Prop :=
  text = start ++ str "\"" ++ line ++ str "\" at line " ++ intStr n ++ place ++ str "\"" ++ fn ++ str "\" map file"

/-- How the message begins and what is between number and name. -/
def startOf : LineKind → Str
  | .region => str "unexpected format of memory region "
  | .input => str "unexpected format of input section "
  | .cont => str "unexpected input section continuous line "
  | .fill => str "unexpected \"*fill*\" line "
  | .output => str "unexpected format of output section "

def placeOf : LineKind → Str
  | .region => str " in \"Memory Configuration\" section in "
  | _ => str " in \"Linker script and memory map\" section in "

/-- The file has a table of regions: a title, behind it a header, both before the listing. -/
def HasConfig (lines : List Str) : Prop :=
  ∃ (a : List Str) (m : Str) (b : List Str) (h : Str) (c : List Str), lines = a ++ m :: b ++ h :: c ∧ memConfig <+: m ∧ str "Name" <+: h ∧
    ∀ l ∈ a ++ m :: b ++ [h], ¬ linkerScript <+: l

end EspSize
