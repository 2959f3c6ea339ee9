import Verif.Spec.Fields
import Verif.Model.Chips
/-!
# The format of the chip tables
-/
namespace EspSize

/-- Only blanks. -/
def Spaces (w : Str) : Prop := ∀ c ∈ w, c = ' '

/-- A product of integer literals, with blanks around them. -/
inductive ProductText : Str → Int → Prop
  | one {w s w' : Str} {n : Nat} : Spaces w → Literal s n → Spaces w' → ProductText (w ++ s ++ w') n
  | mul {w s w' t : Str} {n : Nat} {m : Int} : Spaces w → Literal s n → Spaces w' → ProductText t m →
      ProductText (w ++ s ++ w' ++ '*' :: t) (n * m)

/-- A sum of products. -/
inductive SumText : Str → Int → Prop
  | one {s : Str} {n : Int} : ProductText s n → SumText s n
  | add {s t : Str} {n m : Int} : ProductText s n → SumText t m → SumText (s ++ '+' :: t) (n + m)

/-- Letters of the English alphabet. -/
def Letter (c : Char) : Prop := c ∈ str "ABCDEFGHIJKLMNOPQRSTUVWXYZabcdefghijklmnopqrstuvwxyz"

/-- The words that YAML does not read as strings. -/
def notStrings : List Str := ["yes", "no", "true", "false", "on", "off", "null"].flatMap fun w =>
  [str w, str w.toUpper, str w.capitalize]

/-- A name: letters, digits, underscores and blanks, beginning with a letter, not ending with a blank. -/
def NameText (s : Str) : Prop := (∃ c t, s = c :: t ∧ Letter c) ∧ (∃ c t, s = t ++ [c] ∧ c ≠ ' ') ∧
  (∀ c ∈ s, Letter c ∨ c ∈ str "0123456789_ ") ∧ s ∉ notStrings

/-- What may follow on a line: blanks, and a comment behind a blank. -/
inductive LineEnd : Str → Prop
  | blank {w : Str} : Spaces w → LineEnd w
  | comment {w t : Str} : Spaces w → LineEnd (w ++ ' ' :: '#' :: t)

/-- A line that says nothing: blanks, or a comment. -/
inductive NoLine : Str → Prop
  | blank {w : Str} : Spaces w → NoLine w
  | comment {w t : Str} : Spaces w → NoLine (w ++ '#' :: t)

/-- A value: neither empty nor with blanks at its ends, and without `#`. -/
def ValueText (v : Str) : Prop := '#' ∉ v ∧ (∃ c t, v = c :: t ∧ c ≠ ' ') ∧ (∃ c t, v = t ++ [c] ∧ c ≠ ' ')

/-- The lines of an entry: `key: value` with two blanks before it. -/
inductive EntryLines : List Str → List (Str × Str) → Prop
  | nil : EntryLines [] []
  | skip {l ls fs} : NoLine l → EntryLines ls fs → EntryLines (l :: ls) fs
  | field {k v w e ls fs} : Spaces w → ValueText v → LineEnd e → EntryLines ls fs →
      EntryLines ((str "  " ++ k ++ str ": " ++ w ++ v ++ e) :: ls) ((k, v) :: fs)

/-- The key has a value with this meaning; it may be missing if the meaning may be. -/
def FieldOpt {α : Type} (P : Str → α → Prop) (fs : List (Str × Str)) (k : Str) : Option α → Prop
  | none => k ∉ fs.map (·.1)
  | some x => ∃ v, (k, v) ∈ fs ∧ P v x

/-- The fields, each given once and in any order, are those of the entry. -/
structure EntryFields (fs : List (Str × Str)) (e : ChipEntry) : Prop where
  once : (fs.map (·.1)).Nodup
  keys : ∀ p ∈ fs, p.1 ∈ [str "primary_address", str "length", str "secondary_address", str "name"]
  primary : FieldOpt SumText fs (str "primary_address") (some e.primary)
  length : FieldOpt SumText fs (str "length") (some e.length)
  secondary : FieldOpt SumText fs (str "secondary_address") e.secondary
  name : FieldOpt (fun v x => v = x ∧ NameText x) fs (str "name") e.name

/-- The lines of a table: for each memory type its key and its entry. -/
inductive ChipLines : List Str → List (Str × ChipEntry) → Prop
  | nil : ChipLines [] []
  | skip {l ls t} : NoLine l → ChipLines ls t → ChipLines (l :: ls) t
  | type {k e ls fs en ls' t} : NameText k → LineEnd e → EntryLines ls fs → EntryFields fs en → ChipLines ls' t →
      ChipLines ((k ++ ':' :: e) :: ls ++ ls') ((k, en) :: t)

/-- The memory types of a table: the name is the key unless another is given, the second address is zero unless given. -/
def TypeOf (k : Str) (e : ChipEntry) (t : MemTypeInfo) : Prop :=
  t.primary = e.primary ∧ t.length = e.length ∧
  (match e.secondary with
    | some a => t.secondary = a
    | none => t.secondary = 0) ∧
  (match e.name with
    | some n => t.name = n
    | none => t.name = k)

end EspSize
