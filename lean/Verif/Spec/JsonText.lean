import Verif.Py.JsonLoad
/-!
# The grammar of JSON

RFC 8259 and the three words that Python writes and reads in addition, as relations between values and texts.  Nothing of the reader is used but the type of values and the meaning of a dictionary
(`dictOf`: the last value of a name counts).
-/
namespace EspSize

/-- Section 2: `ws`. -/
def JsonBlank (w : Str) : Prop := ∀ c ∈ w, c = ' ' ∨ c = '\t' ∨ c = '\n' ∨ c = '\r'

/-- Section 7: a hexadecimal digit and its value. -/
inductive HexDigit : Nat → Char → Prop
  | dec {k : Nat} : k < 10 → HexDigit k (Char.ofNat (48 + k))
  | low {k : Nat} : k < 6 → HexDigit (10 + k) (Char.ofNat (97 + k))
  | upp {k : Nat} : k < 6 → HexDigit (10 + k) (Char.ofNat (65 + k))

/-- `\u` and four hexadecimal digits. -/
inductive UnitText : Nat → Str → Prop
  | mk {a b c d : Nat} {x y z w : Char} : HexDigit a x → HexDigit b y → HexDigit c z → HexDigit d w →
      UnitText (a * 16 ^ 3 + b * 16 ^ 2 + c * 16 + d) ['\\', 'u', x, y, z, w]

/-- Section 7: a character of a string and the ways to write it. -/
inductive CharText : Char → Str → Prop
  | plain {c : Char} : 0x20 ≤ c.toNat → c ≠ '"' → c ≠ '\\' → CharText c [c]
  | quote : CharText '"' ['\\', '"']
  | backslash : CharText '\\' ['\\', '\\']
  | slash : CharText '/' ['\\', '/']
  | b : CharText (Char.ofNat 8) ['\\', 'b']
  | f : CharText (Char.ofNat 12) ['\\', 'f']
  | n : CharText '\n' ['\\', 'n']
  | r : CharText '\r' ['\\', 'r']
  | t : CharText '\t' ['\\', 't']
  | unit {c : Char} {s : Str} : UnitText c.toNat s → CharText c s
  | pair {c : Char} {hi lo : Nat} {s t : Str} : UnitText hi s → UnitText lo t → 0xD800 ≤ hi → hi < 0xDC00 → 0xDC00 ≤ lo → lo < 0xE000 →
      c.toNat = 0x10000 + (hi - 0xD800) * 0x400 + (lo - 0xDC00) → CharText c (s ++ t)

/-- The characters between the quotes. -/
inductive CharsText : Str → Str → Prop
  | nil : CharsText [] []
  | cons {c : Char} {cs s t : Str} : CharText c s → CharsText cs t → CharsText (c :: cs) (s ++ t)

/-- Section 7: a string. -/
inductive StringText : Str → Str → Prop
  | mk {x s : Str} : CharsText x s → StringText x ('"' :: s ++ ['"'])

/-- Decimal digits and their value. -/
inductive DigitsText : Nat → Str → Prop
  | one {k : Nat} : k < 10 → DigitsText k [Char.ofNat (48 + k)]
  | snoc {n k : Nat} {s : Str} : DigitsText n s → k < 10 → DigitsText (n * 10 + k) (s ++ [Char.ofNat (48 + k)])

/-- Section 6: `int`. -/
def IntText (n : Nat) (s : Str) : Prop := DigitsText n s ∧ (s = ['0'] ∨ ¬ ['0'] <+: s)

/-- Section 6: `frac`. -/
def FracText (s : Str) : Prop := ∃ n t, DigitsText n t ∧ s = '.' :: t

/-- Section 6: `exp`. -/
def ExpText (s : Str) : Prop := ∃ n t e sign, DigitsText n t ∧ (e = 'e' ∨ e = 'E') ∧ (sign = [] ∨ sign = ['-'] ∨ sign = ['+']) ∧ s = e :: sign ++ t

/-- What a text stands for. -/
inductive JNode where
  | value (v : JVal)
  | items (l : List JVal)
  | members (l : List (Str × JVal))

/-- Sections 3 to 6. -/
inductive JText : JNode → Str → Prop
  | null : JText (.value .null) (str "null")
  | true_ : JText (.value (.bool true)) (str "true")
  | false_ : JText (.value (.bool false)) (str "false")
  /-- the extension of Python -/
  | word {w : Str} : w ∈ [EspSize.str "NaN", EspSize.str "Infinity", EspSize.str "-Infinity"] → JText (.value (.float w)) w
  | nat {n : Nat} {s : Str} : IntText n s → JText (.value (.int n)) s
  | neg {n : Nat} {s : Str} : IntText n s → JText (.value (.int (-n))) ('-' :: s)
  | float {n : Nat} {m s f e : Str} : (m = [] ∨ m = ['-']) → IntText n s → (f = [] ∨ FracText f) → (e = [] ∨ ExpText e) → ¬ (f = [] ∧ e = []) →
      JText (.value (.float (m ++ s ++ f ++ e))) (m ++ s ++ f ++ e)
  | str {x s : Str} : StringText x s → JText (.value (.str x)) s
  | arr0 {w : Str} : JsonBlank w → JText (.value (.arr [])) ('[' :: w ++ [']'])
  | arr {l : List JVal} {s : Str} : JText (.items l) s → JText (.value (.arr l)) ('[' :: s ++ [']'])
  | obj0 {w : Str} : JsonBlank w → JText (.value (.obj [])) ('{' :: w ++ ['}'])
  | obj {l : List (Str × JVal)} {s : Str} : JText (.members l) s → JText (.value (.obj (dictOf l))) ('{' :: s ++ ['}'])
  | item {v : JVal} {w s w' : Str} : JsonBlank w → JText (.value v) s → JsonBlank w' → JText (.items [v]) (w ++ s ++ w')
  | moreItems {v : JVal} {l : List JVal} {w s w' t : Str} : JsonBlank w → JText (.value v) s → JsonBlank w' → JText (.items l) t →
      JText (.items (v :: l)) (w ++ s ++ w' ++ ',' :: t)
  | member {k : Str} {v : JVal} {w1 ks w2 w3 s w4 : Str} : JsonBlank w1 → StringText k ks → JsonBlank w2 → JsonBlank w3 → JText (.value v) s → JsonBlank w4 →
      JText (.members [(k, v)]) (w1 ++ ks ++ w2 ++ ':' :: w3 ++ s ++ w4)
  | moreMembers {k : Str} {v : JVal} {l : List (Str × JVal)} {w1 ks w2 w3 s w4 t : Str} : JsonBlank w1 → StringText k ks → JsonBlank w2 → JsonBlank w3 →
      JText (.value v) s → JsonBlank w4 → JText (.members l) t →
      JText (.members ((k, v) :: l)) (w1 ++ ks ++ w2 ++ ':' :: w3 ++ s ++ w4 ++ ',' :: t)

/-- Section 2: `JSON-text`. -/
def JsonText (v : JVal) (s : Str) : Prop := ∃ w t w', JsonBlank w ∧ JText (.value v) t ∧ JsonBlank w' ∧ s = w ++ t ++ w'

end EspSize
