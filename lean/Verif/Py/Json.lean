import Verif.Py.Fmt
/-!
# `json.dumps(value, indent=4)`

For the values that the reports contain: integers, strings, lists, dictionaries with string keys.  A dictionary is
the list of its items.  Characters are Unicode scalar values (a Python string may also hold lone surrogates).
-/
namespace EspSize

inductive Json where
  | int (i : Int)
  | str (s : Str)
  | arr (l : List Json)
  | obj (l : List (Str × Json))

/-- A digit of `'{:x}'`. -/
def hexChar (d : Nat) : Char := if d < 10 then Char.ofNat (48 + d) else Char.ofNat (87 + d)

/-- `'\\u{0:04x}'.format(n)`. -/
def uEscape (n : Nat) : Str :=
  ['\\', 'u', hexChar (n / 4096 % 16), hexChar (n / 256 % 16), hexChar (n / 16 % 16), hexChar (n % 16)]

/-- `py_encode_basestring_ascii` of one character (`ensure_ascii` is true): `ESCAPE_DCT`, characters from blank to
tilde, other characters. -/
def escapeChar (c : Char) : Str :=
  if c = '"' then ['\\', '"']
  else if c = '\\' then ['\\', '\\']
  else if c = '\n' then ['\\', 'n']
  else if c = '\r' then ['\\', 'r']
  else if c = '\t' then ['\\', 't']
  else if c.toNat = 12 then ['\\', 'f']
  else if c.toNat = 8 then ['\\', 'b']
  else if 32 ≤ c.toNat ∧ c.toNat ≤ 126 then [c]
  else if c.toNat < 0x10000 then uEscape c.toNat
  else uEscape (0xd800 + (c.toNat - 0x10000) / 1024) ++ uEscape (0xdc00 + (c.toNat - 0x10000) % 1024)

def jsonStr (s : Str) : Str := '"' :: (s.flatMap escapeChar ++ ['"'])

/-- The newline and indentation in front of an item. -/
def jsonNl (lvl : Nat) : Str := '\n' :: List.replicate (4 * lvl) ' '

mutual
/-- A value at nesting depth `lvl`. -/
def Json.dump (lvl : Nat) : Json → Str
  | .int i => intStr i
  | .str s => jsonStr s
  | .arr l => if l.isEmpty then ['[', ']'] else '[' :: (dumpItems (lvl + 1) l ++ jsonNl lvl ++ [']'])
  | .obj l => if l.isEmpty then ['{', '}'] else '{' :: (dumpMembers (lvl + 1) l ++ jsonNl lvl ++ ['}'])
/-- The items of a list. -/
def dumpItems (lvl : Nat) : List Json → Str
  | [] => []
  | x :: t => jsonNl lvl ++ x.dump lvl ++ (if t.isEmpty then [] else [',']) ++ dumpItems lvl t
/-- The items of a dictionary. -/
def dumpMembers (lvl : Nat) : List (Str × Json) → Str
  | [] => []
  | x :: t => jsonNl lvl ++ dumpMember lvl x ++ (if t.isEmpty then [] else [',']) ++ dumpMembers lvl t
/-- A key and its value. -/
def dumpMember (lvl : Nat) : Str × Json → Str
  | (k, x) => jsonStr k ++ ':' :: ' ' :: x.dump lvl
end

/-- `json.dumps(v, indent=4)`. -/
def jsonDumps (v : Json) : Str := v.dump 0

end EspSize
