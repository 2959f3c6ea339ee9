import Verif.Py.Basic
/-! # Python `str.split`, `str.strip`, `str.splitlines`, `int(s, 0)` -/
namespace EspSize

/-- `str.isspace` of one character. -/
def isSpace (c : Char) : Bool :=
  let n := c.toNat
  (9 ≤ n && n ≤ 13) || (28 ≤ n && n ≤ 32) || n = 133 || n = 160 || n = 5760 || (8192 ≤ n && n ≤ 8202) ||
    n = 8232 || n = 8233 || n = 8239 || n = 8287 || n = 12288

/-- `s.lstrip()`. -/
def lstrip (s : Str) : Str := s.dropWhile isSpace

/-- `s.strip()`. -/
def strip (s : Str) : Str := (lstrip (lstrip s).reverse).reverse

/-- `s.split(maxsplit=n)`. -/
def splitN : Nat → Str → List Str
  | n, s =>
    match lstrip s with
    | [] => []
    | t =>
      match n with
      | 0 => [t]
      | n + 1 => t.takeWhile (fun c => !isSpace c) :: splitN n (t.dropWhile fun c => !isSpace c)

/-- `s.split()`: there are never more fields than characters. -/
def split (s : Str) : List Str := splitN s.length s

/-- The characters `str.splitlines` splits at, after the universal newlines of text mode. -/
def isNewline (c : Char) : Bool :=
  let n := c.toNat
  (10 ≤ n && n ≤ 13) || (28 ≤ n && n ≤ 30) || n = 133 || n = 8232 || n = 8233

/-- `s.splitlines()` for text without `\r` (text mode turns `\r\n` and `\r` into `\n`); `cur` is the
current line. -/
def splitlinesAux : Str → Str → List Str
  | cur, [] => if cur = [] then [] else [cur.reverse]
  | cur, c :: s => if isNewline c then cur.reverse :: splitlinesAux [] s else splitlinesAux (c :: cur) s

def splitlines (s : Str) : List Str := splitlinesAux [] s

/-- Value of a digit. -/
def digitVal (c : Char) : Option Nat :=
  if '0' ≤ c ∧ c ≤ '9' then some (c.toNat - '0'.toNat)
  else if 'a' ≤ c ∧ c ≤ 'z' then some (c.toNat - 'a'.toNat + 10)
  else if 'A' ≤ c ∧ c ≤ 'Z' then some (c.toNat - 'A'.toNat + 10)
  else none

/-- Digits with single underscores between them; `us` tells that an underscore or the start precedes. -/
def parseDigits (base : Nat) : Bool → Nat → Str → Option Nat
  | us, acc, [] => if us then none else some acc
  | us, acc, c :: s =>
    if c = '_' then if us then none else parseDigits base true acc s
    else match digitVal c with
      | some d => if d < base then parseDigits base false (acc * base + d) s else none
      | none => none

/-- Digits after a prefix like `0x`, where one underscore may come first. -/
def parsePrefixed (base : Nat) (s : Str) : Option Nat :=
  match s with
  | '_' :: t => parseDigits base true 0 t
  | t => parseDigits base true 0 t

/-- The unsigned part of `int(s, 0)`. -/
def parseNat0 (s : Str) : Option Nat :=
  match s with
  | '0' :: c :: t =>
    if c = 'x' ∨ c = 'X' then parsePrefixed 16 t
    else if c = 'o' ∨ c = 'O' then parsePrefixed 8 t
    else if c = 'b' ∨ c = 'B' then parsePrefixed 2 t
    else match parseDigits 10 true 0 s with
      | some 0 => some 0
      | _ => none                     -- no leading zeros in decimal numbers
  | _ => parseDigits 10 true 0 s

/-- `int(s, 0)`; `none` is `ValueError`.  (Simplification: only ASCII digits.) -/
def pyInt0 (s : Str) : Option Int :=
  match strip s with
  | '-' :: t => (parseNat0 t).map fun (n : Nat) => -(n : Int)
  | '+' :: t => (parseNat0 t).map fun (n : Nat) => (n : Int)
  | t => (parseNat0 t).map fun (n : Nat) => (n : Int)

/-- `int(s)`; `none` is `ValueError`.  (Simplification: only ASCII digits.) -/
def pyInt10 (s : Str) : Option Int :=
  match strip s with
  | '-' :: t => (parseDigits 10 true 0 t).map fun (n : Nat) => -(n : Int)
  | '+' :: t => (parseDigits 10 true 0 t).map fun (n : Nat) => (n : Int)
  | t => (parseDigits 10 true 0 t).map fun (n : Nat) => (n : Int)

/-- `int(s, 0)` with the exception. -/
def int0 (s : Str) : Except Err Int :=
  match pyInt0 s with
  | some n => .ok n
  | none => .error .valueError

/-- `s.find(c)` and the two sides of it, `none` if there is no `c`. -/
def cutAt (c : Char) : Str → Option (Str × Str)
  | [] => none
  | d :: s => if d = c then some ([], s) else (cutAt c s).map fun p => (d :: p.1, p.2)

end EspSize
