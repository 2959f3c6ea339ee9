import Verif.Py.Dict
/-!
# `json.loads`

The decoder of the Python standard library (`json/decoder.py`, `json/scanner.py`), with its extensions `NaN`,
`Infinity` and `-Infinity`.  `none` is `JSONDecodeError`, a `ValueError`.  The value of a number that is no integer is kept as text.
Simplifications: a string with an unpaired surrogate, which Python accepts, is an error; the limits on recursion and on
the digits of an integer do not exist.
-/
namespace EspSize

/-- What `json.loads` returns; a dictionary is the list of its items. -/
inductive JVal where
  | null
  | bool (b : Bool)
  | int (i : Int)
  | float (text : Str)
  | str (s : Str)
  | arr (l : List JVal)
  | obj (l : List (Str × JVal))

/-- `WHITESPACE`: blank, tabulator, line feed, carriage return. -/
def loadWs (c : Char) : Bool := c = ' ' || c = '\t' || c = '\n' || c = '\r'

def dropWs (s : Str) : Str := s.dropWhile loadWs

/-- `dict(pairs)`: the last value of a key counts. -/
def dictOf {α : Type} (l : List (Str × α)) : Dict Str α := l.foldl (fun d p => dset d p.1 p.2) []

/-- The value of a hexadecimal digit. -/
def loadHex (c : Char) : Option Nat :=
  if '0' ≤ c ∧ c ≤ '9' then some (c.toNat - 48)
  else if 'a' ≤ c ∧ c ≤ 'f' then some (c.toNat - 87)
  else if 'A' ≤ c ∧ c ≤ 'F' then some (c.toNat - 55)
  else none

/-- `_decode_uXXXX`. -/
def loadHex4 : Str → Option (Nat × Str)
  | a :: b :: c :: d :: t =>
    match loadHex a, loadHex b, loadHex c, loadHex d with
    | some a, some b, some c, some d => some (a * 4096 + b * 256 + c * 16 + d, t)
    | _, _, _, _ => none
  | _ => none

/-- The second half of a surrogate pair. -/
def loadLow (hi : Nat) : Str → Option (Char × Str)
  | '\\' :: 'u' :: t =>
    match loadHex4 t with
    | some (lo, r) => if 0xDC00 ≤ lo ∧ lo ≤ 0xDFFF then some (Char.ofNat (0x10000 + ((hi - 0xD800) * 1024 + (lo - 0xDC00))), r) else none
    | none => none
  | _ => none

/-- What follows `\u`. -/
def loadUnicode (s : Str) : Option (Char × Str) :=
  match loadHex4 s with
  | some (n, t) => if 0xD800 ≤ n ∧ n ≤ 0xDBFF then loadLow n t else if 0xDC00 ≤ n ∧ n ≤ 0xDFFF then none else some (Char.ofNat n, t)
  | none => none

/-- `BACKSLASH`. -/
def backslashed (c : Char) : Option Char :=
  if c = '"' then some '"' else if c = '\\' then some '\\' else if c = '/' then some '/' else if c = 'b' then some (Char.ofNat 8)
  else if c = 'f' then some (Char.ofNat 12) else if c = 'n' then some '\n' else if c = 'r' then some '\r' else if c = 't' then some '\t'
  else none

/-- One character of a string, `scanstring` with `strict=True`. -/
def loadChar : Str → Option (Char × Str)
  | [] => none
  | c :: t =>
    if c = '\\' then
      match t with
      | [] => none
      | e :: r => if e = 'u' then loadUnicode r else (backslashed e).map fun x => (x, r)
    else if c.toNat ≤ 0x1F then none
    else some (c, t)

/-- The rest of a string behind the opening quote, with at most `n` steps. -/
def loadStr : Nat → Str → Option (Str × Str)
  | 0, _ => none
  | n + 1, s =>
    match s with
    | '"' :: t => some ([], t)
    | s =>
      match loadChar s with
      | none => none
      | some (c, t) =>
        match loadStr n t with
        | none => none
        | some (cs, r) => some (c :: cs, r)

def asciiDigit (c : Char) : Bool := decide ('0' ≤ c) && decide (c ≤ '9')

/-- `int` of digits. -/
def digitsVal (s : Str) : Nat := s.foldl (fun n c => n * 10 + (c.toNat - 48)) 0

/-- `0|[1-9][0-9]*`. -/
def scanDigits : Str → Option (Str × Str)
  | '0' :: t => some (['0'], t)
  | s => match s.takeWhile asciiDigit with
    | [] => none
    | ds => some (ds, s.dropWhile asciiDigit)

/-- `(\.[0-9]+)?`. -/
def scanFrac : Str → Str × Str
  | '.' :: t => match t.takeWhile asciiDigit with
    | [] => ([], '.' :: t)
    | ds => ('.' :: ds, t.dropWhile asciiDigit)
  | s => ([], s)

/-- `[-+]?`. -/
def scanSign : Str → Str × Str
  | '-' :: t => (['-'], t)
  | '+' :: t => (['+'], t)
  | s => ([], s)

/-- `([eE][-+]?[0-9]+)?`. -/
def scanExp : Str → Str × Str
  | c :: t =>
    if c = 'e' ∨ c = 'E' then
      match (scanSign t).2.takeWhile asciiDigit with
      | [] => ([], c :: t)
      | ds => (c :: (scanSign t).1 ++ ds, (scanSign t).2.dropWhile asciiDigit)
    else ([], c :: t)
  | [] => ([], [])

/-- `NUMBER_RE`, after the sign. -/
def scanNumber (neg : Bool) (s : Str) : Option (JVal × Str) :=
  match scanDigits s with
  | none => none
  | some (ds, r) =>
    let f := scanFrac r
    let e := scanExp f.2
    if f.1 = [] ∧ e.1 = [] then some (.int (if neg then -(digitsVal ds : Int) else digitsVal ds), e.2)
    else some (.float ((if neg then ['-'] else []) ++ ds ++ f.1 ++ e.1), e.2)

/-- A word that stands for a value. -/
def scanWord (w : Str) (v : JVal) (s : Str) : Option (JVal × Str) := if startsWith s w then some (v, s.drop w.length) else none

/-- A value that is neither string nor list nor dictionary. -/
def scanAtom (s : Str) : Option (JVal × Str) :=
  match s with
  | 'n' :: _ => scanWord (str "null") .null s
  | 't' :: _ => scanWord (str "true") (.bool true) s
  | 'f' :: _ => scanWord (str "false") (.bool false) s
  | 'N' :: _ => scanWord (str "NaN") (.float (str "NaN")) s
  | 'I' :: _ => scanWord (str "Infinity") (.float (str "Infinity")) s
  | '-' :: t => match scanNumber true t with
    | some x => some x
    | none => scanWord (str "-Infinity") (.float (str "-Infinity")) s
  | s => scanNumber false s

mutual
/-- `scan_once`, with at most `n` nested calls. -/
def scanOnce : Nat → Str → Option (JVal × Str)
  | 0, _ => none
  | n + 1, s =>
    match s with
    | '"' :: t => (loadStr n t).map fun p => (.str p.1, p.2)
    | '{' :: t =>
      match dropWs t with
      | '}' :: r => some (.obj [], r)
      | t => (scanPairs n t).map fun p => (.obj (dictOf p.1), p.2)
    | '[' :: t =>
      match dropWs t with
      | ']' :: r => some (.arr [], r)
      | t => (scanItems n t).map fun p => (.arr p.1, p.2)
    | s => scanAtom s
/-- The loop of `JSONArray`. -/
def scanItems : Nat → Str → Option (List JVal × Str)
  | 0, _ => none
  | n + 1, s =>
    match scanOnce n s with
    | none => none
    | some (x, t) =>
      match dropWs t with
      | ']' :: r => some ([x], r)
      | ',' :: r => (scanItems n (dropWs r)).map fun p => (x :: p.1, p.2)
      | _ => none
/-- The loop of `JSONObject`. -/
def scanPairs : Nat → Str → Option (List (Str × JVal) × Str)
  | 0, _ => none
  | n + 1, s =>
    match s with
    | '"' :: t =>
      match loadStr n t with
      | none => none
      | some (k, t) =>
        match dropWs t with
        | ':' :: t =>
          match scanOnce n (dropWs t) with
          | none => none
          | some (x, t) =>
            match dropWs t with
            | '}' :: r => some ([(k, x)], r)
            | ',' :: r => (scanPairs n (dropWs r)).map fun p => ((k, x) :: p.1, p.2)
            | _ => none
        | _ => none
    | _ => none
end

/-- `json.loads(s)`: a text that begins with a byte order mark is an error. -/
def jsonLoads (s : Str) : Option JVal :=
  match scanOnce (s.length + 1) (dropWs s) with
  | some (x, r) => if dropWs r = [] then some x else none
  | none => none

end EspSize
