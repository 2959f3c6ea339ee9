import Verif.Py.Json
import Verif.Model.SummaryTable
import Verif.Model.Deps
import Verif.Model.Summary
/-!
# A JSON reader

RFC 8259, for texts whose numbers are integers; `true`, `false` and `null` are not read.  The members of an object
are returned in order.
-/
namespace EspSize

/-- Insignificant white space. -/
def jsonWs (c : Char) : Bool := c = ' ' || c = '\n' || c = '\t' || c = '\r'

def skipWs (s : Str) : Str := s.dropWhile jsonWs

/-- The value of a hexadecimal digit, in either case. -/
def hexValue (c : Char) : Option Nat :=
  if 48 ≤ c.toNat ∧ c.toNat ≤ 57 then some (c.toNat - 48)
  else if 97 ≤ c.toNat ∧ c.toNat ≤ 102 then some (c.toNat - 87)
  else if 65 ≤ c.toNat ∧ c.toNat ≤ 70 then some (c.toNat - 55)
  else none

/-- Four hexadecimal digits. -/
def hexFour : Str → Option (Nat × Str)
  | a :: b :: c :: d :: t => do
    some (((← hexValue a) * 16 + (← hexValue b)) * 256 + ((← hexValue c) * 16 + (← hexValue d)), t)
  | _ => none

/-- What follows `\u`: a code unit, or a surrogate pair. -/
def readUnicode (s : Str) : Option (Char × Str) := do
  let (n, t) ← hexFour s
  if n < 0xd800 ∨ 0xe000 ≤ n then some (Char.ofNat n, t)
  else if n < 0xdc00 then
    match t with
    | '\\' :: 'u' :: t => do
      let (m, r) ← hexFour t
      if 0xdc00 ≤ m ∧ m < 0xe000 then some (Char.ofNat (0x10000 + (n - 0xd800) * 1024 + (m - 0xdc00)), r) else none
    | _ => none
  else none

/-- One character of a string, which is not the closing quote; control characters must be escaped. -/
def readChar : Str → Option (Char × Str)
  | '\\' :: 'u' :: t => readUnicode t
  | '\\' :: c :: t =>
    if c = '"' ∨ c = '\\' ∨ c = '/' then some (c, t)
    else if c = 'n' then some ('\n', t)
    else if c = 'r' then some ('\r', t)
    else if c = 't' then some ('\t', t)
    else if c = 'f' then some (Char.ofNat 12, t)
    else if c = 'b' then some (Char.ofNat 8, t)
    else none
  | c :: t => if c.toNat < 32 ∨ c = '\\' then none else some (c, t)
  | [] => none

/-- The rest of a string after the opening quote, in at most `n` characters. -/
def readStr : Nat → Str → Option (Str × Str)
  | 0, _ => none
  | n + 1, s =>
    match s with
    | '"' :: t => some ([], t)
    | s => do
      let (c, t) ← readChar s
      let (cs, r) ← readStr n t
      some (c :: cs, r)

/-- The decimal digits at the start. -/
def readNat (s : Str) : Option (Nat × Str) :=
  match s.takeWhile Char.isDigit with
  | [] => none
  | ds => some (Nat.ofDigitChars 10 ds 0, s.dropWhile Char.isDigit)

def readInt : Str → Option (Int × Str)
  | '-' :: t => do let (n, r) ← readNat t; some (-(n : Int), r)
  | s => do let (n, r) ← readNat s; some ((n : Int), r)

mutual
/-- A value, with at most `n` nested calls. -/
def readValue : Nat → Str → Option (Json × Str)
  | 0, _ => none
  | n + 1, s =>
    match skipWs s with
    | '"' :: t => do let (x, r) ← readStr n t; some (.str x, r)
    | '[' :: t =>
      match skipWs t with
      | ']' :: r => some (.arr [], r)
      | t => do let (l, r) ← readItems n t; some (.arr l, r)
    | '{' :: t =>
      match skipWs t with
      | '}' :: r => some (.obj [], r)
      | t => do let (l, r) ← readMembers n t; some (.obj l, r)
    | t => do let (i, r) ← readInt t; some (.int i, r)
def readItems : Nat → Str → Option (List Json × Str)
  | 0, _ => none
  | n + 1, s => do
    let (x, t) ← readValue n s
    match skipWs t with
    | ']' :: r => some ([x], r)
    | ',' :: r => do let (l, r) ← readItems n r; some (x :: l, r)
    | _ => none
def readMembers : Nat → Str → Option (List (Str × Json) × Str)
  | 0, _ => none
  | n + 1, s =>
    match skipWs s with
    | '"' :: t => do
      let (k, t) ← readStr n t
      match skipWs t with
      | ':' :: t => do
        let (x, t) ← readValue n t
        match skipWs t with
        | '}' :: r => some ([(k, x)], r)
        | ',' :: r => do let (l, r) ← readMembers n r; some ((k, x) :: l, r)
        | _ => none
      | _ => none
    | _ => none
end

/-- The value of a text. -/
def readJson (s : Str) : Option Json :=
  match readValue (s.length + 1) s with
  | some (x, r) => if skipWs r = [] then some x else none
  | none => none

/-! ## Strings and keys of a value -/

mutual
/-- All strings of a value, keys included. -/
def Json.strings : Json → List Str
  | .int _ => []
  | .str s => [s]
  | .arr l => itemStrings l
  | .obj l => memberStrings l
def itemStrings : List Json → List Str
  | [] => []
  | x :: t => x.strings ++ itemStrings t
def memberStrings : List (Str × Json) → List Str
  | [] => []
  | x :: t => pairStrings x ++ memberStrings t
def pairStrings : Str × Json → List Str
  | (k, x) => k :: x.strings
end

mutual
/-- The keys of each object in the value are distinct. -/
def Json.Distinct : Json → Prop
  | .int _ => True
  | .str _ => True
  | .arr l => itemsDistinct l
  | .obj l => (l.map (·.1)).Nodup ∧ membersDistinct l
def itemsDistinct : List Json → Prop
  | [] => True
  | x :: t => x.Distinct ∧ itemsDistinct t
def membersDistinct : List (Str × Json) → Prop
  | [] => True
  | x :: t => pairDistinct x ∧ membersDistinct t
def pairDistinct : Str × Json → Prop
  | (_, x) => x.Distinct
end

/-! ## The documents, read by their keys -/

/-- `value[k]`; of several members with the same key the last one counts. -/
def member (k : String) : Json → Option Json
  | .obj l => (l.reverse.find? fun p => p.1 = str k).map (·.2)
  | _ => none

def asInt : Json → Option Int
  | .int i => some i
  | _ => none

def asStr : Json → Option Str
  | .str s => some s
  | _ => none

def intAt (k : String) (j : Json) : Option Int := (member k j).bind asInt
def strAt (k : String) (j : Json) : Option Str := (member k j).bind asStr

def asDict {α : Type} (f : Json → Option α) : Json → Option (Dict Str α)
  | .obj l => l.mapM fun p => (f p.2).map fun x => (p.1, x)
  | _ => none

def asList {α : Type} (f : Json → Option α) : Json → Option (List α)
  | .arr l => l.mapM f
  | _ => none

def asSym (j : Json) : Option Sym := do
  some { abb := ← strAt "abbrev_name" j, size := ← intAt "size" j, sizeDiff := ← intAt "size_diff" j,
         nullKid := (member "null" j).isSome }

def asNode {α : Type} (sub : String) (f : Json → Option α) (j : Json) : Option (Node α) := do
  some { abb := ← strAt "abbrev_name" j, size := ← intAt "size" j, sizeDiff := ← intAt "size_diff" j,
         kids := ← (member sub j).bind (asDict f) }

def asType (j : Json) : Option MType := do
  some { size := ← intAt "size" j, sizeDiff := ← intAt "size_diff" j, used := ← intAt "used" j,
         usedDiff := ← intAt "used_diff" j,
         sections := ← (member "sections" j).bind
           (asDict (asNode "archives" (asNode "object_files" (asNode "symbols" asSym)))) }

/-- A memory map, as documented for `memorymap.get`. -/
def asMap (j : Json) : Option MemMap := do
  some { version := ← strAt "version" j, target := ← strAt "target" j, targetDiff := ← strAt "target_diff" j,
         imageSize := ← intAt "image_size" j, imageSizeDiff := ← intAt "image_size_diff" j,
         projectPath := ← strAt "project_path" j, projectPathDiff := ← strAt "project_path_diff" j,
         memoryTypes := ← (member "memory_types" j).bind (asDict asType) }

def asSSec (j : Json) : Option SSec := do
  some { abb := ← strAt "abbrev_name" j, size := ← intAt "size" j, sizeDiff := ← intAt "size_diff" j }

def asSType (j : Json) : Option SType := do
  some { size := ← intAt "size" j, sizeDiff := ← intAt "size_diff" j,
         sections := ← (member "sections" j).bind (asDict asSSec) }

def asEntry (j : Json) : Option Entry := do
  some { abb := ← strAt "abbrev_name" j, size := ← intAt "size" j, sizeDiff := ← intAt "size_diff" j,
         types := ← (member "memory_types" j).bind (asDict asSType) }

/-- The report on archives, files or symbols. -/
def asEntries : Json → Option (Dict Str Entry) := asDict asEntry

def asDepInfo (j : Json) : Option DepInfo := do
  some { abb := ← strAt "abbrev_name" j, size := ← intAt "size" j,
         symbols := ← (member "symbols" j).bind (asList asStr) }

def asDepArch (j : Json) : Option DepArch := do
  some { abb := ← strAt "abbrev_name" j, size := ← intAt "size" j,
         archives := ← (member "archives" j).bind (asDict asDepInfo) }

/-- The report on dependencies. -/
def asDeps : Json → Option Deps := asDict asDepArch

def asLayout (j : Json) : Option Layout := do
  some { name := ← strAt "name" j, total := ← intAt "total" j, used := ← intAt "used" j, free := ← intAt "free" j,
         parts := ← (member "parts" j).bind (asDict (intAt "size")) }

/-- The summary. -/
def asSummary (j : Json) : Option JsonSummary := do
  some { version := ← strAt "version" j, totalSize := ← intAt "total_size" j,
         layout := ← (member "layout" j).bind (asList asLayout) }

end EspSize
