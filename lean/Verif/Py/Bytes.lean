import Verif.Py.Basic
/-!
# Byte strings, `int.from_bytes`, `bytes.index`, `struct`

Modelled parts: `data[a:b]`, `data[i]`, `int.from_bytes`, `bytes.index(b'\x00', start)`, `struct.unpack_from` with
byte order `<` or `>` (standard sizes, no padding), `struct.calcsize` without byte order (native sizes and
alignment), for the format characters `s`, `B`, `H`, `L`, `Q`; `bytes.decode()`.
-/
namespace EspSize

abbrev Bytes := List UInt8

/-- `data[off : off + n]`. -/
def slice (d : Bytes) (off n : Nat) : Bytes := (d.drop off).take n

/-- `data[i]` for `i ≥ 0`. -/
def byteAt (d : Bytes) (i : Nat) : Except Err Nat :=
  match d[i]? with
  | some b => .ok b.toNat
  | none => .error .indexError

/-- `data[i - 1]`: for `i = 0` the last byte. -/
def byteBefore (d : Bytes) : Nat → Except Err Nat
  | 0 => match d.getLast? with
    | some b => .ok b.toNat
    | none => .error .indexError
  | i + 1 => byteAt d i

inductive Order where
  | little | big
deriving DecidableEq, Repr

/-- `int.from_bytes(b, 'little')`. -/
def fromLE : Bytes → Nat
  | [] => 0
  | b :: t => b.toNat + 256 * fromLE t

/-- `int.from_bytes(b, order)`. -/
def fromBytes : Order → Bytes → Nat
  | .little, b => fromLE b
  | .big, b => fromLE b.reverse

/-- `int.from_bytes(b, order, signed=True)`. -/
def fromBytesSigned (o : Order) (b : Bytes) : Int :=
  let v := fromBytes o b
  if 2 * v < 256 ^ b.length then (v : Int) else v - (256 ^ b.length : Nat)

/-- `bytes.index(b'\x00', start)`. -/
def indexNul (d : Bytes) (start : Nat) : Except Err Nat :=
  match (d.drop start).findIdx? (· = 0) with
  | some k => .ok (start + k)
  | none => .error .valueError

/-- `bytes.decode()`: strict UTF-8. -/
def decodeUtf8 (b : Bytes) : Except Err Str :=
  match (ByteArray.mk b.toArray).utf8Decode? with
  | some a => .ok a.toList
  | none => .error .unicode

/-! ## `struct` -/

/-- The items of a format string: repeat count and format character. -/
def fmtGo (cnt : Option Nat) : Str → List (Nat × Char)
  | [] => []
  | c :: t =>
    if c.isDigit then fmtGo (some (cnt.getD 0 * 10 + (c.toNat - '0'.toNat))) t
    else (cnt.getD 1, c) :: fmtGo none t

def fmtItems (fmt : Str) : List (Nat × Char) := fmtGo none fmt

/-- Standard sizes. -/
def stdWidth (c : Char) : Nat :=
  if c = 'B' then 1 else if c = 'H' then 2 else if c = 'L' then 4 else if c = 'Q' then 8 else 1

/-- The widths of the values of a format: `16s` is one value of 16 bytes. -/
def fmtWidths (fmt : Str) : List Nat :=
  (fmtItems fmt).flatMap fun p => if p.2 = 's' then [p.1] else List.replicate p.1 (stdWidth p.2)

/-- `struct.calcsize('<' + fmt)`. -/
def calcsize (fmt : Str) : Nat := (fmtWidths fmt).sum

/-- `struct.calcsize(fmt)` on a platform where `long` has `l` bytes: values are aligned to their size. -/
def nativeSize (l : Nat) (fmt : Str) : Nat :=
  (fmtItems fmt).foldl (fun off p =>
    let w := if p.2 = 'L' then l else stdWidth p.2
    (off + w - 1) / w * w + p.1 * w) 0

/-- Consecutive pieces of the given widths. -/
def chunks : List Nat → Bytes → List Bytes
  | [], _ => []
  | w :: ws, d => d.take w :: chunks ws (d.drop w)

/-- `struct.unpack_from`, as the byte strings of the values. -/
def unpackFrom (fmt : Str) (d : Bytes) (off : Nat) : Except Err (List Bytes) :=
  if d.length < off + calcsize fmt then .error .structError else .ok (chunks (fmtWidths fmt) (d.drop off))

end EspSize
