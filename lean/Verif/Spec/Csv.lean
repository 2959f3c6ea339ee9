import Verif.Model.Csv
import Verif.Spec.Markup
/-! # A standard CSV reader -/
namespace EspSize

/-- Position in the text: at the start of a record or field, in an unquoted field, in a quoted field, after a
quote in a quoted field. -/
inductive CsvPos where
  | record | field | plain | quoted | quote
deriving DecidableEq

/-- What has been read: complete records, complete fields of the current record, the current field. -/
structure CsvSt where
  pos : CsvPos := .record
  cur : Str := []
  row : List Str := []
  out : List (List Str) := []
deriving DecidableEq

def CsvSt.endField (s : CsvSt) : CsvSt := { s with pos := .field, cur := [], row := s.row ++ [s.cur] }
def CsvSt.endRecord (s : CsvSt) : CsvSt := { pos := .record, cur := [], row := [], out := s.out ++ [s.row ++ [s.cur]] }
def CsvSt.put (s : CsvSt) (p : CsvPos) (c : Char) : CsvSt := { s with pos := p, cur := s.cur ++ [c] }

/-- One character: commas and line ends separate, except in quoted fields, where a doubled quote stands for a
quote. -/
def CsvSt.step (s : CsvSt) (c : Char) : CsvSt :=
  match s.pos with
  | .record | .field =>
    if c = '"' then { s with pos := .quoted }
    else if c = ',' then s.endField
    else if c = '\n' then s.endRecord
    else s.put .plain c
  | .plain => if c = ',' then s.endField else if c = '\n' then s.endRecord else s.put .plain c
  | .quoted => if c = '"' then { s with pos := .quote } else s.put .quoted c
  | .quote =>
    if c = '"' then s.put .quoted c
    else if c = ',' then s.endField else if c = '\n' then s.endRecord else s.put .plain c

/-- The records of a text. -/
def csvRead (text : Str) : List (List Str) :=
  let s := text.foldl CsvSt.step {}
  if s.pos = .record then s.out else s.endRecord.out

/-- How a size and its difference are shown. -/
def shown (size diff : Int) (d : Bool) : Str :=
  if d then intStr size ++ ' ' :: (if diff = 0 then int6 diff else plus6 diff) else intStr size

/-- A name that the CSV output can carry: neither quotes nor markup. -/
def PlainName (s : Str) : Prop := NoMarkup s ∧ '"' ∉ s

end EspSize
