import Verif.Py.Bytes
import Verif.Py.Json
import Verif.Model.Csv
import Verif.Model.Json
import Verif.Model.Run
/-!
# The bytes of the output file

`/repo/esp_idf_size/main.py:52-71,154-158`.  The encoding of the locale is a parameter, as is the separator of lines that text mode
writes for `\n`.  What `rich` draws for tables and trees is a parameter.
-/
namespace EspSize

/-- An encoding: the bytes of a character, `none` if it has none. -/
abbrev Codec := Char → Option Bytes

def utf8Codec : Codec := fun c => some (String.utf8EncodeChar c)

/-- A character whose number is a byte below `n`. -/
def byteCodec (n : Nat) : Codec := fun c => if c.toNat < n then some [c.toNat.toUInt8] else none

def asciiCodec : Codec := byteCodec 128
def latin1Codec : Codec := byteCodec 256

/-- The last `n` hexadecimal digits of a number. -/
def hexTail : Nat → Nat → Str
  | 0, _ => []
  | n + 1, x => hexTail n (x / 16) ++ [hexChar (x % 16)]

/-- `codecs.backslashreplace_errors` for one character. -/
def backslashReplace (c : Char) : Str :=
  if c.toNat < 0x100 then '\\' :: 'x' :: hexTail 2 c.toNat
  else if c.toNat < 0x10000 then '\\' :: 'u' :: hexTail 4 c.toNat
  else '\\' :: 'U' :: hexTail 8 c.toNat

/-- Strict encoding; `UnicodeEncodeError` is a `ValueError`. -/
def encodeStrict (k : Codec) : Str → Except Err Bytes
  | [] => .ok []
  | c :: s => match k c with
    | some b => do .ok (b ++ (← encodeStrict k s))
    | none => .error .valueError

/-- `data.encode(encoding, errors='backslashreplace')`: the replacement is encoded like the text. -/
def encodeText (k : Codec) : Str → Except Err Bytes
  | [] => .ok []
  | c :: s => do
    let b ← match k c with
      | some b => .ok b
      | none => encodeStrict k (backslashReplace c)
    .ok (b ++ (← encodeText k s))

/-- Text mode: `\n` is written as the separator of lines. -/
def textMode (sep : Str) (s : Str) : Str := s.flatMap fun c => if c = '\n' then sep else [c]

/-- The value given to `json.dumps`, `format_json.py:13-60`, `format_raw.py:11-16`. -/
def Report.json : Report → Option Json
  | .summary s => some (summaryJson s)
  | .entries e => some (entriesJson e)
  | .deps d => some (depsJson d)
  | .raw m => some (mapJson m)
  | _ => none

/-- The text of a report in the buffer; `drawn` is what `rich` draws. -/
def Report.text (drawn : Report → Str) (r : Report) : Str :=
  match r.json with
  | some v => render (jsonDumps v) ++ ['\n']
  | none => match r with
    | .csv lines => printed lines
    | .dot lines => printed [joinWith ['\n'] lines]
    | r => drawn r

/-- The bytes `path.write_text` writes. -/
def Report.bytes (k : Codec) (sep : Str) (drawn : Report → Str) (r : Report) : Except Err Bytes :=
  encodeText k (textMode sep (r.text drawn))

/-- How writing goes when the text cannot be encoded: the file has been opened by then. -/
def Writing.encoded (wr : Writing) : Except Err Bytes → Writing
  | .ok _ => wr
  | .error e => match wr with
    | .mkdir x => .mkdir x
    | .opening x => .opening x
    | _ => .bytes 0 e

/-- `_run` with `--output-file`: the report, its bytes, the file. -/
def runToFile (R : RunIn) (input : Str) (args : Args) (k : Codec) (sep : Str) (drawn : Report → Str) (wr : Writing) (fs : Files) :
    Option (Files × Except Err Unit) :=
  match makeReport R input args with
  | none => none
  | some (.error e) => some (finishRun (.error e) none (fun _ => []) wr fs args)
  | some (.ok r) =>
    let b := r.bytes k sep drawn
    some (finishRun (.ok r) none (fun _ => b.toOption.getD []) (wr.encoded b) fs args)

end EspSize
