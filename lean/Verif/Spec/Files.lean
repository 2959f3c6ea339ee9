import Verif.Py.Split
/-!
# Text files
-/
namespace EspSize

/-- A text with these lines, each ended by one of `ends`; the end of the last line may be missing. -/
inductive LinesText (ends : List Str) : List Str → Str → Prop
  | nil : LinesText ends [] []
  | last {l : Str} : l ≠ [] → LinesText ends [l] l
  | cons {l e t : Str} {ls : List Str} : e ∈ ends → LinesText ends ls t → LinesText ends (l :: ls) (l ++ e ++ t)

/-- The ends of lines of Unix and Windows, which may be mixed, or those of old Macintosh computers. -/
def LinesOf (ls : List Str) (t : Str) : Prop := LinesText [['\n'], ['\r', '\n']] ls t ∨ LinesText [['\r']] ls t

/-- Lines that are all ended, each by one of `ends`. -/
inductive Ended (ends : List Str) : List Str → Str → Prop
  | nil : Ended ends [] []
  | cons {l e t : Str} {ls : List Str} : e ∈ ends → Ended ends ls t → Ended ends (l :: ls) (l ++ e ++ t)

/-- The text of ended lines, with Unix and Windows ends or with Macintosh ends, and a rest that is not ended. -/
def TextOf (ls : List Str) (rest t : Str) : Prop := ∃ u, (Ended [['\n'], ['\r', '\n']] ls u ∨ Ended [['\r']] ls u) ∧ t = u ++ rest

/-- No character at which Python ends a line: line feed, vertical tabulator, form feed, carriage return, the separators of files, groups and
records, next line, line separator, paragraph separator. -/
def OneLine (l : Str) : Prop := ∀ c ∈ l, c.toNat ∉ [0x0A, 0x0B, 0x0C, 0x0D, 0x1C, 0x1D, 0x1E, 0x85, 0x2028, 0x2029]

/-- The bytes of a text in UTF-8. -/
def utf8 (s : Str) : List UInt8 := s.flatMap String.utf8EncodeChar

end EspSize
