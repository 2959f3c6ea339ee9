/-!
# Python run-time pieces: strings, exceptions

Strings are lists of characters.  Only what the modelled code uses is defined.
-/
namespace EspSize

/-- Python `str`. -/
abbrev Str := List Char

/-- String literals of the model. -/
def str (s : String) : Str := s.toList

/-- The exceptions that can escape from the modelled code.  `exit` is `log.die`, which raises
`SystemExit` (`/repo/esp_idf_size/log.py:23-24`, `/repo/esp_idf_size/main.py:159-162`).
Exception messages are not modelled. -/
inductive Err where
  | mapFile      -- mapfile.MapFileException
  | memMap       -- memorymap.MemMapException
  | elf          -- elf.Elf_Exception
  | valueError
  | typeError
  | nameError
  | indexError
  | keyError
  | attributeError
  | structError
  | assertion
  | osError
  | unicode      -- UnicodeError other than those that are `valueError`
  | interrupt    -- KeyboardInterrupt
  | exit         -- SystemExit raised by log.die
deriving DecidableEq, Repr

deriving instance DecidableEq for Except

/-- Python `s.startswith(p)`. -/
def startsWith (s p : Str) : Bool := p.isPrefixOf s

/-- Python `s.startswith((p1, p2, ...))`. -/
def startsWithAny (s : Str) (ps : List Str) : Bool := ps.any (startsWith s)

/-- Python `s.endswith(p)`. -/
def endsWith (s p : Str) : Bool := p.isSuffixOf s

/-- Python `s.endswith((p1, p2, ...))`. -/
def endsWithAny (s : Str) (ps : List Str) : Bool := ps.any (endsWith s)

/-- Python `p in s` for strings. -/
def contains (p : Str) : Str → Bool
  | [] => p.isEmpty
  | c :: s => p.isPrefixOf (c :: s) || contains p s

/-- Python `s.lower()` on ASCII letters.  (Simplification: other characters are unchanged.) -/
def lower (s : Str) : Str := s.map fun c => if 'A' ≤ c ∧ c ≤ 'Z' then Char.ofNat (c.toNat + 32) else c

/-- Python `sep.join(parts)`. -/
def join (sep : Str) : List Str → Str
  | [] => []
  | [s] => s
  | s :: t => s ++ sep ++ join sep t

theorem startsWith_iff {s p : Str} : startsWith s p = true ↔ p <+: s := by
  simp [startsWith]

theorem endsWith_iff {s p : Str} : endsWith s p = true ↔ p <:+ s := by
  simp [endsWith]

theorem contains_iff {p s : Str} : contains p s = true ↔ p <:+: s := by
  induction s with
  | nil => simp [contains]
  | cons c s ih =>
    simp only [contains, Bool.or_eq_true, List.isPrefixOf_iff_prefix, ih]
    constructor
    · rintro (h | h)
      · exact h.isInfix
      · exact List.infix_cons h
    · intro h
      rcases List.infix_cons_iff.mp h with h | h
      · exact Or.inl h
      · exact Or.inr h

end EspSize
