import Verif.Py.Basic
/-!
# `fnmatch.fnmatch` (POSIX)

The standard library translates the pattern into a regular expression.  Here the pattern is compiled into
tokens with the same grammar and the tokens are matched against the whole name.  `os.path.normcase` is the
identity on POSIX.  The translation is that of CPython 3.11 and 3.12, which removes empty ranges before it looks for `!`: `[b-a!x]` is
`[!x]`, and in `[b-a!-z]` the `!` is not the beginning of a range any more.
-/
namespace EspSize

/-- One element of a bracket expression: the characters from `lo` to `hi` (empty if `hi < lo`). -/
structure Span where
  lo : Char
  hi : Char
deriving DecidableEq, Repr

/-- Token of a pattern. -/
inductive Tok where
  | lit (c : Char)
  | any                                    -- `?`
  | star                                   -- `*`
  | set (neg : Bool) (spans : List Span)   -- `[seq]`, `[!seq]`
deriving DecidableEq, Repr

/-- The contents of a bracket expression after `!`. -/
def spansOf : Str → List Span
  | a :: '-' :: b :: t => ⟨a, b⟩ :: spansOf t
  | a :: t => ⟨a, a⟩ :: spansOf t
  | [] => []

/-- The sequence of a bracket expression up to the closing `]`, and the rest of the pattern. -/
def cutClose (first s : Str) : Option (Str × Str) :=
  match s.dropWhile (· ≠ ']') with
  | [] => none
  | _ :: rest => some (first ++ s.takeWhile (· ≠ ']'), rest)

/-- A `]` directly at the beginning does not close the expression. -/
def cutSeq : Str → Option (Str × Str)
  | ']' :: t => cutClose [']'] t
  | s => cutClose [] s

/-- `[` was read: negation, sequence and rest.  `none` if there is no closing `]`: then `[` is a literal. -/
def cutBracket : Str → Option (Bool × Str × Str)
  | '!' :: t => (cutSeq t).map fun p => (true, p)
  | s => (cutSeq s).map fun p => (false, p)

theorem cutClose_length {f s x r : Str} (h : cutClose f s = some (x, r)) : r.length < s.length := by
  have hd : (s.dropWhile (· ≠ ']')).length ≤ s.length := (s.dropWhile_sublist _).length_le
  unfold cutClose at h
  split at h
  · cases h
  · rename_i e
    rw [e] at hd
    simp only [Option.some.injEq, Prod.mk.injEq] at h
    simp only [List.length_cons] at hd
    rw [← h.2]; omega

theorem cutSeq_length {s x r : Str} (h : cutSeq s = some (x, r)) : r.length < s.length := by
  unfold cutSeq at h
  split at h
  · have := cutClose_length h
    simp only [List.length_cons]; omega
  · exact cutClose_length h

theorem cutBracket_length {s : Str} {b : Bool} {x r : Str} (h : cutBracket s = some (b, x, r)) :
    r.length < s.length := by
  unfold cutBracket at h
  split at h <;> simp only [Option.map_eq_some_iff, Prod.mk.injEq] at h <;> obtain ⟨p, hp, _, hx⟩ := h <;>
    subst hx <;> have := cutSeq_length hp
  · simp only [List.length_cons]; omega
  · exact this

/-- The sequence without the empty ranges it begins with. -/
def dropRanges : Str → Str
  | a :: '-' :: b :: t => if b < a then dropRanges t else a :: '-' :: b :: t
  | s => s

/-- The contents behind a `!` that was at the beginning of a range or alone. -/
def bangSpans : Str → List Span
  | '-' :: b :: t => ⟨'-', '-'⟩ :: ⟨b, b⟩ :: spansOf t
  | t => spansOf t

/-- The token of a bracket expression. -/
def setTok (neg : Bool) (x : Str) : Tok :=
  if neg then .set true (spansOf x)
  else match dropRanges x with
    | '!' :: t => .set true (bangSpans t)
    | _ => .set false (spansOf x)

/-- The tokens of a pattern (`fnmatch.translate`). -/
def compile : Str → List Tok
  | [] => []
  | '*' :: t => .star :: compile t
  | '?' :: t => .any :: compile t
  | '[' :: t =>
    match h : cutBracket t with
    | none => .lit '[' :: compile t
    | some (neg, x, r) =>
      have := cutBracket_length h
      setTok neg x :: compile r
  | c :: t => .lit c :: compile t
termination_by s => s.length

/-- Does the token, other than `*`, match the character? -/
def Tok.accepts (c : Char) : Tok → Bool
  | .lit d => c = d
  | .any => true
  | .star => false
  | .set neg spans => (spans.any fun s => decide (s.lo ≤ c ∧ c ≤ s.hi)) != neg

/-- The whole name matches the tokens. -/
def tokMatch : List Tok → Str → Bool
  | [], s => s.isEmpty
  | .star :: ts, [] => tokMatch ts []
  | .star :: ts, c :: s => tokMatch ts (c :: s) || tokMatch (.star :: ts) s
  | _ :: _, [] => false
  | t :: ts, c :: s => t.accepts c && tokMatch ts s
termination_by ts s => ts.length + s.length

/-- `fnmatch(name, pat)`. -/
def fnmatch (name pat : Str) : Bool := tokMatch (compile pat) name

end EspSize
