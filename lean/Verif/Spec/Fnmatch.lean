import Verif.Py.Basic
/-! # Specification of shell-style patterns -/
namespace EspSize

/-- A range `lo-hi` stands at the beginning of a bracket expression. -/
def StartsRange (seq : Str) : Prop := ∃ lo hi t, seq = lo :: '-' :: hi :: t

/-- The character belongs to a bracket expression: to one of its ranges, or it is one of its other characters. -/
inductive SeqHas : Str → Char → Prop
  | range {lo hi c : Char} {t : Str} : lo ≤ c → c ≤ hi → SeqHas (lo :: '-' :: hi :: t) c
  | later {lo hi c : Char} {t : Str} : SeqHas t c → SeqHas (lo :: '-' :: hi :: t) c
  | char {c : Char} {t : Str} : ¬ StartsRange (c :: t) → SeqHas (c :: t) c
  | next {a c : Char} {t : Str} : ¬ StartsRange (a :: t) → SeqHas t c → SeqHas (a :: t) c

/-- After `[` a bracket expression is closed: `!` if negated, a sequence that is not empty, in which `]` can only be
first, and `]`. -/
structure Bracket (t : Str) (neg : Bool) (seq rest : Str) : Prop where
  text : t = (if neg then ['!'] else []) ++ seq ++ ']' :: rest
  nonempty : seq ≠ []
  closed : ']' ∉ seq.tail
  plain : neg = false → seq.head? ≠ some '!'

/-- Nothing but ranges without characters. -/
inductive NoRanges : Str → Prop
  | nil : NoRanges []
  | cons {lo hi : Char} {t : Str} : hi < lo → NoRanges t → NoRanges (lo :: '-' :: hi :: t)

/-- The first character behind empty ranges at the beginning is `!`, and not the beginning of an empty range itself: the library
removes the empty ranges first, and then takes the `!` for a negation. -/
structure Turned (seq t : Str) : Prop where
  text : ∃ e, e ≠ [] ∧ NoRanges e ∧ seq = e ++ '!' :: t
  range : ∀ hi u, t = '-' :: hi :: u → '!' ≤ hi

/-- The characters of such an expression behind the `!`; behind a range `!-b` that was taken apart `-` and `b` are among them. -/
inductive BangHas : Str → Char → Prop
  | plain {t : Str} {c : Char} : ¬ StartsRange ('!' :: t) → SeqHas t c → BangHas t c
  | dash {b : Char} {t : Str} : BangHas ('-' :: b :: t) '-'
  | last {b : Char} {t : Str} : BangHas ('-' :: b :: t) b
  | rest {b c : Char} {t : Str} : SeqHas t c → BangHas ('-' :: b :: t) c

/-- The whole name is matched by the pattern. -/
inductive GlobMatches : Str → Str → Prop
  | nil : GlobMatches [] []
  | star (u : Str) {p s : Str} : GlobMatches p s → GlobMatches ('*' :: p) (u ++ s)
  | any (c : Char) {p s : Str} : GlobMatches p s → GlobMatches ('?' :: p) (c :: s)
  | member {t seq p s : Str} {c : Char} : Bracket t false seq p → (∀ u, ¬ Turned seq u) → SeqHas seq c → GlobMatches p s →
      GlobMatches ('[' :: t) (c :: s)
  | other {t seq p s : Str} {c : Char} : Bracket t true seq p → ¬ SeqHas seq c → GlobMatches p s → GlobMatches ('[' :: t) (c :: s)
  | turned {t seq u p s : Str} {c : Char} : Bracket t false seq p → Turned seq u → ¬ BangHas u c → GlobMatches p s →
      GlobMatches ('[' :: t) (c :: s)
  | unclosed {t s : Str} : (∀ neg seq p, ¬ Bracket t neg seq p) → GlobMatches t s → GlobMatches ('[' :: t) ('[' :: s)
  | lit {c : Char} {p s : Str} : c ≠ '*' → c ≠ '?' → c ≠ '[' → GlobMatches p s → GlobMatches (c :: p) (c :: s)

/-- Some part of the name is matched by the pattern. -/
def MatchesPart (pattern name : Str) : Prop := ∃ u v w, name = u ++ v ++ w ∧ GlobMatches pattern v

/-- A pattern without special characters. -/
def Plain (p : Str) : Prop := ∀ c ∈ p, c ≠ '*' ∧ c ≠ '?' ∧ c ≠ '['

instance (p : Str) : Decidable (Plain p) := by unfold Plain; infer_instance

end EspSize
