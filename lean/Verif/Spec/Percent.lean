import Verif.Spec.MapRun
/-! # Percentages as numbers -/
namespace EspSize

/-- Decimal digits of a natural number, no leading zeros (except for zero itself). -/
def digitsOf (n : Nat) : Str := (Nat.toDigits 10 n)

/-- The text of a number with one or two digits behind the point, the last of two not being zero: `12.0`, `0.5`, `-3.75`. -/
inductive DecimalText : Str → Rat → Prop
  | one (n m : Nat) : m < 10 → DecimalText (digitsOf n ++ '.' :: digitsOf m) (n + m / 10)
  | two (n m k : Nat) : m < 10 → k < 10 → k ≠ 0 → DecimalText (digitsOf n ++ '.' :: (digitsOf m ++ digitsOf k)) (n + m / 10 + k / 100)
  | neg {s : Str} {v : Rat} : DecimalText s v → 0 ≤ v → DecimalText ('-' :: s) (-v)

/-- The text of a change: blanks, then the number, with `+` if it grows. -/
def ChangeText (s : Str) (v : Rat) : Prop :=
  ∃ k t, s = List.replicate k ' ' ++ (if 0 < v then '+' :: t else t) ∧ DecimalText t v

/-- The distance of two numbers is at most `d`. -/
def Near (d x y : Rat) : Prop := y - d ≤ x ∧ x ≤ y + d

/-- The share of `part` in `whole`, in percent; nothing if there is no whole. -/
def share (part whole : Int) : Rat := if whole = 0 then 0 else (part : Rat) / (whole : Rat) * 100

/-- The size of a number without its sign. -/
def absRat (q : Rat) : Rat := if 0 ≤ q then q else -q

/-- A cell that shows the share of `part` in `whole` up to half of the last of two digits, and a tiny relative error; in a
comparison also its change. -/
def ShowsShare (diff : Bool) (part partDiff whole wholeDiff : Int) (cell : List (Char × Option Str)) : Prop :=
  ∃ text v rest, cell = inStyle none text ++ rest ∧ DecimalText text v ∧
    Near (1 / 200 + absRat (share part whole) / 2 ^ 51) v (share part whole) ∧
    (if diff then ∃ change w, rest = inStyle (changeColour true w) (' ' :: change) ∧ ChangeText change w ∧
      Near (1 / 200 + (absRat (share part whole) + absRat (share (part - partDiff) (whole - wholeDiff))) / 2 ^ 50) w
        (share part whole - share (part - partDiff) (whole - wholeDiff))
     else rest = [])

/-- The percentages in the rows of the summary of the map `k`. -/
def SummaryShares (args : Args) (k : MemMap) (tab : Table) : Prop :=
  ∃ ts blocks, ts.Perm k.memoryTypes ∧ tab.rows = List.flatten blocks ∧
    All2 (fun (t : Str × MType) b => ∃ r rs ss, b = r :: rs ∧ List.Perm ss t.2.sections ∧
      (t.2.size ≠ 0 → ∃ c, r[2]? = some c ∧ ShowsShare (truthy args.diff) t.2.used t.2.usedDiff t.2.size t.2.sizeDiff (styled c)) ∧
      All2 (fun (s : Str × Sec) row => t.2.size ≠ 0 →
        ∃ c, row[2]? = some c ∧ ShowsShare (truthy args.diff) s.2.size s.2.sizeDiff t.2.size t.2.sizeDiff (styled c)) ss rs)
      ts blocks

end EspSize
