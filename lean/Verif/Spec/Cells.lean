import Verif.Py.Style
import Verif.Spec.SummaryTable
import Verif.Spec.Csv
/-! # What the cells of tables show, with colours -/
namespace EspSize

/-- The colour of a change, if it is good or bad to grow. -/
def changeColour (growthIsBad : Bool) (change : Rat) : Option Str :=
  if change = 0 then none else if (decide (0 < change)) = growthIsBad then some (str "red") else some (str "green")

/-- A number and, in a comparison, its change in a field of six characters, with sign. -/
def numberCell (growthIsBad diff : Bool) (size change : Int) : List (Char × Option Str) :=
  inStyle none (intStr size) ++
    if diff then inStyle (changeColour growthIsBad change) (' ' :: if change = 0 then int6 change else plus6 change) else []

/-- The same for percentages rounded to two digits. -/
def percentCell (F : FloatOps) (diff : Bool) (p change : Rat) : List (Char × Option Str) :=
  inStyle none (F.show2 p) ++
    if diff then inStyle (changeColour true (F.round2 change)) (' ' :: if F.round2 change = 0 then F.pad2 change else F.plus2 change) else []

/-- The numbers in the row of a memory type: bytes used, percentage used, bytes that remain, total size; the last three are
empty for memory types without limit. -/
def typeCells (F : FloatOps) (diff : Bool) (t : MType) : List (List (Char × Option Str)) :=
  [numberCell true diff t.used t.usedDiff,
   if t.size = 0 then [] else percentCell F diff (percent F t.used t.size) (percentChange F t.used t.usedDiff t.size t.sizeDiff),
   if t.size = 0 then [] else numberCell false diff (t.size - t.used) (t.sizeDiff - t.usedDiff),
   if t.size = 0 then [] else numberCell false diff t.size t.sizeDiff]

/-- The numbers in the row of a section of memory type `t`. -/
def sectionCells (F : FloatOps) (diff : Bool) (t : MType) (s : Sec) : List (List (Char × Option Str)) :=
  [numberCell true diff s.size s.sizeDiff,
   if t.size = 0 then [] else percentCell F diff (percent F s.size t.size) (percentChange F s.size s.sizeDiff t.size t.sizeDiff), [], []]

/-- The row shows the name and the cells. -/
def RowShows (name : Str) (cells : List (List (Char × Option Str))) (row : List Str) : Prop :=
  ∃ c cs, row = c :: cs ∧ (¬ HasTag name → ¬ HasEscape name → styled c = inStyle none name) ∧ cs.map styled = cells

/-- Formatted numbers are no markup. -/
structure FloatOps.Plain (F : FloatOps) : Prop where
  show2 : ∀ x, ∀ c ∈ F.show2 x, c ≠ '[' ∧ c ≠ '\\'
  plus2 : ∀ x, ∀ c ∈ F.plus2 x, c ≠ '[' ∧ c ≠ '\\'
  pad2 : ∀ x, ∀ c ∈ F.pad2 x, c ≠ '[' ∧ c ≠ '\\'

end EspSize
