import Verif.Model.SummaryTable
import Verif.Spec.Table
/-! # Specification of the summary table and the JSON summary -/
namespace EspSize

/-- The columns with numbers and their titles. -/
def sumColTitles : List Str := [str "Used [bytes]", str "Used [%]", str "Remain [bytes]", str "Total [bytes]"]

/-- `used` in percent of `size`, as computed with floats; nothing of nothing is 0. -/
def percent (F : FloatOps) (used size : Int) : Rat :=
  if size = 0 then 0 else F.rnd (F.rnd ((used : Rat) / (size : Rat)) * 100)

/-- Change of the percentage; of nothing to `now`, it is `now`. -/
def percentChange (F : FloatOps) (used usedDiff size sizeDiff : Int) : Rat :=
  if size - sizeDiff = 0 then percent F used size
  else F.rnd (percent F used size - percent F (used - usedDiff) (size - sizeDiff))

/-- The value of a memory type in column `i`, or its change. -/
def typeValue (F : FloatOps) (diff : Bool) (i : Nat) (t : MType) : Rat :=
  match i, diff with
  | 0, false => t.used
  | 0, true => t.usedDiff
  | 1, false => percent F t.used t.size
  | 1, true => percentChange F t.used t.usedDiff t.size t.sizeDiff
  | 2, false => if t.size = 0 then 0 else (t.size - t.used : Int)
  | 2, true => (t.sizeDiff - t.usedDiff : Int)
  | _, false => t.size
  | _, true => t.sizeDiff

/-- The value of a section of memory type `t` in column `i`, or its change; sections have no limit. -/
def secValue (F : FloatOps) (diff : Bool) (i : Nat) (t : MType) (s : Sec) : Rat :=
  match i, diff with
  | 0, false => s.size
  | 0, true => s.sizeDiff
  | 1, false => percent F s.size t.size
  | 1, true => percentChange F s.size s.sizeDiff t.size t.sizeDiff
  | _, _ => 0

/-- A list ordered by a value, ascending or descending. -/
def OrderedBy {α : Type} (v : α → Rat) (rev : Bool) (l : List α) : Prop :=
  l.Pairwise fun x y => if rev then v y ≤ v x else v x ≤ v y

/-- The rows of a memory type and its sections `ss`. -/
def blockOf (F : FloatOps) (args : Args) (t : Str × MType) (ss : Dict Str Sec) : List (List Str) :=
  typeRow F args t :: ss.map (secRow F args t.2)

/-- The rows `rows` of a table about `types`: the memory types in an order `ts`, each followed by its sections
in some order. -/
def Rows (F : FloatOps) (args : Args) (Ot : Dict Str MType → Dict Str MType → Prop)
    (Os : MType → Dict Str Sec → Dict Str Sec → Prop) (types : Dict Str MType) (rows : List (List Str)) : Prop :=
  ∃ (ts : Dict Str MType) (blocks : List (List (List Str))), Ot types ts ∧
    All2 (fun t b => ∃ ss, Os t.2 t.2.sections ss ∧ b = blockOf F args t ss) ts blocks ∧ rows = blocks.flatten

end EspSize
