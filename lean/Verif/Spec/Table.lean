import Verif.Model.Table
import Verif.Spec.Tree
import Verif.Spec.Sort
/-! # Specification of the detailed tables -/
namespace EspSize

/-- A column with sizes: the total, a memory type, a section of a memory type. -/
inductive Col where
  | total
  | type (t : Str)
  | sec (t s : Str)
deriving DecidableEq, Repr

/-- The columns of a table about the memory map: the total, then every memory type followed by its sections. -/
def reportCols (m : MemMap) : List Col :=
  .total :: m.memoryTypes.flatMap fun t => .type t.1 :: t.2.sections.map fun s => .sec t.1 s.1

/-- The title of a column. -/
def colTitle (m : MemMap) (abbreviate : Bool) : Col → Str
  | .total => str "Total Size"
  | .type t => t
  | .sec t s => if abbreviate then (match getSec m t s with | some x => x.abb | none => s) else s

/-- Size and difference of an entry in a column. -/
def cellOf (e : Entry) : Col → Option (Int × Int)
  | .total => some (e.size, e.sizeDiff)
  | .type t => (dget e.types t).map fun x => (x.size, x.sizeDiff)
  | .sec t s => (dget e.types t).bind fun x => (dget x.sections s).map fun y => (y.size, y.sizeDiff)

/-- The number to sort by. -/
def cellKey (args : Args) (c : Col) (e : Entry) : Int :=
  match cellOf e c with
  | some (z, d) => if args.sortDiff then d else z
  | none => 0

/-- The row printed for an entry. -/
def RowFor (m : MemMap) (args : Args) (p : Str × Entry) (row : List Str) : Prop :=
  ∃ cells, row = (if args.abbrev_ then p.2.abb else p.1) :: cells ∧
    All2 (fun c cell => ∃ z d, cellOf p.2 c = some (z, d) ∧ cell = colorDiff z d (truthy args.diff))
      (reportCols m) cells

/-- The option `--sort` selects column `i` of `cols`: by its number counted from 1, by a negative number counted
from the end, or by its title when the text is not a number; `first` is the title of the column of names. -/
def Selects (first : Str) (cols : List Str) (sort : Str) (i : Nat) : Prop :=
  i < cols.length ∧
    ((∃ k, pyInt10 sort = some k ∧ (k = i + 1 ∨ k = (i : Int) - cols.length)) ∨
     (pyInt10 sort = none ∧ sort ≠ first ∧ cols[i]? = some sort ∧ sort ∉ cols.take i))

/-- The memory types of a summary entry have the keys and abbreviated names of the memory map. -/
def Skeleton (m : MemMap) (e : Entry) : Prop :=
  All2 (fun (t : Str × MType) (x : Str × SType) => x.1 = t.1 ∧
    All2 (fun (s : Str × Sec) (y : Str × SSec) => y.1 = s.1 ∧ y.2.abb = s.2.abb) t.2.sections x.2.sections)
    m.memoryTypes e.types

end EspSize
