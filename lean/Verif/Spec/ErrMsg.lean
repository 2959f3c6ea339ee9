import Verif.Model.ErrMsg
import Verif.Spec.Get
import Verif.Spec.Markup
/-! # What the reported errors say -/
namespace EspSize

/-- A line of the cross reference table that begins with a symbol. -/
def EntryLine (l : Str) : Prop := l ≠ [] ∧ ¬ str " " <+: l ∧ ¬ str "\t" <+: l

/-- The line is the first one behind a header that has a symbol without its definition. -/
def FirstWithout (lines : List Str) (l : Str) : Prop :=
  ∃ a h b c, lines = a ++ h :: b ++ l :: c ∧ str "Symbol" <+: h ∧ EntryLine l ∧ (split l).length < 2 ∧
    ∀ x ∈ b, crossRef <+: x ∨ x ≠ [] ∧ (EntryLine x → 2 ≤ (split x).length)

/-- The ELF file that a project description names: `app` in the directory of the map file. -/
def DescElf (w : World) (fn path : Str) : Prop := ∃ d app, getProjDesc w fn = some d ∧ d.appElf = some app ∧ path = pathJoin (dirname fn) app

/-- Without the file at a path. -/
def World.without (w : World) (path : Str) : World := { w with elf := fun p => if p = path then none else w.elf p }

/-- What is put into the message does not look like markup. -/
def ErrProblem.plain (reason : Str) : ErrProblem → Prop
  | .entry l => NoMarkup l
  | .elfRead fn => NoMarkup fn ∧ NoMarkup reason
  | .elfParse fn => NoMarkup fn ∧ NoMarkup reason

end EspSize
