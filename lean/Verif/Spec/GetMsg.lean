import Verif.Model.GetMsg
import Verif.Spec.Get
import Verif.Spec.SymMsg
import Verif.Spec.MapMsg
/-! # What the messages of `memorymap.get` say -/
namespace EspSize

/-- The project description names a target. -/
def DescNames (w : World) (fn t : Str) : Prop := t ≠ [] ∧ ∃ d, getProjDesc w fn = some d ∧ d.target = some t

/-- What has to be so for a message to be true: the link map file cannot be read; it has this problem; neither the description nor the file names a target;
there is no table for the target they name; the symbols of the ELF file have this problem. -/
def Cause (w : World) (fn : Str) (ud : Option Bool) (mf : Option MapFile) : GetProblem → Prop
  | .unread => mf = none ∧ (w.lines fn = .error .osError ∨ w.lines fn = .error .valueError)
  | .map p => mf = none ∧ ∃ lines, w.lines fn = .ok lines ∧ mapProblem lines = some p
  | .target => (∃ f, UsesMap w fn mf f ∧ f.target = []) ∧ ¬ ∃ t, DescNames w fn t
  | .chip t => (∃ f, UsesMap w fn mf f ∧ (DescNames w fn t ∨ (¬ ∃ t', DescNames w fn t') ∧ f.target = t ∧ t ≠ [])) ∧
      (w.chip (t ++ str ".yaml") = .error .osError ∨ w.chip (t ++ str ".yaml") = .error .valueError)
  | .symbol p => ∃ l e, load w fn ud mf = .ok l ∧ l.elf = some e ∧
      symProblem e.syms (filterMapSections l.sections (elfHeaders (some e.shdrs))) = some p

/-- Which kind of problem. -/
def GetProblem.kind : GetProblem → Nat
  | .unread => 0
  | .map _ => 1
  | .target => 2
  | .chip _ => 3
  | .symbol _ => 4

/-- What is put into the message does not look like markup. -/
def GetProblem.plain (fn reason : Str) : GetProblem → Prop
  | .unread => NoMarkup reason
  | .map (.line _ l _) => NoMarkup l ∧ NoMarkup fn
  | .map .config => NoMarkup fn
  | .map .script => True
  | .target => True
  | .chip _ => NoMarkup reason
  | .symbol p => p.plain

end EspSize
