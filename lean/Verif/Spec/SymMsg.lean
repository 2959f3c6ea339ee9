import Verif.Model.SymMsg
import Verif.Spec.Symbols
import Verif.Spec.Markup
/-! # What the messages about symbols say -/
namespace EspSize

/-- The problem is about the symbol `y`: all input sections end at or before its address, or it does not end in the first one, in the order of addresses,
that ends behind its address. -/
def Blames (order : List ISec) (y : ElfSym) : SymProblem → Prop
  | .lost z => z = y ∧ ∀ i ∈ order, i.stop ≤ y.value
  | .unfit z i => z = y ∧ ∃ a b, order = a ++ i :: b ∧ (∀ q ∈ a, q.stop ≤ y.value) ∧ y.value < i.stop ∧ i.stop < y.value + y.size

/-- The names in the message do not look like markup. -/
def SymProblem.plain : SymProblem → Prop
  | .lost y => NoMarkup y.name
  | .unfit y i => NoMarkup y.name ∧ NoMarkup i.name

/-- A text that names the section, its address and the expected address. -/
def SaysMisplaced (name : Str) (addr expected : Int) (text : Str) : Prop :=
  ∃ more, text = str "Input section " ++ (name ++ (str " at " ++ (hexNum addr ++ (str " is not at expected address " ++ (hexNum expected ++ ('.' :: more))))))

/-- A text that names the symbol with its address, and the section into which it does not fit with all numbers. -/
def SaysSymbol (text : Str) : SymProblem → Prop
  | .lost y => text = str "cannot find input section for symbol " ++ (y.name ++ ('(' :: (intStr y.value ++ [')'])))
  | .unfit y i => text = str "symbol name: " ++ (y.name ++ (str ", addr: " ++ (intStr y.value ++ (str ", size: " ++ (intStr y.size ++
      (str " does not fit into input section name: " ++ (i.name ++ (str ", addr: " ++ (intStr i.address ++ (str ", size: " ++ intStr i.size))))))))))

end EspSize
