import Verif.Model.Csv
import Verif.Model.Elf
/-! # Names of constants, listings of sections and symbols -/
namespace EspSize

/-- The name of code `n`: the names of all constants with this value, separated by `/`, the common prefix kept or dropped. -/
def constName (pre : Str) (consts : List (String × Nat)) (n : Nat) : Option Str :=
  match (consts.filter fun c => Nat.beq c.2 n).map fun c => pre ++ str c.1 with
  | [] => none
  | l => some (joinWith ['/'] l)

/-- The code of no constant is shown as a number. -/
def nameShown (pre : Str) (consts : List (String × Nat)) (n : Nat) : Str := (constName pre consts n).getD (str "UNKNOWN " ++ intStr n)

end EspSize
