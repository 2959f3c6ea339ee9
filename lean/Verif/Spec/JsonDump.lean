import Verif.Py.Json
import Verif.Py.JsonLoad
/-! # Values written and read -/
namespace EspSize

mutual
/-- The value written, in the type of values read. -/
def Json.loaded : Json → JVal
  | .int i => .int i
  | .str s => .str s
  | .arr l => .arr (loadedItems l)
  | .obj l => .obj (loadedMembers l)
def loadedItems : List Json → List JVal
  | [] => []
  | x :: t => x.loaded :: loadedItems t
def loadedMembers : List (Str × Json) → List (Str × JVal)
  | [] => []
  | x :: t => loadedPair x :: loadedMembers t
def loadedPair : Str × Json → Str × JVal
  | (k, x) => (k, x.loaded)
end

end EspSize
