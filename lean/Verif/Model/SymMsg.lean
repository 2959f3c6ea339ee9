import Verif.Model.MapFile
import Verif.Model.Dwarf
import Verif.Py.Fmt
/-!
# The texts about sections and symbols

The exceptions raised by `validate` and by `_add_symbols_to_sections`, with what is in them.
-/
namespace EspSize

/-- The name of the input section, its address, the address that was expected, `mapfile.py:397-403`. -/
abbrev Misplaced := Str × Int × Int

/-- The text, `mapfile.py:397-402`. -/
def misplacedText (p : Misplaced) : Str :=
  str "Input section " ++ p.1 ++ str " at " ++ hexNum p.2.1 ++ str " is not at expected address " ++ hexNum p.2.2 ++
    str ". This signals error in the linker map parser. Please consider filing a bug report with the linker map file attached."

/-- The loop over the input sections of an output section, `mapfile.py:393-405`. -/
def misplacedInput (start : Option Int) : List PSec → Int → Option Misplaced
  | [], _ => none
  | i :: is, offset =>
    if !truthyInt i.size then misplacedInput start is offset
    else match start, i.address, i.size with
      | some s, some a, some z =>
        if s + offset ≠ a then some (i.name, a, s + offset) else misplacedInput start is (offset + (z + i.fill))
      | _, _, _ => none

/-- `_validate_sections`, `mapfile.py:385-405`: the first `MapFileException`. -/
def misplaced : List POut → Option Misplaced
  | [] => none
  | o :: os =>
    match o.inputs with
    | [] => misplaced os
    | i :: _ => match validateInputs i.address o.inputs 0 with
      | .ok () => misplaced os
      | .error _ => misplacedInput i.address o.inputs 0

/-- The two reasons of `_add_symbols_to_sections`. -/
inductive SymProblem where
  | lost (y : ElfSym)                          -- memorymap.py:1144
  | unfit (y : ElfSym) (i : ISec)              -- memorymap.py:1171-1175
deriving DecidableEq, Repr

/-- `str(e)`. -/
def SymProblem.text : SymProblem → Str
  | .lost y => str "cannot find input section for symbol " ++ y.name ++ str "(" ++ intStr y.value ++ str ")"
  | .unfit y i => str "symbol name: " ++ y.name ++ str ", addr: " ++ intStr y.value ++ str ", size: " ++ intStr y.size ++
      str " does not fit into input section name: " ++ i.name ++ str ", addr: " ++ intStr i.address ++ str ", size: " ++ intStr i.size

/-- The inner loop, `memorymap.py:1141-1166`, without the symbols. -/
def seekSec (addr : Int) (cur : ISec) : List ISec → Option (ISec × List ISec)
  | [] => if addr ≥ cur.address + cur.size then none else some (cur, [])
  | n :: rest => if addr ≥ cur.address + cur.size then seekSec addr n rest else some (cur, n :: rest)

/-- The loop over the symbols, `memorymap.py:1137-1175`. -/
def sweepProblem : List ElfSym → ISec → List ISec → Option SymProblem
  | [], _, _ => none
  | y :: ys, cur, rest =>
    match seekSec y.value cur rest with
    | none => some (.lost y)
    | some (c, r) => if y.value + y.size > c.address + c.size then some (.unfit y c) else sweepProblem ys c r

/-- The `MemMapException` of `_add_symbols_to_sections`, `memorymap.py:1105-1194`. -/
def symProblem (syms : List ElfSym) (osecs : List OSec) : Option SymProblem :=
  match sortedBy ISec.address false (osecs.flatMap (·.inputs)) with
  | [] => none
  | s :: rest => sweepProblem (sweepSymbols syms) s rest

end EspSize
