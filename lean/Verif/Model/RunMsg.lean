import Verif.Model.GetMsg
import Verif.Model.Run
/-!
# The text of the exception that ends a run

`/repo/esp_idf_size/main.py:118-126,159-160`: the project and what is wrong with it.  A `MapFileException` for the first project is not wrapped; its text is
the same.
-/
namespace EspSize

/-- The project that is refused and why; `args` are the effective options. -/
def runProblem (R : RunIn) (input : Str) (args : Args) : Option (Str × GetProblem) :=
  match useProblem R.w input none with
  | some p => some (input, p)
  | none => match loadMap R.w input with
    | .error _ => none
    | .ok mf => match getElf R.w input none with
      | .error _ => none
      | .ok elf => match getProblem R.w input (loadSymbolsOf args) (useDwarfOf args) (some mf) with
        | some p => some (input, p)
        | none => match getMap R.n R.w input (loadSymbolsOf args) (useDwarfOf args) (some mf) elf, args.diff with
          | some (.ok _), some (c :: fn) => (getProblem R.w (c :: fn) (loadSymbolsOf args) (useDwarfOf args) none).map fun p => (c :: fn, p)
          | _, _ => none

end EspSize
