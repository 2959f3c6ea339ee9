import Verif.Model.Get
import Verif.Model.MapMsg
import Verif.Model.SymMsg
/-!
# The text of `MemMapException` of `memorymap.get`

For every `raise MemMapException` reached from `get`, what is raised.  The text of an exception of the operating system, or of a decoder, is a parameter.
-/
namespace EspSize

/-- The reasons. -/
inductive GetProblem where
  | unread                                     -- mapfile.py:34, memorymap.py:225
  | map (p : MapProblem)                       -- memorymap.py:225
  | target                                     -- memorymap.py:247
  | chip (target : Str)                        -- memorymap.py:1440
  | symbol (p : SymProblem)                    -- memorymap.py:1144,1171-1175
deriving DecidableEq, Repr

/-- `str(e)`; `reason` is `str` of the exception of the file that cannot be read. -/
def GetProblem.text (fn reason : Str) : GetProblem → Str
  | .unread => str "cannot read linker map file: " ++ reason
  | .map p => p.text fn
  | .target => str "cannot determine chip target"
  | .chip _ => str "cannot read memory types file: " ++ reason
  | .symbol p => p.text

/-- `map_file or mapfile.MapFile(map_fn)`, `memorymap.py:222-225`, `mapfile.py:20-36`. -/
def useProblem (w : World) (fn : Str) : Option MapFile → Option GetProblem
  | some _ => none
  | none => match w.lines fn with
    | .ok lines => (mapProblem lines).map .map
    | .error .osError => some .unread
    | .error .valueError => some .unread
    | .error _ => none

/-- `_get_memory_types`, `memorymap.py:1431-1440`. -/
def chipProblem (w : World) (t : Str) : Option GetProblem :=
  match w.chip (t ++ str ".yaml") with
  | .error .osError => some (.chip t)
  | .error .valueError => some (.chip t)
  | _ => none

/-- `_add_symbols_to_sections`, `memorymap.py:271-275`. -/
def symbolProblem (ls : Bool) (elf : Option ElfData) (sections : List OSec) : Option GetProblem :=
  match ls, elf with
  | true, some e => (symProblem e.syms (filterMapSections sections (elfHeaders (some e.shdrs)))).map .symbol
  | _, _ => none

/-- From the target to the symbols, `memorymap.py:242-278`. -/
def targetProblem (w : World) (ls : Bool) (fromDesc fromMap : Str) (elf : Option ElfData) (sections : List OSec) : Option GetProblem :=
  let t := if fromDesc = [] then fromMap else fromDesc
  if t = [] then some .target
  else match chipProblem w t with
    | some p => some p
    | none => match getMemoryTypes w t with
      | .error _ => none
      | .ok _ => symbolProblem ls elf sections

/-- The `MemMapException` of `memorymap.get`, `memorymap.py:187-278`; `none` if there is none. -/
def getProblem (w : World) (fn : Str) (ls : Bool) (ud : Option Bool) (mf : Option MapFile) : Option GetProblem :=
  match descTarget (getProjDesc w fn) with
  | .error _ => none
  | .ok t => match useProblem w fn mf with
    | some p => some p
    | none => match useMap w fn mf with
      | .error _ => none
      | .ok f => match warnInvalid f with
        | .error _ => none
        | .ok () => match getElf w fn (getProjDesc w fn) with
          | .error _ => none
          | .ok elf => match dwarfSections (wantDwarf w fn ud) (getProjDesc w fn) elf (f.sections.map toOSec) with
            | .error _ => none
            | .ok ss => targetProblem w ls t f.target elf ss

end EspSize
