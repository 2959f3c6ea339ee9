import Verif.Model.Sections
import Verif.Py.PurePath
/-!
# Expansion of input sections without archive

`_expand_input_sections`, `/repo/esp_idf_size/memorymap.py:1281-1428`.
-/
namespace EspSize

/-- A symbol of `elf.add_cus_to_symbols()` (`elf.py:2139-2198`), with the compilation unit name if one was
found. -/
structure CuSym where
  name : Str
  value : Int
  size : Int
  cuName : Option Str
deriving DecidableEq, Repr

/-- A component of `proj_desc['build_component_info']`. -/
structure Comp where
  dir : Str
  file : Str
deriving DecidableEq, Repr

/-- A symbol with archive, used to make new input sections. -/
structure XSym where
  addr : Int            -- key in the dictionary
  name : Str
  value : Int
  size : Int
  archive : Str
  objectFile : Str
deriving DecidableEq, Repr

/-- The components that have an archive, with its path, longest directory first,
`memorymap.py:1323-1333`. -/
def sortedComponents (build : Str) (comps : List Comp) : Except Err (List (Str × Str)) := do
  let l ← (comps.filter fun c => !c.file.isEmpty).mapM fun c => do
    let rel ← relativeTo c.file build
    .ok (asPosix c.dir, rel)
  .ok (sortedBy (fun p => (p.1.length : Int)) true l)

/-- `find_symbol_component`, `memorymap.py:1294-1303`. -/
def findComponent (comps : List (Str × Str)) (cuPath : Str) : Option (Str × Str) :=
  comps.find? fun c => startsWith cuPath c.1

/-- The symbols with size, compilation unit and archive, sorted by address, `memorymap.py:1320-1348`. -/
def expandSymbols (build : Str) (comps : List Comp) (syms : Dict Int CuSym) : Except Err (List XSym) := do
  let cs ← sortedComponents build comps
  let l := syms.filterMap fun p =>
    match p.2.cuName with
    | none => none
    | some cu =>
      if p.2.size = 0 ∨ cu = [] then none
      else (findComponent cs (asPosix cu)).map fun c =>
        { addr := p.1, name := p.2.name, value := p.2.value, size := p.2.size, archive := c.2, objectFile := pathName cu }
  .ok (sortedBy (fun y => y.addr) false l)

/-- New input section for a symbol, `memorymap.py:1369-1376,1401-1408`. -/
def symSection (y : XSym) : ISec :=
  { name := y.name, address := y.value, size := y.size, fill := 0, archive := y.archive, objectFile := y.objectFile }

/-- `isecs_new[-1]['fill'] = fill`. -/
def setLastFill (l : List ISec) (fill : Int) : List ISec :=
  match l.reverse with
  | [] => []
  | x :: t => (({ x with fill := fill } : ISec) :: t).reverse

/-- The loop over the symbols for one input section without archive, `memorymap.py:1359-1423`; `new` is
`isecs_new`. -/
def expandInput : List XSym → ISec → List ISec → List ISec
  | [], _, new => new
  | y :: ys, i, new =>
    if y.addr < i.address then expandInput ys i new
    else if y.addr = i.address ∧ i.size ≠ 0 then
      expandInput ys { i with address := i.address + y.size, size := i.size - y.size } (new ++ [symSection y])
    else if y.addr < i.address + i.size then
      let gap : Int := y.value - i.address
      expandInput ys { i with address := i.address + gap + y.size, size := i.size - gap - y.size }
        (new ++ [{ i with size := gap, archive := str "(exe)", fill := 0 }, symSection y])
    else if i.size ≠ 0 ∨ new = [] then new ++ [i]
    else setLastFill new i.fill

/-- The loop over the input sections of an output section, `memorymap.py:1350-1426`. -/
def expandSection (syms : List XSym) (o : OSec) : OSec :=
  { o with inputs := o.inputs.foldl (fun new i =>
      if i.archive ≠ str "(exe)" then new ++ [i] else expandInput syms i new) [] }

/-- `_expand_input_sections`, `memorymap.py:1281-1428`; `proj` is the build directory and components. -/
def expandInputSections (proj : Option (Str × List Comp)) (elf : Option (Dict Int CuSym)) (sections : List OSec) :
    Except Err (List OSec) :=
  match proj, elf with
  | some (build, comps), some syms => do
    let xs ← expandSymbols build comps syms
    .ok (sections.map (expandSection xs))
  | _, _ => .ok sections

end EspSize
