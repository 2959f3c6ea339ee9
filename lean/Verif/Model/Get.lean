import Verif.Py.Path
import Verif.Model.MapFile
import Verif.Model.MemTypes
import Verif.Model.Expand
import Verif.Model.Tree
/-!
# `memorymap.get`

`/repo/esp_idf_size/memorymap.py:92-291`, with `get_proj_desc`, `get_elf`, `_get_memory_types`.  The file
system is a parameter.  `map_fn` is the result of `os.path.abspath`.  JSON values are assumed to have the
types the code expects (other types: `Model/DescJson`, C105); keys may be missing.
-/
namespace EspSize

/-- The keys used of `project_description.json`; `none` is a missing key.  `other` tells whether there are
further keys (truth value of the dictionary). -/
structure ProjDesc where
  appElf : Option Str
  target : Option Str
  build : Option Str
  comps : Option (List Comp)
  other : Bool := false
deriving DecidableEq, Repr

/-- `bool(proj_desc)`. -/
def ProjDesc.nonempty (d : ProjDesc) : Bool :=
  d.appElf.isSome || d.target.isSome || d.build.isSome || d.comps.isSome || d.other

/-- What is used of an `Elf` object: section headers, symbols, and the result of `add_cus_to_symbols`. -/
structure ElfData where
  shdrs : List Shdr
  syms : List ElfSym
  cuSyms : Except Err (Dict Int CuSym)
deriving DecidableEq, Repr

/-- The files, by path. -/
structure World where
  /-- `_load_json_file`, `memorymap.py:1081-1089`, on a project description -/
  json : Str → Option ProjDesc
  /-- `sdkconfig.get('COMPILER_LTO_LINKTIME', False)` of a loaded `sdkconfig.json` -/
  sdkconfig : Str → Option Bool
  /-- the lines of a link map file, or the exception of reading them -/
  lines : Str → Except Err (List Str)
  /-- `os.path.isfile` and `Elf(fn)` -/
  elf : Str → Option (Except Err ElfData)
  /-- the memory types of `chip_info/<name>`, `memorymap.py:1434-1451`, evaluated and with defaults -/
  chip : Str → Except Err (Dict Str MemTypeInfo)

/-- `d[key]`. -/
def getKey {α : Type} : Option α → Except Err α
  | some x => .ok x
  | none => .error .keyError

/-- `get_proj_desc`, `memorymap.py:1597-1614`. -/
def getProjDesc (w : World) (mapFn : Str) : Option ProjDesc :=
  match w.json (pathJoin (dirname mapFn) (str "project_description.json")) with
  | none => none
  | some d =>
    if splitextRoot (basename mapFn) = splitextRoot (basename (d.appElf.getD [])) then some d else none

/-- `_load_elf_file`, `memorymap.py:1092-1102`: the expected exceptions give `None`. -/
def loadElf : Except Err ElfData → Except Err (Option ElfData)
  | .ok e => .ok (some e)
  | .error .osError => .ok none
  | .error .valueError => .ok none
  | .error .elf => .ok none
  | .error x => .error x

/-- `get_elf`, `memorymap.py:1617-1627`. -/
def getElf (w : World) (mapFn : Str) (desc : Option ProjDesc) : Except Err (Option ElfData) :=
  let desc := match desc with
    | some d => if d.nonempty then some d else getProjDesc w mapFn
    | none => getProjDesc w mapFn
  match desc with
  | none => .ok none
  | some d => do
    let app ← getKey d.appElf
    match w.elf (pathJoin (dirname mapFn) app) with
    | none => .ok none
    | some r => loadElf r

/-- `MapFile(fn)`, `mapfile.py:20-36`: errors of reading become `MapFileException`. -/
def loadMap (w : World) (fn : Str) : Except Err MapFile :=
  match w.lines fn with
  | .ok lines => parseMap lines
  | .error .osError => .error .mapFile
  | .error .valueError => .error .mapFile
  | .error x => .error x

/-- `raise MemMapException(e)` for a `MapFileException`, `memorymap.py:222-225`. -/
def wrapMap {α : Type} : Except Err α → Except Err α
  | .error .mapFile => .error .memMap
  | x => x

/-- `map_file.validate()` with a warning for `MapFileException`, `memorymap.py:229-232`. -/
def warnInvalid (m : MapFile) : Except Err Unit :=
  match validateSections m.sections with
  | .error .mapFile => .ok ()
  | x => x

/-- `use_dwarf`, `memorymap.py:206-215`. -/
def wantDwarf (w : World) (mapFn : Str) : Option Bool → Bool
  | some b => b
  | none => (w.sdkconfig (pathJoin (pathJoin (dirname mapFn) (str "config")) (str "sdkconfig.json"))).getD false

/-- Sections of the map file in the form used after parsing.  A missing address or size counts as 0: a
section or input section without size is dropped like an empty one (`memorymap.py:933-935,967`), and an
input section without address has no archive `(exe)` and is not looked at before. -/
def toOSec (o : POut) : OSec :=
  { name := o.name, address := o.address.getD 0, size := o.size.getD 0,
    inputs := o.inputs.map fun i =>
      { name := i.name, address := i.address.getD 0, size := i.size.getD 0, fill := i.fill,
        archive := i.archive, objectFile := i.objectFile } }

/-- `if use_dwarf: _expand_input_sections(...)`, `memorymap.py:238-240,1281-1335`. -/
def dwarfSections (useDwarf : Bool) (desc : Option ProjDesc) (elf : Option ElfData) (sections : List OSec) :
    Except Err (List OSec) :=
  if useDwarf then
    match desc, elf with
    | some d, some e => do
      let cu ← e.cuSyms
      let comps ← getKey d.comps
      let build ← getKey d.build
      expandInputSections (some (build, comps)) (some cu) sections
    | _, _ => .ok sections
  else .ok sections

/-- The target, `memorymap.py:217-218,242-248`: `fromDesc` was read before the map file. -/
def pickTarget (fromDesc fromMap : Str) : Except Err Str :=
  let t := if fromDesc = [] then fromMap else fromDesc
  if t = [] then .error .memMap else .ok t

/-- `proj_desc['target']`, `memorymap.py:217-218`; `[]` is `None`. -/
def descTarget : Option ProjDesc → Except Err Str
  | none => .ok []
  | some d => if d.nonempty then getKey d.target else .ok []

/-- `_get_memory_types`, `memorymap.py:1431-1455`. -/
def getMemoryTypes (w : World) (target : Str) : Except Err (Dict Str MemTypeInfo) :=
  match w.chip (target ++ str ".yaml") with
  | .error .osError => .error .memMap
  | .error .valueError => .error .memMap
  | r => r

/-- `map_file or mapfile.MapFile(map_fn)`, `memorymap.py:222-225`. -/
def useMap (w : World) (mapFn : Str) : Option MapFile → Except Err MapFile
  | some m => .ok m
  | none => wrapMap (loadMap w mapFn)

/-- The inputs collected by the first part of `get`, `memorymap.py:187-254`. -/
structure GetIn where
  target : Str
  types : Dict Str MemTypeInfo
  elf : Option ElfData
  regions : List Region
  sections : List OSec
deriving DecidableEq, Repr

/-- The first part of `get`, `memorymap.py:187-254`.  The argument `elf` does not occur: it is overwritten
in line 198. -/
def load (w : World) (mapFn : Str) (useDwarf : Option Bool) (mapFile : Option MapFile) : Except Err GetIn := do
  let desc := getProjDesc w mapFn
  let t ← descTarget desc
  let mf ← useMap w mapFn mapFile
  warnInvalid mf
  let elf ← getElf w mapFn desc
  let sections ← dwarfSections (wantDwarf w mapFn useDwarf) desc elf (mf.sections.map toOSec)
  let target ← pickTarget t mf.target
  let types ← getMemoryTypes w target
  .ok { target := target, types := types, elf := elf, regions := mf.regions, sections := sections }

/-- `memorymap.py:271-278`. -/
def symbolStep (loadSymbols : Bool) (elf : Option ElfData) (kept : List OSec) : Except Err (List OSec) :=
  if loadSymbols then addSymbols (elf.map (·.syms)) kept else .ok (emptySymbols kept)

/-- The rest of `get`, `memorymap.py:255-291`; `none` if splitting the regions takes more than `n` steps. -/
def build (n : Nat) (mapFn : Str) (loadSymbols : Bool) (l : GetIn) : Option (Except Err MemMap) :=
  let hdrs := elfHeaders (l.elf.map (·.shdrs))
  match splitMemoryRegions n l.types (filterMemoryRegions l.regions) [] [] with
  | none => none
  | some (regs, _) => some do
    let kept := filterMapSections l.sections hdrs
    let image := getImageSize hdrs kept
    let withSyms ← symbolStep loadSymbols l.elf kept
    let d ← getMemTypeMap l.types regs (addArchives (splitMapSections withSyms regs))
    .ok { version := str "1.0", target := l.target, targetDiff := [], imageSize := image, imageSizeDiff := 0,
          projectPath := mapFn, projectPathDiff := [], memoryTypes := d }

/-- `memorymap.get`, `memorymap.py:92-291`. -/
def getMap (n : Nat) (w : World) (mapFn : Str) (loadSymbols : Bool) (useDwarf : Option Bool)
    (mapFile : Option MapFile) (_elf : Option ElfData) : Option (Except Err MemMap) :=
  match load w mapFn useDwarf mapFile with
  | .error x => some (.error x)
  | .ok l => build n mapFn loadSymbols l

end EspSize
