import Verif.Model.Files
/-!
# `memorymap.get` with descriptions of any JSON type

`Model/Get.lean` assumes that the values of `project_description.json` and `sdkconfig.json` have the types the code expects.  Here they are any JSON
values, and `AttributeError`, `TypeError` and `KeyError` arise where the code uses them.  `json` is `_load_json_file`; the fields `json` and `sdkconfig` of
the world are not used.  `zero` tells which texts of floating point numbers denote zero.
-/
namespace EspSize

/-- `bool(value)`. -/
def JVal.truthy (zero : Str → Bool) : JVal → Bool
  | .null => false
  | .bool b => b
  | .int i => i ≠ 0
  | .float t => !zero t
  | .str s => !s.isEmpty
  | .arr l => !l.isEmpty
  | .obj l => !l.isEmpty

/-- A value used as a path: `os.path.basename`, `os.path.join`, `Path` and `+` with a string raise `TypeError` for anything but a string. -/
def JVal.asStr : JVal → Except Err Str
  | .str s => .ok s
  | _ => .error .typeError

/-- `value['key']`: `KeyError` for a dictionary without the key, `TypeError` for anything but a dictionary. -/
def JVal.item (k : Str) : JVal → Except Err JVal
  | .obj d => getKey (dget d k)
  | _ => .error .typeError

/-- `proj_desc.get('app_elf', '')` and its first use as a path, `memorymap.py:1607-1609`. -/
def appElfJ (d : Dict Str JVal) : Except Err Str :=
  match dget d (str "app_elf") with
  | none => .ok []
  | some v => v.asStr

/-- `get_proj_desc`, `memorymap.py:1597-1614`: `proj_desc.get` raises `AttributeError` for anything but a dictionary. -/
def getProjDescJ (json : Str → Option JVal) (mapFn : Str) : Except Err (Option (Dict Str JVal)) :=
  match json (pathJoin (dirname mapFn) (str "project_description.json")) with
  | none => .ok none
  | some .null => .ok none
  | some (.obj d) => do
    let app ← appElfJ d
    .ok (if splitextRoot (basename mapFn) = splitextRoot (basename app) then some d else none)
  | some _ => .error .attributeError

/-- `use_dwarf`, `memorymap.py:206-215`. -/
def wantDwarfJ (zero : Str → Bool) (json : Str → Option JVal) (mapFn : Str) : Option Bool → Except Err Bool
  | some b => .ok b
  | none =>
    match json (pathJoin (pathJoin (dirname mapFn) (str "config")) (str "sdkconfig.json")) with
    | none => .ok false
    | some .null => .ok false
    | some (.obj d) => match dget d (str "COMPILER_LTO_LINKTIME") with
      | none => .ok false
      | some v => .ok (v.truthy zero)
    | some _ => .error .attributeError

/-- `proj_desc['target']`, `memorymap.py:217-218`; `none` is `None`. -/
def descTargetJ : Option (Dict Str JVal) → Except Err (Option JVal)
  | none => .ok none
  | some [] => .ok none
  | some d => (getKey (dget d (str "target"))).map some

/-- `proj_desc or get_proj_desc(map_fn)`, `memorymap.py:1618`. -/
def usedDescJ (json : Str → Option JVal) (mapFn : Str) : Option (Dict Str JVal) → Except Err (Option (Dict Str JVal))
  | some (p :: d) => .ok (some (p :: d))
  | _ => getProjDescJ json mapFn

/-- The ELF file of a description, `memorymap.py:1619-1627`. -/
def elfFileJ (w : World) (mapFn : Str) : Option (Dict Str JVal) → Except Err (Option ElfData)
  | none => .ok none
  | some d => do
    let app ← getKey (dget d (str "app_elf"))
    let app ← app.asStr
    match w.elf (pathJoin (dirname mapFn) app) with
    | none => .ok none
    | some r => loadElf r

/-- `get_elf`, `memorymap.py:1617-1627`; the value of `app_elf` was already used as a path. -/
def getElfJ (w : World) (json : Str → Option JVal) (mapFn : Str) (desc : Option (Dict Str JVal)) : Except Err (Option ElfData) := do
  let desc ← usedDescJ json mapFn desc
  elfFileJ w mapFn desc

/-- The components with a file, `memorymap.py:1323-1324`: `file` is evaluated for all of them first. -/
def compsJ (zero : Str → Bool) : Option JVal → Except Err (List JVal)
  | none => .error .keyError
  | some (.obj l) => do
    let fs ← l.mapM fun p => do
      let f ← p.2.item (str "file")
      .ok (p.2, f)
    .ok ((fs.filter fun p => p.2.truthy zero).map (·.1))
  | some _ => .error .attributeError

/-- One turn of the loop over the components, `memorymap.py:1328-1330`. -/
def compJ (build : Str) (c : JVal) : Except Err (Str × Str) := do
  let dir ← c.item (str "dir")
  let dir ← dir.asStr
  let file ← c.item (str "file")
  let file ← file.asStr
  let rel ← relativeTo file build
  .ok (asPosix dir, rel)

/-- The symbols with size, compilation unit and archive, sorted by address, `memorymap.py:1320-1348`, for the sorted components. -/
def expandFrom (cs : List (Str × Str)) (syms : Dict Int CuSym) : List XSym :=
  sortedBy (fun y => y.addr) false (syms.filterMap fun p =>
    match p.2.cuName with
    | none => none
    | some cu =>
      if p.2.size = 0 ∨ cu = [] then none
      else (findComponent cs (asPosix cu)).map fun c =>
        { addr := p.1, name := p.2.name, value := p.2.value, size := p.2.size, archive := c.2, objectFile := pathName cu })

/-- `if use_dwarf: _expand_input_sections(...)`, `memorymap.py:238-240,1281-1428`. -/
def dwarfSectionsJ (zero : Str → Bool) (useDwarf : Bool) (desc : Option (Dict Str JVal)) (elf : Option ElfData) (sections : List OSec) :
    Except Err (List OSec) :=
  if useDwarf then
    match desc, elf with
    | some d, some e => do
      let cu ← e.cuSyms
      let comps ← compsJ zero (dget d (str "build_component_info"))
      let build ← getKey (dget d (str "build_dir"))
      let build ← build.asStr
      let cs ← comps.mapM (compJ build)
      .ok (sections.map (expandSection (expandFrom (sortedBy (fun p => (p.1.length : Int)) true cs) cu)))
    | _, _ => .ok sections
  else .ok sections

/-- The target, `memorymap.py:242-248`, and its use in `target + '.yaml'`, `memorymap.py:1436`, which raises `TypeError` for anything but a string; that
is not handled. -/
def pickTargetJ (zero : Str → Bool) (t : Option JVal) (fromMap : Str) : Except Err Str :=
  match t with
  | some v => if v.truthy zero then v.asStr else pickTarget [] fromMap
  | none => pickTarget [] fromMap

/-- The target and its memory types, `memorymap.py:242-252,1431-1455`. -/
def targetJ (zero : Str → Bool) (w : World) (t : Option JVal) (fromMap : Str) : Except Err (Str × Dict Str MemTypeInfo) := do
  let tg ← pickTargetJ zero t fromMap
  let types ← getMemoryTypes w tg
  .ok (tg, types)

/-- The first part of `get`, `memorymap.py:187-254`. -/
def loadJ (zero : Str → Bool) (w : World) (json : Str → Option JVal) (mapFn : Str) (useDwarf : Option Bool) (mapFile : Option MapFile) :
    Except Err GetIn := do
  let desc ← getProjDescJ json mapFn
  let ud ← wantDwarfJ zero json mapFn useDwarf
  let t ← descTargetJ desc
  let mf ← useMap w mapFn mapFile
  warnInvalid mf
  let elf ← getElfJ w json mapFn desc
  let sections ← dwarfSectionsJ zero ud desc elf (mf.sections.map toOSec)
  let r ← targetJ zero w t mf.target
  .ok { target := r.1, types := r.2, elf := elf, regions := mf.regions, sections := sections }

/-- `memorymap.get`, `memorymap.py:92-291`. -/
def getJ (zero : Str → Bool) (n : Nat) (w : World) (json : Str → Option JVal) (mapFn : Str) (loadSymbols : Bool) (useDwarf : Option Bool)
    (mapFile : Option MapFile) : Option (Except Err MemMap) :=
  match loadJ zero w json mapFn useDwarf mapFile with
  | .error x => some (.error x)
  | .ok l => build n mapFn loadSymbols l

end EspSize
