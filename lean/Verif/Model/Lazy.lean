import Verif.Model.ElfView
import Verif.Model.Deps
/-!
# `memorymap.get` with the attributes of the ELF file evaluated on first use

`Elf_Shdr.name`, `Elf_Sym.name` and `Elf.symbols` (`/repo/esp_idf_size/elf.py:1399-1403,1444-1448,1989-2010`) are evaluated on first
use, after the file was opened inside the `try` of `_load_elf_file`.  `Model/Get.lean` takes them as given; here they are
evaluated where the code evaluates them, and their exceptions arise there.  `files` is `os.path.isfile` and `Elf(fn)`; the field `elf` of the
world is not used.
-/
namespace EspSize

/-- `_load_elf_file`, `memorymap.py:1092-1102`. -/
def loadElfFile : Except Err ElfFile → Except Err (Option ElfFile)
  | .ok e => .ok (some e)
  | .error .osError => .ok none
  | .error .valueError => .ok none
  | .error .elf => .ok none
  | .error x => .error x

/-- `get_elf`, `memorymap.py:1617-1627`. -/
def getElfFile (w : World) (files : Str → Option (Except Err ElfFile)) (mapFn : Str) (desc : Option ProjDesc) :
    Except Err (Option ElfFile) :=
  let desc := match desc with
    | some d => if d.nonempty then some d else getProjDesc w mapFn
    | none => getProjDesc w mapFn
  match desc with
  | none => .ok none
  | some d => do
    let app ← getKey d.appElf
    match files (pathJoin (dirname mapFn) app) with
    | none => .ok none
    | some r => loadElfFile r

/-- One turn of the loop of `_get_elf_sections_headers`, `memorymap.py:1203-1210`: `shdr.name` is evaluated in line 1210. -/
def ElfFile.headerStep (e : ElfFile) (hdrs : Dict Str Shdr) (s : RawShdr) : Except Err (Dict Str Shdr) :=
  if s.size = 0 then .ok hdrs
  else if s.flags &&& 2 = 0 then .ok hdrs
  else do
    let n ← e.shdrName s
    .ok (dset hdrs n { name := n, type := s.type, flags := s.flags, size := s.size })

/-- `_get_elf_sections_headers`, `memorymap.py:1197-1214`. -/
def headersOf : Option ElfFile → Except Err (Option (Dict Str Shdr))
  | none => .ok none
  | some e => do
    let d ← e.shdrs.foldlM e.headerStep []
    .ok (some d)

/-- The symbol list used, `memorymap.py:1121-1123`. -/
def sweepRaw (syms : List RawSym) : List RawSym :=
  (sortedBy (fun s => (s.value : Int)) false syms).filter fun s => (s.type = sttFunc || s.type = sttObject) && s.size ≠ 0

/-- Display name, `memorymap.py:1181-1183`. -/
def displayName (y : RawSym) (n : Str) : Str := if y.type = sttFunc then n ++ str "()" else n

/-- The loop over the symbols, `memorymap.py:1137-1191`: `symbol.name` is evaluated first, in line 1138. -/
def sweepAt (e : ElfFile) : List RawSym → Slot → List (Nat × ISec) → List Slot → Except Err (List Slot)
  | [], cur, rest, done => .ok (done ++ [cur] ++ rest.map fun p => { idx := p.1, isec := p.2, syms := [] })
  | y :: ys, cur, rest, done => do
    let n ← e.symName y
    let (cur, rest, done) ← advance y.value cur rest done
    if (y.value : Int) + y.size > cur.isec.address + cur.isec.size then .error .memMap
    else if y.value < cur.isec.address then sweepAt e ys cur rest done
    else sweepAt e ys { cur with syms := cur.syms ++ [{ name := displayName y n, address := y.value, size := y.size }] } rest done

/-- `_add_symbols_to_sections`, `memorymap.py:1105-1194`: `elf.symbols` is evaluated in line 1122, before the input
sections are looked at. -/
def addSymbolsAt (elf : Option ElfFile) (osecs : List OSec) : Except Err (List OSec) :=
  match elf with
  | none => .ok (osecs.map fun o => { o with inputs := o.inputs.map fun i => { i with symbols := [selfSym i] } })
  | some e => do
    let syms ← e.symbols
    let flat := osecs.flatMap (·.inputs)
    match sortedBy (fun p : Nat × ISec => p.2.address) false (flat.zipIdx.map fun p => (p.2, p.1)) with
    | [] => .error .indexError          -- isections.pop(0)
    | (i, s) :: rest => do
      let slots ← sweepAt e (sweepRaw syms) { idx := i, isec := s, syms := [] } rest []
      let new := flat.zipIdx.map fun p =>
        { p.1 with symbols := ((slots.find? fun t => t.idx = p.2).map Slot.syms).getD [] }
      .ok (refill osecs new)

/-- A symbol with archive, the name not evaluated. -/
structure LSym where
  addr : Int
  sym : RawSym
  archive : Str
  objectFile : Str
deriving DecidableEq, Repr

/-- The symbols with size, compilation unit and archive, sorted by address, `memorymap.py:1320-1348`. -/
def expandSymbolsAt (build : Str) (comps : List Comp) (syms : Dict Nat (RawSym × Option Str)) : Except Err (List LSym) := do
  let cs ← sortedComponents build comps
  let l := syms.filterMap fun p =>
    match p.2.2 with
    | none => none
    | some cu =>
      if p.2.1.size = 0 ∨ cu = [] then none
      else (findComponent cs (asPosix cu)).map fun c =>
        { addr := p.1, sym := p.2.1, archive := c.2, objectFile := pathName cu }
  .ok (sortedBy (fun y => y.addr) false l)

/-- New input section for a symbol, `memorymap.py:1369-1376,1401-1408`, where `sym.name` is evaluated. -/
def symSectionAt (e : ElfFile) (y : LSym) : Except Err ISec := do
  let n ← e.symName y.sym
  .ok { name := n, address := y.sym.value, size := y.sym.size, fill := 0, archive := y.archive, objectFile := y.objectFile }

/-- The loop over the symbols for one input section without archive, `memorymap.py:1359-1423`. -/
def expandInputAt (e : ElfFile) : List LSym → ISec → List ISec → Except Err (List ISec)
  | [], _, new => .ok new
  | y :: ys, i, new =>
    if y.addr < i.address then expandInputAt e ys i new
    else if y.addr = i.address ∧ i.size ≠ 0 then do
      let x ← symSectionAt e y
      expandInputAt e ys { i with address := i.address + y.sym.size, size := i.size - y.sym.size } (new ++ [x])
    else if y.addr < i.address + i.size then do
      let gap : Int := y.sym.value - i.address
      let x ← symSectionAt e y
      expandInputAt e ys { i with address := i.address + gap + y.sym.size, size := i.size - gap - y.sym.size }
        (new ++ [{ i with size := gap, archive := str "(exe)", fill := 0 }, x])
    else if i.size ≠ 0 ∨ new = [] then .ok (new ++ [i])
    else .ok (setLastFill new i.fill)

/-- The loop over the input sections of an output section, `memorymap.py:1350-1426`. -/
def expandSectionAt (e : ElfFile) (syms : List LSym) (o : OSec) : Except Err OSec := do
  let is ← o.inputs.foldlM (fun new i =>
      if i.archive ≠ str "(exe)" then .ok (new ++ [i]) else expandInputAt e syms i new) []
  .ok { o with inputs := is }

/-- `if use_dwarf: _expand_input_sections(...)`, `memorymap.py:238-240,1281-1335`. -/
def dwarfSectionsAt (useDwarf : Bool) (desc : Option ProjDesc) (elf : Option ElfFile) (sections : List OSec) :
    Except Err (List OSec) :=
  if useDwarf then
    match desc, elf with
    | some d, some e => do
      let cu ← e.addCus
      let comps ← getKey d.comps
      let build ← getKey d.build
      let xs ← expandSymbolsAt build comps cu
      sections.mapM (expandSectionAt e xs)
    | _, _ => .ok sections
  else .ok sections

/-- The inputs collected by the first part of `get`, `memorymap.py:187-254`. -/
structure GetInAt where
  target : Str
  types : Dict Str MemTypeInfo
  elf : Option ElfFile
  regions : List Region
  sections : List OSec

/-- The first part of `get`, `memorymap.py:187-254`. -/
def loadAt (w : World) (files : Str → Option (Except Err ElfFile)) (mapFn : Str) (useDwarf : Option Bool) (mapFile : Option MapFile) :
    Except Err GetInAt := do
  let desc := getProjDesc w mapFn
  let t ← descTarget desc
  let mf ← useMap w mapFn mapFile
  warnInvalid mf
  let elf ← getElfFile w files mapFn desc
  let sections ← dwarfSectionsAt (wantDwarf w mapFn useDwarf) desc elf (mf.sections.map toOSec)
  let target ← pickTarget t mf.target
  let types ← getMemoryTypes w target
  .ok { target := target, types := types, elf := elf, regions := mf.regions, sections := sections }

/-- `memorymap.py:271-278`. -/
def symbolStepAt (loadSymbols : Bool) (elf : Option ElfFile) (kept : List OSec) : Except Err (List OSec) :=
  if loadSymbols then addSymbolsAt elf kept else .ok (emptySymbols kept)

/-- The rest of `get`, `memorymap.py:255-291`: the section headers are made in line 255, before the regions are split. -/
def buildAt (n : Nat) (mapFn : Str) (loadSymbols : Bool) (l : GetInAt) : Option (Except Err MemMap) :=
  match headersOf l.elf with
  | .error x => some (.error x)
  | .ok hdrs =>
    match splitMemoryRegions n l.types (filterMemoryRegions l.regions) [] [] with
    | none => none
    | some (regs, _) => some do
      let kept := filterMapSections l.sections hdrs
      let image := getImageSize hdrs kept
      let withSyms ← symbolStepAt loadSymbols l.elf kept
      let d ← getMemTypeMap l.types regs (addArchives (splitMapSections withSyms regs))
      .ok { version := str "1.0", target := l.target, targetDiff := [], imageSize := image, imageSizeDiff := 0,
            projectPath := mapFn, projectPathDiff := [], memoryTypes := d }

/-- `memorymap.get`, `memorymap.py:92-291`. -/
def getAt (n : Nat) (w : World) (files : Str → Option (Except Err ElfFile)) (mapFn : Str) (loadSymbols : Bool) (useDwarf : Option Bool)
    (mapFile : Option MapFile) : Option (Except Err MemMap) :=
  match loadAt w files mapFn useDwarf mapFile with
  | .error x => some (.error x)
  | .ok l => buildAt n mapFn loadSymbols l

/-- The names kept by `_filter_crt`, `deps.py:98-101`: the table of symbols and the names of functions and objects are
evaluated here. -/
def crtSymbolsAt (e : ElfFile) : Except Err (List Str) := do
  let syms ← e.symbols
  (syms.filter fun s => (s.type = sttFunc || s.type = sttObject) && s.shndx ≠ shnAbs).mapM e.symName

/-- `_filter_crt`, `deps.py:95-119`. -/
def filterCrtAt (crt : Crt) (archives : Dict Str Entry) : Option ElfFile → Except Err Crt
  | none => .error .exit
  | some e => do
    let names ← crtSymbolsAt e
    filterRows archives (dfilter (fun s _ => names.contains s) crt)

end EspSize
