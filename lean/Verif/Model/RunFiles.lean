import Verif.Model.Lazy
import Verif.Model.DescJson
import Verif.Model.RunAt
/-!
# A run over the files as they are

`/repo/esp_idf_size/main.py:99-152` and `memorymap.get`, with descriptions and configurations of any JSON type (`Model/DescJson`), the attributes of the ELF
file evaluated on first use (`Model/Lazy`) and paths as they are given (`Model/RunAt`), all at once.  `json` is `_load_json_file`, `files` is `os.path.isfile` and `Elf(fn)`;
of the world only the lines of link map files and the chip descriptions are used.
-/
namespace EspSize

/-- The ELF file of a description, `memorymap.py:1619-1627`. -/
def elfFileOf (files : Str → Option (Except Err ElfFile)) (mapFn : Str) : Option (Dict Str JVal) → Except Err (Option ElfFile)
  | none => .ok none
  | some d => do
    let app ← getKey (dget d (str "app_elf"))
    let app ← app.asStr
    match files (pathJoin (dirname mapFn) app) with
    | none => .ok none
    | some r => loadElfFile r

/-- `get_elf`, `memorymap.py:1617-1627`. -/
def getElfOf (json : Str → Option JVal) (files : Str → Option (Except Err ElfFile)) (mapFn : Str) (desc : Option (Dict Str JVal)) :
    Except Err (Option ElfFile) := do
  let desc ← usedDescJ json mapFn desc
  elfFileOf files mapFn desc

/-- The symbols with size, compilation unit and archive, sorted by address, `memorymap.py:1332-1348`, for the sorted components. -/
def expandFromAt (cs : List (Str × Str)) (syms : Dict Nat (RawSym × Option Str)) : List LSym :=
  sortedBy (fun y => y.addr) false (syms.filterMap fun p =>
    match p.2.2 with
    | none => none
    | some cu =>
      if p.2.1.size = 0 ∨ cu = [] then none
      else (findComponent cs (asPosix cu)).map fun c =>
        { addr := p.1, sym := p.2.1, archive := c.2, objectFile := pathName cu })

/-- `if use_dwarf: _expand_input_sections(...)`, `memorymap.py:238-240,1281-1428`. -/
def dwarfSectionsOf (zero : Str → Bool) (useDwarf : Bool) (desc : Option (Dict Str JVal)) (elf : Option ElfFile) (sections : List OSec) :
    Except Err (List OSec) :=
  if useDwarf then
    match desc, elf with
    | some d, some e => do
      let cu ← e.addCus
      let comps ← compsJ zero (dget d (str "build_component_info"))
      let build ← getKey (dget d (str "build_dir"))
      let build ← build.asStr
      let cs ← comps.mapM (compJ build)
      sections.mapM (expandSectionAt e (expandFromAt (sortedBy (fun p => (p.1.length : Int)) true cs) cu))
    | _, _ => .ok sections
  else .ok sections

/-- The first part of `get`, `memorymap.py:187-254`. -/
def loadOf (zero : Str → Bool) (w : World) (json : Str → Option JVal) (files : Str → Option (Except Err ElfFile)) (mapFn : Str) (useDwarf : Option Bool)
    (mapFile : Option MapFile) : Except Err GetInAt := do
  let desc ← getProjDescJ json mapFn
  let ud ← wantDwarfJ zero json mapFn useDwarf
  let t ← descTargetJ desc
  let mf ← useMap w mapFn mapFile
  warnInvalid mf
  let elf ← getElfOf json files mapFn desc
  let sections ← dwarfSectionsOf zero ud desc elf (mf.sections.map toOSec)
  let r ← targetJ zero w t mf.target
  .ok { target := r.1, types := r.2, elf := elf, regions := mf.regions, sections := sections }

/-- `memorymap.get`, `memorymap.py:92-291`. -/
def getOf (zero : Str → Bool) (n : Nat) (w : World) (json : Str → Option JVal) (files : Str → Option (Except Err ElfFile)) (mapFn : Str) (loadSymbols : Bool)
    (useDwarf : Option Bool) (mapFile : Option MapFile) : Option (Except Err MemMap) :=
  match loadOf zero w json files mapFn useDwarf mapFile with
  | .error x => some (.error x)
  | .ok l => buildAt n mapFn loadSymbols l

/-- `get_archives_dependencies`, `deps.py:122-140`. -/
def dependenciesAt (ord : List Str → List Str) (crt : Option Crt) (m : MemMap) (elf : Option ElfFile) (args : Args) : Except Err Deps :=
  match crt with
  | none => .error .exit
  | some crt => do
    let archives ← getArchivesSummary m args
    let crt ← filterCrtAt crt archives elf
    if args.depReverse then getArchivesRevdeps ord archives crt else getArchivesDeps ord archives crt

/-- The table selected by the options, `format_table.py:413-423`, `format_csv.py:56-66`; `deps` is what
`get_archives_dependencies` returns or raises. -/
def selectTableOf (F : FloatOps) (deps : Except Err Deps) (args : Args) (m : MemMap) : Except Err Table :=
  if args.archives then getArchivesTable m args
  else if truthy args.archiveDetails then getSymbolsTable m args
  else if args.archiveDependencies then do .ok (depsTable args (← deps))
  else if args.files then getObjectFilesTable m args
  else getSummaryTable F m args

/-- `format_json.show`, `format_json.py:63-73`. -/
def showJsonOf (deps : Except Err Deps) (args : Args) (m : MemMap) : Except Err Report :=
  if args.archives then do .ok (.entries (getSummarySorted (← getArchivesSummary m args) args))
  else if truthy args.archiveDetails then do .ok (.entries (getSummarySorted (← getSymbolsSummary m args) args))
  else if args.archiveDependencies then do .ok (.deps (← deps))
  else if args.files then do .ok (.entries (getSummarySorted (← getObjectFilesSummary m args) args))
  else .ok (.summary (jsonSummary m args))

/-- `format_dot.show`, `format_dot.py:11-55`. -/
def showDotOf (deps : Except Err Deps) (args : Args) : Except Err (List Str) :=
  if !args.archiveDependencies then .error .exit
  else do
    let d := getSummaryFiltered DepArch.abb (← deps) args
    .ok ([str "strict digraph {"] ++ (dotLines d args).map DotLine.text ++ [str "}"])

/-- The selection of the formatter, `main.py:141-152`; `format_raw.py:11-16`, `format_tree.py:80-84`, `format_dot.py:52-55`. -/
def showOf (F : FloatOps) (deps : Except Err Deps) (args : Args) (m : MemMap) : Except Err Report :=
  if args.format = str "table" ∨ args.format = str "text" then do .ok (.table (← selectTableOf F deps args m))
  else if args.format = str "json2" then showJsonOf deps args m
  else if args.format = str "raw" then
    if args.archiveDependencies then do .ok (.deps (← deps)) else .ok (.raw m)
  else if args.format = str "csv" then do .ok (.csv (csvLines (← selectTableOf F deps args m)))
  else if args.format = str "tree" then
    if args.archiveDependencies then do .ok (.depsTree (← deps)) else .ok (.tree (sort (trim m args) args))
  else if args.format = str "dot" then do .ok (.dot (← showDotOf deps args))
  else .ok .nothing

/-- The part of a run that makes the report, `main.py:99-152`, in the directory `cwd`. -/
def reportOf (zero : Str → Bool) (cwd : Str) (R : RunIn) (json : Str → Option JVal) (files : Str → Option (Except Err ElfFile)) (input : Str)
    (args : Args) : Option (Except Err Report) :=
  let args := effectiveArgs args
  match loadMap R.w input with
  | .error x => some (.error x)
  | .ok mf =>
    match getElfOf json files input none with
    | .error x => some (.error x)
    | .ok elf =>
      match getOf zero R.n R.w json files (abspath cwd input) (loadSymbolsOf args) (useDwarfOf args) (some mf) with
      | none => none
      | some (.error x) => some (.error x)
      | some (.ok m) =>
        match referenceMap args m fun fn => getOf zero R.n R.w json files (abspath cwd fn) (loadSymbolsOf args) (useDwarfOf args) none with
        | none => none
        | some (.error x) => some (.error x)
        | some (.ok ref) =>
          match prepare args m ref with
          | .error x => some (.error x)
          | .ok d => some (showOf R.F (dependenciesAt R.ord mf.crt d elf args) args d)

/-- The run over files given by their bytes. -/
def reportFiles (zero : Str → Bool) (cwd : Str) (n long : Nat) (F : FloatOps) (ord : List Str → List Str) (fs : Files) (input : Str)
    (args : Args) : Option (Except Err Report) :=
  reportOf zero cwd ⟨n, F, ord, worldOf long fs⟩ (loadJson fs) (fun p => (fs p).map (openElf long)) input args

end EspSize
