import Verif.Model.Run
/-!
# Warnings and error messages of a run that completes

All calls of `log.warn` and `log.err` in `/repo/esp_idf_size`, in order, except `mapfile.py:439`, after which an
`IndexError` is raised.  Messages of runs that raise are not modelled, nor is `--quiet`, which belongs to `esp_pylib`.
-/
namespace EspSize

inductive Msg where
  | noAbbrev                                   -- main.py:103
  | noDiff                                     -- main.py:108
  | targets (first second : Str)               -- main.py:133-136
  | noTarget                                   -- mapfile.py:96
  | invalid                                    -- memorymap.py:232
  | badElf                                     -- memorymap.py:1097,1099
  | noDesc                                     -- memorymap.py:1288
  | noElf                                      -- memorymap.py:1291
  | region (name : Str)                        -- memorymap.py:919
  | exceeds (s : MSec) (r : SReg)              -- memorymap.py:1541-1545
  | overflow (s : MSec) (r : SReg)             -- memorymap.py:1559-1564
  | nowhere (s : MSec)                         -- memorymap.py:1589-1592
deriving DecidableEq

/-- The text of the warning about targets, `main.py:133-136`. -/
def targetsText (first second : Str) : Str :=
  str "The target of the reference and other project is " ++ first ++ str " and " ++ second ++ str ", respectively."

/-- One output section, `memorymap.py:1520-1592`. -/
def sectionMsgs (types : Dict Str MemTypeInfo) (regions : List SReg) (s : MSec) : List Msg :=
  match place (extRamAlias types) (sortedBy (fun r => r.origin) false regions) s with
  | .ext _ => []
  | .inside r => if s.address + s.size > r.origin + r.length then [.exceeds s r] else []
  | .overflow r => [.overflow s r]
  | .nowhere => [.nowhere s]

/-- The loop of `_get_target`, `mapfile.py:92-118`. -/
def targetMsgs : List Str → Bool → List Msg
  | [], _ => []
  | l :: ls, found =>
    if startsWith l crossRef then [.noTarget]
    else if !found && startsWith l linkerScript then targetMsgs ls true
    else match lineTarget l with
      | some _ => []
      | none => targetMsgs ls found

/-- `MapFile(fn)`, `mapfile.py:20-36`. -/
def mapMsgs (w : World) (fn : Str) : List Msg :=
  match w.lines fn with
  | .error _ => []
  | .ok lines => match getMemoryRegions lines with
    | .error _ => []
    | .ok (_, rest) => targetMsgs rest false

/-- The map file is parsed if none is given, `memorymap.py:220-225`. -/
def useMapMsgs (w : World) (fn : Str) : Option MapFile → List Msg
  | some _ => []
  | none => mapMsgs w fn

/-- `_load_elf_file`, `memorymap.py:1092-1099`, called by `get_elf`, `memorymap.py:1617-1627`. -/
def elfMsgs (w : World) (fn : Str) (desc : Option ProjDesc) : List Msg :=
  let desc := match desc with
    | some d => if d.nonempty then some d else getProjDesc w fn
    | none => getProjDesc w fn
  match desc with
  | none => []
  | some d => match d.appElf with
    | none => []
    | some app => match w.elf (pathJoin (dirname fn) app) with
      | some (.error _) => [.badElf]
      | _ => []

/-- `map_file.validate()`, `memorymap.py:229-232`. -/
def validMsgs (mf : MapFile) : List Msg :=
  match validateSections mf.sections with
  | .error .mapFile => [.invalid]
  | _ => []

/-- `memorymap.py:1287-1292`. -/
def dwarfMsgs (useDwarf : Bool) (desc : Option ProjDesc) (elf : Option ElfData) : List Msg :=
  if useDwarf then
    match desc, elf with
    | none, _ => [.noDesc]
    | some _, none => [.noElf]
    | some _, some _ => []
  else []

/-- The messages of `_split_memory_regions` and `_get_mem_type_map`. -/
def buildMsgs (n : Nat) (ls : Bool) (l : GetIn) : List Msg :=
  match splitMemoryRegions n l.types (filterMemoryRegions l.regions) [] [] with
  | none => []
  | some (regs, ws) =>
    ws.map .region ++
      match symbolStep ls l.elf (filterMapSections l.sections (elfHeaders (l.elf.map (·.shdrs)))) with
      | .error _ => []
      | .ok secs => (addArchives (splitMapSections secs regs)).flatMap (sectionMsgs l.types regs)

/-- `memorymap.get`, `memorymap.py:92-291`. -/
def getMsgs (n : Nat) (w : World) (fn : Str) (ls : Bool) (ud : Option Bool) (mapFile : Option MapFile) : List Msg :=
  let desc := getProjDesc w fn
  useMapMsgs w fn mapFile ++
    match useMap w fn mapFile, getElf w fn desc, load w fn ud mapFile with
    | .ok mf, .ok elf, .ok l =>
      validMsgs mf ++ elfMsgs w fn desc ++ dwarfMsgs (wantDwarf w fn ud) desc elf ++ buildMsgs n ls l
    | _, _, _ => []

/-- The messages about options, `main.py:99-108`. -/
def optionMsgs (args : Args) : List Msg :=
  (if args.noAbbrev && args.unify then [.noAbbrev] else []) ++
    if args.archiveDependencies && truthy args.diff then [.noDiff] else []

/-- The messages of a run, `main.py:99-152`; `ref` and `m` are the maps of the two projects. -/
def runMsgs (R : RunIn) (input : Str) (args : Args) (m ref : MemMap) : List Msg :=
  let eff := effectiveArgs args
  let mf := match loadMap R.w input with | .ok f => some f | .error _ => none
  optionMsgs args ++ mapMsgs R.w input ++ elfMsgs R.w input none ++
    getMsgs R.n R.w input (loadSymbolsOf eff) (useDwarfOf eff) mf ++
    match eff.diff with
    | some (c :: fn) =>
      getMsgs R.n R.w (c :: fn) (loadSymbolsOf eff) (useDwarfOf eff) none ++
        -- `unify`, the last step of `prepare`, keeps both targets
        match prepare eff m ref with
        | .ok d => if d.target ≠ d.targetDiff then [.targets d.target d.targetDiff] else []
        | .error _ => []
    | _ => []

end EspSize
