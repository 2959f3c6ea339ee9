import Verif.Model.Get
import Verif.Model.Prepare
import Verif.Model.Csv
/-!
# A run of the program

`/repo/esp_idf_size/main.py:62-162` and the `show` functions of the formatters.  Warnings are in
`Model/Warnings.lean`.  Console options and `--quiet`, `--no-color`, `--force-terminal`, `--debug`, `--doc` are not modelled.
-/
namespace EspSize

/-- The parameters of a run: steps allowed for splitting regions, floating point arithmetic, iteration order of
sets, files. -/
structure RunIn where
  n : Nat
  F : FloatOps
  ord : List Str → List Str
  w : World

/-- Conflicting options, `main.py:99-110`. -/
def effectiveArgs (args : Args) : Args :=
  let args := if args.noAbbrev && args.unify then { args with noAbbrev := false } else args
  let args := if args.archiveDependencies && truthy args.diff then { args with diff := none } else args
  { args with abbrev_ := !args.noAbbrev }

/-- `load_symbols`, `main.py:112`. -/
def loadSymbolsOf (args : Args) : Bool := truthy args.archiveDetails || decide (args.format = str "raw")

/-- `args['use_dwarf']`, `main.py:114-116`. -/
def useDwarfOf (args : Args) : Option Bool :=
  if args.useDwarf = some true then
    some (truthy args.archiveDetails || args.archives || args.files || decide (args.format = str "raw"))
  else args.useDwarf

/-- The reference map, `main.py:125-126`; without `--diff` it is not used. -/
def referenceMap (args : Args) (m : MemMap) (get : Str → Option (Except Err MemMap)) : Option (Except Err MemMap) :=
  match args.diff with
  | some (c :: fn) => get (c :: fn)
  | _ => some (.ok m)

/-- What is printed. -/
inductive Report where
  | table (t : Table)
  | csv (lines : List Str)
  | summary (s : JsonSummary)
  | entries (e : Dict Str Entry)
  | deps (d : Deps)
  | raw (m : MemMap)
  | tree (m : MemMap)
  | depsTree (d : Deps)
  | dot (lines : List Str)
  | nothing
deriving DecidableEq

/-- The table selected by the options, `format_table.py:413-423`, `format_csv.py:56-66`. -/
def selectTable (R : RunIn) (crt : Option Crt) (elf : Option (List ElfSym)) (args : Args) (m : MemMap) : Except Err Table :=
  if args.archives then getArchivesTable m args
  else if truthy args.archiveDetails then getSymbolsTable m args
  else if args.archiveDependencies then do
    let d ← getArchivesDependencies R.ord crt m elf args
    .ok (depsTable args d)
  else if args.files then getObjectFilesTable m args
  else getSummaryTable R.F m args

/-- `format_json.show`, `format_json.py:63-73`. -/
def showJson (R : RunIn) (crt : Option Crt) (elf : Option (List ElfSym)) (args : Args) (m : MemMap) : Except Err Report :=
  if args.archives then do .ok (.entries (getSummarySorted (← getArchivesSummary m args) args))
  else if truthy args.archiveDetails then do .ok (.entries (getSummarySorted (← getSymbolsSummary m args) args))
  else if args.archiveDependencies then do .ok (.deps (← getArchivesDependencies R.ord crt m elf args))
  else if args.files then do .ok (.entries (getSummarySorted (← getObjectFilesSummary m args) args))
  else .ok (.summary (jsonSummary m args))

/-- The selection of the formatter, `main.py:141-152`; `format_raw.py:11-16`, `format_tree.py:80-84`,
`format_dot.py:52-55`. -/
def showReport (R : RunIn) (crt : Option Crt) (elf : Option (List ElfSym)) (args : Args) (m : MemMap) : Except Err Report :=
  if args.format = str "table" ∨ args.format = str "text" then do .ok (.table (← selectTable R crt elf args m))
  else if args.format = str "json2" then showJson R crt elf args m
  else if args.format = str "raw" then
    if args.archiveDependencies then do .ok (.deps (← getArchivesDependencies R.ord crt m elf args)) else .ok (.raw m)
  else if args.format = str "csv" then do .ok (.csv (csvLines (← selectTable R crt elf args m)))
  else if args.format = str "tree" then
    if args.archiveDependencies then do .ok (.depsTree (← getArchivesDependencies R.ord crt m elf args))
    else .ok (.tree (sort (trim m args) args))
  else if args.format = str "dot" then
    do .ok (.dot (← showDot R.ord m crt elf args))
  else .ok .nothing

/-- The part of a run that makes the report, `main.py:99-152`. -/
def makeReport (R : RunIn) (input : Str) (args : Args) : Option (Except Err Report) :=
  let args := effectiveArgs args
  match loadMap R.w input with
  | .error x => some (.error x)
  | .ok mf =>
    match getElf R.w input none with
    | .error x => some (.error x)
    | .ok elf =>
      match getMap R.n R.w input (loadSymbolsOf args) (useDwarfOf args) (some mf) elf with
      | none => none
      | some (.error x) => some (.error x)
      | some (.ok m) =>
        match referenceMap args m fun fn => getMap R.n R.w fn (loadSymbolsOf args) (useDwarfOf args) none none with
        | none => none
        | some (.error x) => some (.error x)
        | some (.ok ref) =>
          match prepare args m ref with
          | .error x => some (.error x)
          | .ok d => some (showReport R mf.crt (elf.map (·.syms)) args d)

/-! ## The output file -/

/-- The files that can be written, by path. -/
abbrev Files := Str → Option (List UInt8)

/-- How writing goes: the exceptions of creating directories, of opening the file, of writing after some bytes. -/
inductive Writing where
  | fine
  | mkdir (e : Err)
  | opening (e : Err)
  | bytes (k : Nat) (e : Err)

/-- `log.die` for `OSError`, `main.py:70-71`. -/
def writeError : Err → Err
  | .osError => .exit
  | x => x

def Files.set (fs : Files) (fn : Str) (d : List UInt8) : Files := fun p => if p = fn then some d else fs p

/-- `_write_output_file`, `main.py:62-71`: opening truncates the file.  Directories are not recorded. -/
def writeOutputFile (fs : Files) (fn : Str) (d : List UInt8) : Writing → Files × Except Err Unit
  | .fine => (fs.set fn d, .ok ())
  | .mkdir e => (fs, .error (writeError e))
  | .opening e => (fs, .error (writeError e))
  | .bytes k e => (fs.set fn (d.take k), .error (writeError e))

/-- The exceptions handled at the end, `main.py:159-162`. -/
def handled : Err → Err
  | .memMap => .exit
  | .mapFile => .exit
  | .interrupt => .exit
  | x => x

/-- `_run`, `main.py:74-162`, for a report that was made or not; `abort` is an exception raised from outside
before the report is complete, `draw` renders and encodes the report. -/
def finishRun (report : Except Err Report) (abort : Option Err) (draw : Report → List UInt8) (wr : Writing)
    (fs : Files) (args : Args) : Files × Except Err Unit :=
  match abort, report with
  | some e, _ => (fs, .error (handled e))
  | none, .error e => (fs, .error (handled e))
  | none, .ok r =>
    match args.outputFile with
    | some (c :: fn) =>
      let x := writeOutputFile fs (c :: fn) (draw r) wr
      (x.1, x.2.mapError handled)
    | _ => (fs, .ok ())

end EspSize
