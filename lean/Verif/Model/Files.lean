import Verif.Py.JsonLoad
import Verif.Py.Split
import Verif.Model.ElfView
import Verif.Model.Chips
import Verif.Model.Run
/-!
# Reading the files of a project

`/repo/esp_idf_size/mapfile.py:29-36`, `/repo/esp_idf_size/memorymap.py:1081-1102,1431-1455,1597-1627`.  A file is its bytes; a
path at which there is no file that can be read is `none`.  JSON files are read in the encoding of the locale, assumed to be UTF-8.  A
description or configuration whose values do not have the expected types is treated like one that is not there
(the code raises an exception then; `Model/DescJson` models it, and `C105_files` proves that the two agree for the expected types).
-/
namespace EspSize

/-- Universal newlines: text mode turns `\r\n` and `\r` into `\n`. -/
def newlines : Str → Str
  | [] => []
  | '\r' :: '\n' :: t => '\n' :: newlines t
  | c :: t => (if c = '\r' then '\n' else c) :: newlines t

/-- `f.read()` of a file opened in text mode with encoding UTF-8; `UnicodeDecodeError` is a `ValueError`. -/
def readText (fs : Files) (fn : Str) : Except Err Str :=
  match fs fn with
  | none => .error .osError
  | some b => match decodeUtf8 b with
    | .ok s => .ok (newlines s)
    | .error _ => .error .valueError

/-- `_get_mapfile_lines`, `mapfile.py:29-36`, before the exceptions are handled. -/
def mapLines (fs : Files) (fn : Str) : Except Err (List Str) := (readText fs fn).map splitlines

/-- `_load_json_file`, `memorymap.py:1081-1089`: the value `null` is Python's `None`, as if there was no file. -/
def loadJson (fs : Files) (fn : Str) : Option JVal :=
  match readText fs fn with
  | .error _ => none
  | .ok s => match jsonLoads s with
    | some .null => none
    | r => r

/-- A string, or no value at all; `none` for a value of another type. -/
def optStr : Option JVal → Option (Option Str)
  | none => some none
  | some (.str s) => some (some s)
  | some _ => none

/-- A component of `build_component_info`; only `dir` and `file` are used. -/
def compOf : JVal → Option Comp
  | .obj d => match dget d (str "dir"), dget d (str "file") with
    | some (.str dir), some (.str file) => some ⟨dir, file⟩
    | _, _ => none
  | _ => none

/-- `build_component_info`. -/
def compsOf : Option JVal → Option (Option (List Comp))
  | none => some none
  | some (.obj l) => (l.mapM fun p => compOf p.2).map some
  | some _ => none

/-- The keys of a description that are used. -/
def descKeys : List Str := [str "app_elf", str "target", str "build_dir", str "build_component_info"]

/-- `project_description.json`. -/
def descOf : JVal → Option ProjDesc
  | .obj d => do
    let appElf ← optStr (dget d (str "app_elf"))
    let target ← optStr (dget d (str "target"))
    let build ← optStr (dget d (str "build_dir"))
    let comps ← compsOf (dget d (str "build_component_info"))
    some ⟨appElf, target, build, comps, d.any fun p => !descKeys.contains p.1⟩
  | _ => none

/-- `sdkconfig.get('COMPILER_LTO_LINKTIME', False)`. -/
def ltoOf : JVal → Option Bool
  | .obj d => match dget d (str "COMPILER_LTO_LINKTIME") with
    | none => some false
    | some (.bool b) => some b
    | some _ => none
  | _ => none

/-- `chip_info/<name>`, `memorymap.py:1434-1453`; only the files of the package are considered. -/
def chipFile (name : Str) : Except Err (Dict Str MemTypeInfo) :=
  match chipTables.find? fun p => p.1 ++ str ".yaml" = name with
  | some p => .ok (memoryTypes p.2)
  | none => .error .osError

/-- What a run sees of the files; `long` is the size of `long` on the platform. -/
def worldOf (long : Nat) (fs : Files) : World where
  json := fun p => (loadJson fs p).bind descOf
  sdkconfig := fun p => (loadJson fs p).bind ltoOf
  lines := mapLines fs
  elf := fun p => (fs p).map (elfView long)
  chip := chipFile

end EspSize
