import Verif.Model.Run
import Verif.Py.Abspath
/-! # A run with paths as they are given

`/repo/esp_idf_size/main.py:118-126` uses the path of the link map file as it is for `MapFile` and `get_elf`;
`memorymap.get` makes it absolute, `/repo/esp_idf_size/memorymap.py:200`. -/
namespace EspSize

/-- `memorymap.get`, `memorymap.py:92-291`, with the path as given. -/
def getMapAt (cwd : Str) (n : Nat) (w : World) (input : Str) (loadSymbols : Bool) (useDwarf : Option Bool)
    (mapFile : Option MapFile) (elf : Option ElfData) : Option (Except Err MemMap) :=
  getMap n w (abspath cwd input) loadSymbols useDwarf mapFile elf

/-- The part of a run that makes the report, `main.py:99-152`, in the directory `cwd`. -/
def makeReportAt (cwd : Str) (R : RunIn) (input : Str) (args : Args) : Option (Except Err Report) :=
  let args := effectiveArgs args
  match loadMap R.w input with
  | .error x => some (.error x)
  | .ok mf =>
    match getElf R.w input none with
    | .error x => some (.error x)
    | .ok elf =>
      match getMapAt cwd R.n R.w input (loadSymbolsOf args) (useDwarfOf args) (some mf) elf with
      | none => none
      | some (.error x) => some (.error x)
      | some (.ok m) =>
        match referenceMap args m fun fn => getMapAt cwd R.n R.w fn (loadSymbolsOf args) (useDwarfOf args) none none with
        | none => none
        | some (.error x) => some (.error x)
        | some (.ok ref) =>
          match prepare args m ref with
          | .error x => some (.error x)
          | .ok d => some (showReport R mf.crt (elf.map (·.syms)) args d)

end EspSize
