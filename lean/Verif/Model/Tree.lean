import Verif.Py.Dict
/-!
# The memory map dictionary

`/repo/esp_idf_size/memorymap.py:125-176` (docstring of `get`) and `:187-196`.
-/
namespace EspSize

/-- Symbol entry, `memorymap.py:1269-1273`.  `nullKid` records the spurious `None: {}` item that
`unify_items` adds to symbol entries (`memorymap.py:450,464`; `sublevel` is `None` there). -/
structure Sym where
  abb : Str
  size : Int
  sizeDiff : Int
  nullKid : Bool := false
deriving DecidableEq, Repr

/-- Section (`memorymap.py:1527-1532`), archive (`:1242-1247`) or object file (`:1256-1261`) entry;
`kids` is the dictionary stored under `archives`, `object_files` or `symbols`. -/
structure Node (α : Type) where
  abb : Str
  size : Int
  sizeDiff : Int
  kids : Dict Str α
deriving DecidableEq, Repr

abbrev Obj := Node Sym
abbrev Arch := Node Obj
abbrev Sec := Node Arch

/-- Memory type entry, `memorymap.py:1469-1475`. -/
structure MType where
  size : Int
  sizeDiff : Int
  used : Int
  usedDiff : Int
  sections : Dict Str Sec
deriving DecidableEq, Repr

/-- Memory map, `memorymap.py:187-196`. -/
structure MemMap where
  version : Str
  target : Str
  targetDiff : Str
  imageSize : Int
  imageSizeDiff : Int
  projectPath : Str
  projectPathDiff : Str
  memoryTypes : Dict Str MType
deriving DecidableEq, Repr

end EspSize
