import Verif.Py.Json
import Verif.Model.SummaryTable
import Verif.Model.Deps
import Verif.Model.Summary
/-!
# The values given to `json.dumps`

`/repo/esp_idf_size/format_json.py`, `/repo/esp_idf_size/format_raw.py`.  Keys are in the order in which the code
creates them.
-/
namespace EspSize

/-- A dictionary with values of one kind. -/
def dictJson {α : Type} (f : α → Json) (d : Dict Str α) : Json := .obj (d.map fun p => (p.1, f p.2))

/-- `memorymap.py:1269-1273`; with the item `None: {}` of `memorymap.py:460-465`, whose key `json.dumps` writes as
`"null"`. -/
def symJson (s : Sym) : Json :=
  .obj ([(str "abbrev_name", .str s.abb), (str "size", .int s.size), (str "size_diff", .int s.sizeDiff)] ++
    if s.nullKid then [(str "null", .obj [])] else [])

/-- `memorymap.py:1242-1247,1256-1261,1527-1532,460-465`. -/
def nodeJson {α : Type} (sub : Str) (f : α → Json) (x : Node α) : Json :=
  .obj [(str "abbrev_name", .str x.abb), (str "size", .int x.size), (str "size_diff", .int x.sizeDiff),
        (sub, dictJson f x.kids)]

def objFileJson : Obj → Json := nodeJson (str "symbols") symJson
def archJson : Arch → Json := nodeJson (str "object_files") objFileJson
def secJson : Sec → Json := nodeJson (str "archives") archJson

/-- `memorymap.py:1469-1475`. -/
def typeJson (t : MType) : Json :=
  .obj [(str "size", .int t.size), (str "size_diff", .int t.sizeDiff), (str "used", .int t.used),
        (str "used_diff", .int t.usedDiff), (str "sections", dictJson secJson t.sections)]

/-- The memory map, `memorymap.py:187-196`, `format_raw.py:16`. -/
def mapJson (m : MemMap) : Json :=
  .obj [(str "version", .str m.version), (str "target", .str m.target), (str "target_diff", .str m.targetDiff),
        (str "image_size", .int m.imageSize), (str "image_size_diff", .int m.imageSizeDiff),
        (str "project_path", .str m.projectPath), (str "project_path_diff", .str m.projectPathDiff),
        (str "memory_types", dictJson typeJson m.memoryTypes)]

/-- `memorymap.py:661-665`. -/
def ssecJson (s : SSec) : Json :=
  .obj [(str "size", .int s.size), (str "size_diff", .int s.sizeDiff), (str "abbrev_name", .str s.abb)]

/-- `memorymap.py:655-659`. -/
def stypeJson (t : SType) : Json :=
  .obj [(str "size", .int t.size), (str "size_diff", .int t.sizeDiff), (str "sections", dictJson ssecJson t.sections)]

/-- `memorymap.py:746-751,794-799,827-832`. -/
def entryJson (e : Entry) : Json :=
  .obj [(str "abbrev_name", .str e.abb), (str "size", .int e.size), (str "size_diff", .int e.sizeDiff),
        (str "memory_types", dictJson stypeJson e.types)]

/-- `format_json.py:41,47,53`. -/
def entriesJson (es : Dict Str Entry) : Json := dictJson entryJson es

/-- `deps.py:42-46`. -/
def depInfoJson (d : DepInfo) : Json :=
  .obj [(str "abbrev_name", .str d.abb), (str "size", .int d.size), (str "symbols", .arr (d.symbols.map .str))]

/-- `deps.py:35-39`. -/
def depArchJson (d : DepArch) : Json :=
  .obj [(str "abbrev_name", .str d.abb), (str "size", .int d.size), (str "archives", dictJson depInfoJson d.archives)]

/-- `format_json.py:60`, `format_raw.py:14`. -/
def depsJson (d : Deps) : Json := dictJson depArchJson d

/-- `format_json.py:21-34`. -/
def layoutJson (l : Layout) : Json :=
  .obj [(str "name", .str l.name), (str "total", .int l.total), (str "used", .int l.used), (str "free", .int l.free),
        (str "parts", dictJson (fun z => .obj [(str "size", .int z)]) l.parts)]

/-- `format_json.py:12-16,36`. -/
def summaryJson (s : JsonSummary) : Json :=
  .obj [(str "version", .str s.version), (str "total_size", .int s.totalSize), (str "layout", .arr (s.layout.map layoutJson))]

end EspSize
