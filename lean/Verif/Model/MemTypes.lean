import Verif.Model.Sections
/-!
# The memory type map

`_get_mem_type_map`, `/repo/esp_idf_size/memorymap.py:1458-1594`.
-/
namespace EspSize

/-- `EXT_RAM_TYPE_NAMES`, `memorymap.py:73`. -/
def extRamTypeNames : List Str := [str "External RAM", str "SPI DRAM"]
/-- `EXT_RAM_SECTION_NAMES`, `memorymap.py:83`. -/
def extRamSectionNames : List Str := [str ".ext_ram.bss", str ".ext_ram_noinit"]

/-- New entry, `memorymap.py:1469-1475`. -/
def emptyType : MType := { size := 0, sizeDiff := 0, used := 0, usedDiff := 0, sections := [] }

/-- `memorymap.py:1467-1476`, the entries. -/
def initTypes (types : Dict Str MemTypeInfo) : Dict Str MType :=
  types.foldl (fun d p => dset d p.2.name emptyType) []

/-- The test of `memorymap.py:1495-1497`: `r` is mapped to the same memory as the earlier `q`. -/
def isAlias (q r : SReg) : Bool :=
  let offset := if r.type.secondary ≠ 0 then (r.type.primary - r.type.secondary).natAbs else 0
  offset = (q.origin - r.origin).natAbs && q.length = r.length

/-- One region in the loop `memorymap.py:1479-1509`; the second component are the regions already
assigned to each name (`memory_types_regions`). -/
def addRegion (st : Dict Str MType × Dict Str (List SReg)) (r : SReg) :
    Except Err (Dict Str MType × Dict Str (List SReg)) :=
  match dget st.1 r.type.name, dget st.2 r.type.name with
  | some mt, some l =>
    if l.isEmpty then
      .ok (dset st.1 r.type.name { mt with size := r.length }, dset st.2 r.type.name (l ++ [r]))
    else if l.any fun q => isAlias q r then
      .ok (st.1, dset st.2 r.type.name (l ++ [r]))
    else
      .ok (dset st.1 r.type.name { mt with size := mt.size + r.length }, dset st.2 r.type.name (l ++ [r]))
  | _, _ => .error .keyError

/-- `memorymap.py:1460-1509`. -/
def typeSizes (types : Dict Str MemTypeInfo) (regions : List SReg) : Except Err (Dict Str MType) := do
  let st ← regions.foldlM addRegion
    (initTypes types, types.foldl (fun d p => dset d p.2.name []) [])
  .ok st.1

/-- Where an output section goes. -/
inductive Placement where
  | ext (alias : Str)                 -- by name
  | inside (r : SReg)                 -- region that contains its address
  | overflow (r : SReg)               -- preceding region, with a warning
  | nowhere                           -- only a warning
deriving DecidableEq, Repr

/-- The loop over the sorted regions, `memorymap.py:1534-1588`. -/
def placeLoop (addr : Int) : Option SReg → List SReg → Placement
  | _, [] => .nowhere
  | prev, r :: rs =>
    if r.origin ≤ addr ∧ addr < r.origin + r.length then .inside r
    else match prev with
      | some p => if r.origin > addr then .overflow p else placeLoop addr (some r) rs
      | none => placeLoop addr (some r) rs

/-- `ext_ram_alias`, `memorymap.py:1516-1519`. -/
def extRamAlias (types : Dict Str MemTypeInfo) : Option Str :=
  (types.find? fun p => extRamTypeNames.contains p.2.name).map fun p => p.2.name

/-- The decision for one output section, `memorymap.py:1521-1594`. -/
def place (ext : Option Str) (sorted : List SReg) (s : MSec) : Placement :=
  match ext with
  | some e => if startsWithAny s.name extRamSectionNames then .ext e else placeLoop s.address none sorted
  | none => placeLoop s.address none sorted

/-- `memory_map[alias]['used'] += ...; memory_map[alias]['sections'][key] = {...}`. -/
def putSection (d : Dict Str MType) (alias key abb : Str) (s : MSec) : Except Err (Dict Str MType) :=
  match dget d alias with
  | none => .error .keyError
  | some mt =>
    .ok (dset d alias
      { mt with used := mt.used + s.size
                sections := dset mt.sections key { abb := abb, size := s.size, sizeDiff := 0, kids := s.archives } })

/-- `memorymap.py:1575`. -/
def overflowName (name : Str) : Str := name ++ str "_overflow"

/-- One output section, `memorymap.py:1520-1594`. -/
def addSection (ext : Option Str) (sorted : List SReg) (d : Dict Str MType) (s : MSec) :
    Except Err (Dict Str MType) :=
  match place ext sorted s with
  | .ext e => putSection d e s.name s.abb s
  | .inside r => putSection d r.type.name s.name s.abb s
  | .overflow r => putSection d r.type.name (overflowName s.name) (abbrevSec (overflowName s.name)) s
  | .nowhere => .ok d

/-- `_get_mem_type_map`, `memorymap.py:1458-1594`. -/
def getMemTypeMap (types : Dict Str MemTypeInfo) (regions : List SReg) (sections : List MSec) :
    Except Err (Dict Str MType) := do
  let d ← typeSizes types regions
  sections.foldlM (addSection (extRamAlias types) (sortedBy (fun r => r.origin) false regions)) d

end EspSize
