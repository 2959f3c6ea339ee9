import Verif.Model.Tree
/-!
# `memorymap.diff`

`/repo/esp_idf_size/memorymap.py:294-423`.  The same code is written out for each of the five
levels; the model has one generic step per loop, instantiated per level.
`copy.deepcopy` is the identity.  Dictionaries describing entries are never empty, so the
truthiness tests of lines 366-419 are presence tests.
-/
namespace EspSize

/-- One level of the merge loop (`memorymap.py:329-360`): an entry missing in `d` is copied from
the reference, a present one is kept and `mergeOne` descends into it. -/
def mergeLevel {α : Type} (mergeOne : α → α → α) (d ref : Dict Str α) : Dict Str α :=
  ref.foldl (fun d p =>
    match dget d p.1 with
    | none => dset d p.1 p.2
    | some c => dset d p.1 (mergeOne c p.2)) d

/-- `memorymap.py:357-360`: a symbol present in both is left alone. -/
def mergeSym (c _r : Sym) : Sym := c

/-- `memorymap.py:341-355`: descend into the children of an entry present in both. -/
def mergeNode {α : Type} (mergeOne : α → α → α) (c r : Node α) : Node α :=
  { c with kids := mergeLevel mergeOne c.kids r.kids }

def mergeObj : Obj → Obj → Obj := mergeNode mergeSym
def mergeArch : Arch → Arch → Arch := mergeNode mergeObj
def mergeSec : Sec → Sec → Sec := mergeNode mergeArch

/-- `memorymap.py:334-339`. -/
def mergeMType (c r : MType) : MType :=
  { c with sections := mergeLevel mergeSec c.sections r.sections }

/-- The loop over one level of the fix-up (`memorymap.py:363-420`): each entry of the merged
dictionary is fixed using the entries of the same name in cur and ref. -/
def fixLevel {α : Type} (fixOne : Option α → Option α → α → Except Err α)
    (cur ref d : Dict Str α) : Except Err (Dict Str α) :=
  dmapM (fun k v => fixOne (dget cur k) (dget ref k) v) d

/-- `memorymap.py:414-420`. `ref['size']` on an entry missing in both would be a `KeyError`. -/
def fixSym (cur ref : Option Sym) (d : Sym) : Except Err Sym :=
  match cur, ref with
  | some c, some r => .ok { d with sizeDiff := c.size - r.size }
  | some c, none => .ok { d with sizeDiff := c.size }
  | none, some r => .ok { d with size := 0, sizeDiff := 0 - r.size }
  | none, none => .error .keyError

/-- `.get('archives', {})` etc. on a possibly missing entry (`memorymap.py:390-391`). -/
def kidsOf {α : Type} (n : Option (Node α)) : Dict Str α :=
  match n with
  | some n => n.kids
  | none => []

/-- `memorymap.py:378-409`: fix the sizes of a section, archive or object file, then its
children. -/
def fixNode {α : Type} (fixOne : Option α → Option α → α → Except Err α)
    (cur ref : Option (Node α)) (d : Node α) : Except Err (Node α) := do
  let d ← match cur, ref with
    | some c, some r => .ok { d with sizeDiff := c.size - r.size }
    | some c, none => .ok { d with sizeDiff := c.size }
    | none, some r => .ok { d with size := 0, sizeDiff := 0 - r.size }
    | none, none => .error .keyError
  let kids ← fixLevel fixOne (kidsOf cur) (kidsOf ref) d.kids
  .ok { d with kids := kids }

def fixObj : Option Obj → Option Obj → Obj → Except Err Obj := fixNode fixSym
def fixArch : Option Arch → Option Arch → Arch → Except Err Arch := fixNode fixObj
def fixSec : Option Sec → Option Sec → Sec → Except Err Sec := fixNode fixArch

/-- `.get('sections', {})`, `memorymap.py:379-380`. -/
def sectionsOf (t : Option MType) : Dict Str Sec :=
  match t with
  | some t => t.sections
  | none => []

/-- `memorymap.py:363-380`. -/
def fixMType (cur ref : Option MType) (d : MType) : Except Err MType := do
  let d ← match cur, ref with
    | some c, some r => .ok { d with sizeDiff := c.size - r.size, usedDiff := c.used - r.used }
    | some c, none => .ok { d with sizeDiff := c.size, usedDiff := c.used }
    | none, some r =>
      .ok { d with size := 0, used := 0, sizeDiff := 0 - r.size, usedDiff := 0 - r.used }
    | none, none => .error .keyError
  let sections ← fixLevel fixSec (sectionsOf cur) (sectionsOf ref) d.sections
  .ok { d with sections := sections }

/-- `memorymap.diff`, `memorymap.py:294-423`. -/
def diff (cur ref : MemMap) : Except Err MemMap := do
  let merged := mergeLevel mergeMType cur.memoryTypes ref.memoryTypes
  let types ← fixLevel fixMType cur.memoryTypes ref.memoryTypes merged
  .ok { cur with
    targetDiff := ref.target
    projectPathDiff := ref.projectPath
    imageSizeDiff := cur.imageSize - ref.imageSize
    memoryTypes := types }

end EspSize
