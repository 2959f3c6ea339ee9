import Verif.Model.Args
import Verif.Py.Sort
/-!
# Tree transformations: `walk`, `remove_unused`, `ignore_flash_size`, `trim`, `sort`

`/repo/esp_idf_size/memorymap.py:491-671`.
-/
namespace EspSize

/-- One tuple yielded by `walk`: `None` components are `none`. -/
structure Item where
  type : Str × MType
  sec : Option (Str × Sec) := none
  arch : Option (Str × Arch) := none
  obj : Option (Str × Obj) := none
  sym : Option (Str × Sym) := none

/-- Body of the object file loop of `walk`, `memorymap.py:516-543`. -/
def walkObj (depth : Str) (t : Str × MType) (s : Str × Sec) (a : Str × Arch) (o : Str × Obj) : List Item :=
  if depth = str "objects" then [{ type := t, sec := some s, arch := some a, obj := some o }]
  else o.2.kids.map fun y => { type := t, sec := some s, arch := some a, obj := some o, sym := some y }

/-- Body of the archive loop, `memorymap.py:501-543`. -/
def walkArch (depth : Str) (t : Str × MType) (s : Str × Sec) (a : Str × Arch) : List Item :=
  if depth = str "archives" then [{ type := t, sec := some s, arch := some a }]
  else a.2.kids.flatMap (walkObj depth t s a)

/-- Body of the section loop, `memorymap.py:497-543`. -/
def walkSec (depth : Str) (t : Str × MType) (s : Str × Sec) : List Item :=
  if depth = str "sections" then [{ type := t, sec := some s }]
  else s.2.kids.flatMap (walkArch depth t s)

/-- Body of the memory type loop, `memorymap.py:493-543`. -/
def walkType (depth : Str) (t : Str × MType) : List Item :=
  if depth = str "types" then [{ type := t }]
  else t.2.sections.flatMap (walkSec depth t)

/-- `walk`, `memorymap.py:491-543`.  The generator is the list of what it yields; `depth` is
compared with the four strings, anything else is full depth. -/
def walk (m : MemMap) (depth : Str) : List Item := m.memoryTypes.flatMap (walkType depth)

/-- `remove_unused`, `memorymap.py:546-559`. -/
def removeUnused (m : MemMap) : MemMap :=
  let types := dfilter (fun _ v => v.used ≠ 0) m.memoryTypes
  let types := dmap (fun _ v => { v with sections := dfilter (fun _ s => !s.kids.isEmpty) v.sections })
    types
  let types := dmap (fun _ v => { v with used := v.sections.foldl (fun u s => u + s.2.size) 0 }) types
  { m with memoryTypes := types }

/-- `ignore_flash_size`, `memorymap.py:562-572`. -/
def ignoreFlashSize (m : MemMap) : MemMap :=
  { m with memoryTypes := dmap (fun k v =>
      if contains (str "flash") (lower k) then { v with size := 0 } else v) m.memoryTypes }

/-- `ARCHIVE_DETAILS, ARCHIVES, OBJECTS, ALL = range(4)`, `memorymap.py:585`. -/
inductive Depth where
  | archiveDetails | archives | objects | all
deriving DecidableEq

/-- `memorymap.py:587-594`. -/
def trimDepth (args : Args) : Depth :=
  if truthy args.archiveDetails then .archiveDetails
  else if args.archives then .archives
  else if args.files then .objects
  else .all

/-- `changed`, `memorymap.py:580-583`. -/
def changed (args : Args) (d : Int) : Bool :=
  if !truthy args.diff || args.showUnchanged then true else d ≠ 0

/-- Body of the innermost loop, `memorymap.py:621-627`. -/
def trimObj (args : Args) (o : Obj) : Obj :=
  if trimDepth args = .objects then { o with kids := [] }
  else { o with kids := dfilter (fun _ v => changed args v.sizeDiff) o.kids }

/-- `memorymap.py:613-627`. -/
def trimArch (args : Args) (a : Arch) : Arch :=
  if trimDepth args = .archives then { a with kids := [] }
  else { a with kids := dmap (fun _ => trimObj args)
                  (dfilter (fun _ v => changed args v.sizeDiff) a.kids) }

/-- `memorymap.py:601-627`. -/
def trimSec (args : Args) (s : Sec) : Sec :=
  let kids :=
    if trimDepth args = .archiveDetails then
      dfilter (fun _ v => (some v.abb = args.archiveDetails) && changed args v.sizeDiff) s.kids
    else dfilter (fun _ v => changed args v.sizeDiff) s.kids
  { s with kids := dmap (fun _ => trimArch args) kids }

/-- `memorymap.py:598-627`. -/
def trimMType (args : Args) (t : MType) : MType :=
  { t with sections := dmap (fun _ => trimSec args)
             (dfilter (fun _ v => changed args v.sizeDiff) t.sections) }

/-- `trim`, `memorymap.py:575-627`. -/
def trim (m : MemMap) (args : Args) : MemMap :=
  { m with memoryTypes := dmap (fun _ => trimMType args)
             (dfilter (fun _ v => changed args v.usedDiff) m.memoryTypes) }

/-- `sort_dict_by_key`, `memorymap.py:670-671`, for integer keys. -/
def sortDict {α : Type} (key : α → Int) (rev : Bool) (d : Dict Str α) : Dict Str α :=
  sortedBy (fun p => key p.2) rev d

/-- `sort`, `memorymap.py:630-647`, level by level. -/
def sortObj (args : Args) (o : Obj) : Obj :=
  { o with kids := sortDict (if args.sortDiff then Sym.sizeDiff else Sym.size) args.sortReverse o.kids }
def sortNode {α : Type} (sortKid : α → α) (key : α → Int) (args : Args) (n : Node α) : Node α :=
  { n with kids := dmap (fun _ => sortKid) (sortDict key args.sortReverse n.kids) }
def sortArch (args : Args) : Arch → Arch :=
  sortNode (sortObj args) (if args.sortDiff then Node.sizeDiff else Node.size) args
def sortSec (args : Args) : Sec → Sec :=
  sortNode (sortArch args) (if args.sortDiff then Node.sizeDiff else Node.size) args
def sortMType (args : Args) (t : MType) : MType :=
  { t with sections := dmap (fun _ => sortSec args)
             (sortDict (if args.sortDiff then Node.sizeDiff else Node.size) args.sortReverse t.sections) }
def sort (m : MemMap) (args : Args) : MemMap :=
  { m with memoryTypes := dmap (fun _ => sortMType args)
             (sortDict (if args.sortDiff then MType.usedDiff else MType.used) args.sortReverse m.memoryTypes) }

end EspSize
