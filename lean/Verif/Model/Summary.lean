import Verif.Model.Ops
import Verif.Py.Path
/-!
# Per-archive, per-file and per-symbol summaries

`/repo/esp_idf_size/memorymap.py:650-848`.
-/
namespace EspSize

/-- Section entry of a summary, `memorymap.py:661-665`. -/
structure SSec where
  abb : Str
  size : Int
  sizeDiff : Int
deriving DecidableEq, Repr

/-- Memory type entry of a summary, `memorymap.py:655-659`. -/
structure SType where
  size : Int
  sizeDiff : Int
  sections : Dict Str SSec
deriving DecidableEq, Repr

/-- Archive, file or symbol entry, `memorymap.py:746-751, 794-799, 827-832`. -/
structure Entry where
  abb : Str
  size : Int
  sizeDiff : Int
  types : Dict Str SType
deriving DecidableEq, Repr

/-- `_get_summary_memory_types`, `memorymap.py:650-667`. -/
def summaryTypes (m : MemMap) : Dict Str SType :=
  dmap (fun _ t => { size := 0, sizeDiff := 0,
                     sections := dmap (fun _ s => { abb := s.abb, size := 0, sizeDiff := 0 }) t.sections })
    m.memoryTypes

/-- What one iteration of the three loops contributes: the key of the entry, its abbreviated name
if it is new, the memory type and section, and the two sizes. -/
structure Rec where
  key : Str
  abb : Str
  type : Str
  sec : Str
  size : Int
  sizeDiff : Int

/-- `memorymap.py:753-763` (also `:801-811`, `:836-846`): the section size is assigned, the others
are added to. -/
def bump (e : Entry) (r : Rec) : Except Err Entry :=
  match dget e.types r.type with
  | none => .error .keyError
  | some st =>
    match dget st.sections r.sec with
    | none => .error .keyError
    | some ss =>
      .ok { e with
            size := e.size + r.size
            sizeDiff := e.sizeDiff + r.sizeDiff
            types := dset e.types r.type
              { size := st.size + r.size
                sizeDiff := st.sizeDiff + r.sizeDiff
                sections := dset st.sections r.sec { ss with size := r.size, sizeDiff := r.sizeDiff } } }

/-- Loop body: find or create the entry, then add (`memorymap.py:742-763`). -/
def addRec (mt : Dict Str SType) (acc : Dict Str Entry) (r : Rec) : Except Err (Dict Str Entry) := do
  let e := match dget acc r.key with
    | none => { abb := r.abb, size := 0, sizeDiff := 0, types := mt }
    | some e => e
  let e ← bump e r
  .ok (dset acc r.key e)

def summarize (mt : Dict Str SType) (recs : List Rec) : Except Err (Dict Str Entry) :=
  recs.foldlM (addRec mt) []

/-- `rem_summary_unchanged`, `memorymap.py:711-716`. -/
def remSummaryUnchanged (entries : Dict Str Entry) (args : Args) : Dict Str Entry :=
  if !truthy args.diff || args.showUnchanged then entries
  else dfilter (fun _ v => v.sizeDiff ≠ 0) entries

/-- Contribution of a `walk(depth='archives')` tuple, `memorymap.py:823-846`. -/
def archRec (i : Item) : Option Rec :=
  match i.sec, i.arch with
  | some s, some a =>
    some { key := a.1, abb := a.2.abb, type := i.type.1, sec := s.1, size := a.2.size,
           sizeDiff := a.2.sizeDiff }
  | _, _ => none

/-- `get_archives_summary`, `memorymap.py:818-848`. -/
def getArchivesSummary (m : MemMap) (args : Args) : Except Err (Dict Str Entry) := do
  let e ← summarize (summaryTypes m) ((walk m (str "archives")).filterMap archRec)
  .ok (remSummaryUnchanged e args)

/-- Contribution of a `walk(depth='objects')` tuple, `memorymap.py:787-811`. -/
def objRec (unify : Bool) (i : Item) : Option Rec :=
  match i.sec, i.arch, i.obj with
  | some s, some a, some o =>
    some { key := if unify then o.2.abb else join (str ":") [a.1, o.1], abb := basename o.1,
           type := i.type.1, sec := s.1, size := o.2.size, sizeDiff := o.2.sizeDiff }
  | _, _, _ => none

/-- `get_object_files_summary`, `memorymap.py:773-815`. -/
def getObjectFilesSummary (m : MemMap) (args : Args) : Except Err (Dict Str Entry) := do
  let e ← summarize (summaryTypes m) ((walk m (str "objects")).filterMap (objRec args.unify))
  .ok (remSummaryUnchanged e args)

/-- Contribution of a `walk()` tuple, `memorymap.py:733-763`. -/
def symRec (unify : Bool) (details : Option Str) (i : Item) : Option Rec :=
  match i.sec, i.arch, i.obj, i.sym with
  | some s, some a, some o, some y =>
    if some a.2.abb ≠ details then none
    else some { key := if unify then y.2.abb else join (str ":") [a.1, o.1, y.1], abb := y.1,
                type := i.type.1, sec := s.1, size := y.2.size, sizeDiff := y.2.sizeDiff }
  | _, _, _, _ => none

/-- `get_symbols_summary`, `memorymap.py:719-770`; `found` is true iff some tuple was not skipped. -/
def getSymbolsSummary (m : MemMap) (args : Args) : Except Err (Dict Str Entry) := do
  let recs := (walk m (str "all")).filterMap (symRec args.unify args.archiveDetails)
  let e ← summarize (summaryTypes m) recs
  if recs.isEmpty then .error .exit            -- log.die, memorymap.py:767-768
  else .ok (remSummaryUnchanged e args)

/-- Inner loops of `get_summary_sorted`, `memorymap.py:680-684`. -/
def sortSType (args : Args) (t : SType) : SType :=
  let key := if args.sortDiff then SSec.sizeDiff else SSec.size
  { t with sections := sortDict key args.sortReverse t.sections }
def sortEntry (args : Args) (e : Entry) : Entry :=
  let key := if args.sortDiff then SType.sizeDiff else SType.size
  { e with types := dmap (fun _ => sortSType args) (sortDict key args.sortReverse e.types) }

/-- `get_summary_sorted`, `memorymap.py:674-686`. -/
def getSummarySorted (entries : Dict Str Entry) (args : Args) : Dict Str Entry :=
  let key := if args.sortDiff then Entry.sizeDiff else Entry.size
  dmap (fun _ => sortEntry args) (sortDict key args.sortReverse entries)

end EspSize
