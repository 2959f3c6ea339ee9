import Verif.Py.Dict
/-!
# Linker memory regions and chip memory types

`/repo/esp_idf_size/memorymap.py:851-926`.
-/
namespace EspSize

/-- Entry of the chip info table after `_get_memory_types`, `memorymap.py:1442-1451`: a missing
secondary address is 0, a missing display name is the key. -/
structure MemTypeInfo where
  name : Str
  primary : Int
  length : Int
  secondary : Int
deriving DecidableEq, Repr

/-- Memory region of the link map file, `mapfile.py` `_get_memory_regions`. -/
structure Region where
  name : Str
  origin : Int
  length : Int
  attrs : Str
deriving DecidableEq, Repr

/-- Region piece with its memory type, `memorymap.py:888-894`. -/
structure SReg where
  name : Str
  origin : Int
  length : Int
  attrs : Str
  type : MemTypeInfo
deriving DecidableEq, Repr

/-- `_filter_memory_regions`, `memorymap.py:851-861`. -/
def filterMemoryRegions (rs : List Region) : List Region := rs.filter fun r => r.name ≠ str "*default*"

/-- The search of `memorymap.py:873-885`: the first memory type one of whose windows contains the
address, with the start of that window. -/
def findType : Dict Str MemTypeInfo → Int → Option (MemTypeInfo × Int)
  | [], _ => none
  | (_, t) :: ts, o =>
    if t.primary ≤ o ∧ o < t.primary + t.length then some (t, t.primary)
    else if t.secondary ≠ 0 ∧ t.secondary ≤ o ∧ o < t.secondary + t.length then some (t, t.secondary)
    else findType ts o

/-- Variables of the loop `memorymap.py:872-922`. -/
structure SplitSt where
  origin : Int
  length : Int
  acc : List SReg
deriving DecidableEq, Repr

/-- How one iteration ends. -/
inductive SplitOut where
  | next (s : SplitSt)          -- the loop goes on
  | done (acc : List SReg)      -- `if not mem_reg_length: break`
  | skipped (acc : List SReg)   -- warning "cannot assign memory region", break
deriving DecidableEq, Repr

/-- One iteration of `while True`, `memorymap.py:872-922`. -/
def splitBody (types : Dict Str MemTypeInfo) (r : Region) (s : SplitSt) : SplitOut :=
  match findType types s.origin with
  | some (t, base) =>
    let used := min s.length (t.length - (s.origin - base))
    let s' : SplitSt :=
      { origin := s.origin + used, length := s.length - used,
        acc := s.acc ++ [{ name := r.name, origin := s.origin, length := used, attrs := r.attrs, type := t }] }
    if s'.length = 0 then .done s'.acc else .next s'
  | none =>
    match s.acc.find? (fun p => s.origin + s.length = p.origin + p.length) with
    | some p =>
      let acc := s.acc ++ [{ name := r.name, origin := s.origin, length := s.length, attrs := r.attrs, type := p.type }]
      if s.length = 0 then .done acc else .next { s with acc := acc }
    | none => .skipped s.acc

/-- `n` iterations at most; `none` when the loop has not ended by then.  The Boolean tells whether
the warning was issued. -/
def splitLoop (types : Dict Str MemTypeInfo) (r : Region) : Nat → SplitSt → Option (List SReg × Bool)
  | 0, _ => none
  | n + 1, s =>
    match splitBody types r s with
    | .next s' => splitLoop types r n s'
    | .done acc => some (acc, false)
    | .skipped acc => some (acc, true)

/-- `_split_memory_regions`, `memorymap.py:864-926`, with at most `n` iterations per region; returns
the pieces and the names of the regions warned about. -/
def splitMemoryRegions (n : Nat) (types : Dict Str MemTypeInfo) :
    List Region → List SReg → List Str → Option (List SReg × List Str)
  | [], acc, ws => some (acc, ws)
  | r :: rs, acc, ws =>
    match splitLoop types r n { origin := r.origin, length := r.length, acc := acc } with
    | none => none
    | some (acc', w) => splitMemoryRegions n types rs acc' (if w then ws ++ [r.name] else ws)

end EspSize
