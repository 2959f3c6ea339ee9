import Verif.Model.Tree
import Verif.Model.Regions
import Verif.Py.Path
import Verif.Py.Sort
/-!
# Output sections, input sections, symbols and archives

`/repo/esp_idf_size/memorymap.py:929-1278`.  Sections come from the link map file
(`/repo/esp_idf_size/mapfile.py` `_get_sections`).  Simplification: addresses are integers; an
input section whose address is still `None` is outside this part of the model.
-/
namespace EspSize

/-- Entry of an input section's `symbols` list, `memorymap.py:1111-1115,1185-1191`. -/
structure MSym where
  name : Str
  address : Int
  size : Int
deriving DecidableEq, Repr

/-- Input section. -/
structure ISec where
  name : Str
  address : Int
  size : Int
  fill : Int
  archive : Str
  objectFile : Str
  symbols : List MSym := []
deriving DecidableEq, Repr

/-- Output section. -/
structure OSec where
  name : Str
  address : Int
  size : Int
  inputs : List ISec
deriving DecidableEq, Repr

/-! ## ELF section headers, filters and the image size -/

/-- The parts of `Elf_Shdr` (`elf.py:1373-1403`) the memory map uses. -/
structure Shdr where
  name : Str
  type : Nat
  flags : Nat
  size : Nat
deriving DecidableEq, Repr

/-- `_get_elf_sections_headers`, `memorymap.py:1197-1214` (`SHF_ALLOC = 2`). -/
def elfHeaders (elf : Option (List Shdr)) : Option (Dict Str Shdr) :=
  elf.map fun shdrs => shdrs.foldl (fun hdrs s =>
    if s.size = 0 then hdrs
    else if s.flags &&& 2 = 0 then hdrs
    else dset hdrs s.name s) []

/-- Truth value of the optional dictionary, as in `if elf_sections:`. -/
def hdrsTruthy : Option (Dict Str Shdr) → Bool
  | none => false
  | some d => !d.isEmpty

/-- The conditions of `memorymap.py:934-969` under which a section is kept. -/
def keepSection (hdrs : Option (Dict Str Shdr)) (s : OSec) : Bool :=
  if s.size = 0 then false
  else if endsWithAny s.name [str "dummy", str "reserved_for_iram"] then false
  else if endsWith s.name (str "noload") then false
  else if hdrsTruthy hdrs then
    if dhas (hdrs.getD []) s.name then true else false
  else
    if !endsWithAny s.name [str ".text", str ".data", str ".bss", str ".rodata", str "noinit", str ".vectors"]
        && !contains (str ".flash") s.name && !contains (str ".eh_frame") s.name then false
    else true

/-- `_filter_map_sections`, `memorymap.py:929-975`. -/
def filterMapSections (sections : List OSec) (hdrs : Option (Dict Str Shdr)) : List OSec :=
  (sections.filter (keepSection hdrs)).map fun s => { s with inputs := s.inputs.filter (·.size ≠ 0) }

/-- `_get_image_size`, `memorymap.py:1217-1233` (`SHT_PROGBITS = 1`). -/
def getImageSize (hdrs : Option (Dict Str Shdr)) (sections : List OSec) : Int :=
  if hdrsTruthy hdrs then
    (hdrs.getD []).foldl (fun size p => if p.2.type ≠ 1 then size else size + p.2.size) 0
  else
    sections.foldl (fun size s => if endsWithAny s.name [str ".bss", str "noinit"] then size else size + s.size) 0

/-! ## Splitting of output sections -/

/-- Splitting of one symbol list, `memorymap.py:1031-1052`. -/
def splitSyms (addr : Int) : List MSym → List MSym × List MSym
  | [] => ([], [])
  | y :: ys =>
    let (a, b) := splitSyms addr ys
    if y.address + y.size ≤ addr then (y :: a, b)
    else if y.address > addr then (a, y :: b)
    else
      let y1 := { y with size := addr - y.address }
      let y2 := { y with address := addr, size := y.size - (addr - y.address) }
      (y1 :: a, y2 :: b)

/-- Splitting of one input section, `memorymap.py:1019-1052`. -/
def splitInput (addr : Int) (i : ISec) : ISec × ISec :=
  let size1 := min (addr - i.address) i.size
  let fill1 := addr - (i.address + size1)
  let (s1, s2) := splitSyms addr i.symbols
  ({ i with size := size1, fill := fill1, symbols := s1 },
   { i with address := addr, size := i.size - size1, fill := i.fill - fill1, symbols := s2 })

/-- The loop over the input sections of a section that is split, `memorymap.py:1009-1062`. -/
def splitInputs (addr : Int) : List ISec → List ISec × List ISec
  | [] => ([], [])
  | i :: is =>
    let (a, b) := splitInputs addr is
    if i.address + i.size + i.fill ≤ addr then (i :: a, b)
    else if i.address > addr then (a, i :: b)
    else ((splitInput addr i).1 :: a, (splitInput addr i).2 :: b)

/-- The search of a region and the splitting, `memorymap.py:985-1070`: `none` when the section is kept
as it is, because it fits or because it starts in no region. -/
def splitSection (regions : List SReg) (s : OSec) : Option (OSec × OSec) :=
  match regions.find? (fun r => !(decide (s.address < r.origin) || decide (s.address ≥ r.origin + r.length))) with
  | none => none
  | some r =>
    if s.address + s.size ≤ r.origin + r.length then none
    else
      let addr := r.origin + r.length
      let size1 := addr - s.address
      some ({ s with size := size1, inputs := (splitInputs addr s.inputs).1 },
            { s with address := addr, size := s.size - size1, inputs := (splitInputs addr s.inputs).2 })

theorem splitSection_decreases {regions : List SReg} {s a b : OSec} (h : splitSection regions s = some (a, b)) :
    b.size.toNat < s.size.toNat := by
  unfold splitSection at h
  split at h
  · cases h
  · rename_i r hr
    have hr := List.find?_some hr
    split at h
    · cases h
    · cases h
      simp only [Bool.not_eq_true', Bool.or_eq_false_iff, decide_eq_false_iff_not] at hr
      simp only []
      omega

/-- The `while sections` loop of `_split_map_sections`, `memorymap.py:983-1070`; the head of the list is
the end of the Python list, from which sections are popped. -/
def splitStack (regions : List SReg) : List OSec → List OSec
  | [] => []
  | s :: rest =>
    match _h : splitSection regions s with
    | none => s :: splitStack regions rest
    | some (a, b) => a :: splitStack regions (b :: rest)
termination_by l => (l.map fun s => s.size.toNat + 1).sum
decreasing_by
  · simp
  · have := splitSection_decreases _h
    simp; omega

/-- `_split_map_sections`, `memorymap.py:978-1073`. -/
def splitMapSections (sections : List OSec) (regions : List SReg) : List OSec :=
  splitStack regions sections.reverse

/-! ## Symbols -/

/-- The parts of `Elf_Sym` used, `elf.py:1407-1460`. -/
structure ElfSym where
  name : Str
  value : Int
  size : Int
  type : Nat
  shndx : Nat := 1
deriving DecidableEq, Repr

/-- `STT_FUNC`, `STT_OBJECT`, `elf.py`. -/
def sttFunc : Nat := 2
def sttObject : Nat := 1

/-- The symbol list used, `memorymap.py:1121-1123`. -/
def sweepSymbols (syms : List ElfSym) : List ElfSym :=
  (sortedBy (fun s => s.value) false syms).filter fun s => (s.type = sttFunc || s.type = sttObject) && s.size ≠ 0

/-- An input section named by its position, with the symbols assigned so far. -/
structure Slot where
  idx : Nat
  isec : ISec
  syms : List MSym

/-- Input section as symbol, `memorymap.py:1111-1115,1157-1163`. -/
def selfSym (i : ISec) : MSym := { name := i.name, address := i.address, size := i.size }

/-- The loop `while sym_addr >= isec['address'] + isec['size']`, `memorymap.py:1141-1166`. -/
def advance (addr : Int) (cur : Slot) : List (Nat × ISec) → List Slot →
    Except Err (Slot × List (Nat × ISec) × List Slot)
  | [], done =>
    if addr ≥ cur.isec.address + cur.isec.size then .error .memMap else .ok (cur, [], done)
  | (i, n) :: rest, done =>
    if addr ≥ cur.isec.address + cur.isec.size then
      let cur' := if cur.syms.isEmpty then { cur with syms := [selfSym cur.isec] } else cur
      advance addr { idx := i, isec := n, syms := [] } rest (done ++ [cur'])
    else .ok (cur, (i, n) :: rest, done)

/-- Display name, `memorymap.py:1181-1183`. -/
def symName (y : ElfSym) : Str := if y.type = sttFunc then y.name ++ str "()" else y.name

/-- The loop over the symbols, `memorymap.py:1137-1191`. -/
def sweep : List ElfSym → Slot → List (Nat × ISec) → List Slot → Except Err (List Slot)
  | [], cur, rest, done => .ok (done ++ [cur] ++ rest.map fun p => { idx := p.1, isec := p.2, syms := [] })
  | y :: ys, cur, rest, done => do
    let (cur, rest, done) ← advance y.value cur rest done
    if y.value + y.size > cur.isec.address + cur.isec.size then .error .memMap
    else if y.value < cur.isec.address then sweep ys cur rest done
    else sweep ys { cur with syms := cur.syms ++ [{ name := symName y, address := y.value, size := y.size }] } rest done

/-- Put the new input sections back into the output sections, in order. -/
def refill : List OSec → List ISec → List OSec
  | [], _ => []
  | o :: os, l => { o with inputs := l.take o.inputs.length } :: refill os (l.drop o.inputs.length)

/-- `_add_symbols_to_sections`, `memorymap.py:1105-1194`.  The input sections of all output sections are
numbered, sorted by address and swept; the mutated dictionaries are put back by number. -/
def addSymbols (elf : Option (List ElfSym)) (osecs : List OSec) : Except Err (List OSec) :=
  match elf with
  | none => .ok (osecs.map fun o => { o with inputs := o.inputs.map fun i => { i with symbols := [selfSym i] } })
  | some syms =>
    let flat := osecs.flatMap (·.inputs)
    match sortedBy (fun p : Nat × ISec => p.2.address) false (flat.zipIdx.map fun p => (p.2, p.1)) with
    | [] => .error .indexError          -- isections.pop(0)
    | (i, s) :: rest => do
      let slots ← sweep (sweepSymbols syms) { idx := i, isec := s, syms := [] } rest []
      let new := flat.zipIdx.map fun p =>
        { p.1 with symbols := ((slots.find? fun t => t.idx = p.2).map Slot.syms).getD [] }
      .ok (refill osecs new)

/-- `load_symbols=False`, `memorymap.py:270-273`. -/
def emptySymbols (osecs : List OSec) : List OSec :=
  osecs.map fun o => { o with inputs := o.inputs.map fun i => { i with symbols := [] } }

/-! ## Archives -/

/-- `_abbrev`, `memorymap.py:1076-1078`. -/
def abbrevSec (name : Str) : Str := '.' :: (name.reverse.takeWhile (· ≠ '.')).reverse

/-- One input section in `_add_archives_to_sections`, `memorymap.py:1239-1273`. -/
def addISec (archives : Dict Str Arch) (i : ISec) : Dict Str Arch :=
  let a := (dget archives i.archive).getD { abb := basename i.archive, size := 0, sizeDiff := 0, kids := [] }
  let o := (dget a.kids i.objectFile).getD { abb := basename i.objectFile, size := 0, sizeDiff := 0, kids := [] }
  let o' := { o with size := o.size + i.size
                     kids := i.symbols.foldl (fun d y => dset d y.name { abb := y.name, size := y.size, sizeDiff := 0 }) o.kids }
  dset archives i.archive { a with size := a.size + i.size, kids := dset a.kids i.objectFile o' }

/-- Output section with archives, after `_add_archives_to_sections`. -/
structure MSec where
  name : Str
  abb : Str
  address : Int
  size : Int
  archives : Dict Str Arch
deriving DecidableEq, Repr

/-- `_add_archives_to_sections`, `memorymap.py:1236-1278`. -/
def addArchives (sections : List OSec) : List MSec :=
  sections.map fun s =>
    { name := s.name, abb := abbrevSec s.name, address := s.address, size := s.size,
      archives := s.inputs.foldl addISec [] }

end EspSize
