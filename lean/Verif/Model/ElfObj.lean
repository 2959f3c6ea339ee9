import Verif.Model.Dwarf
/-!
# An `Elf` object with its caches

`/repo/esp_idf_size/elf.py`.  Symbols, units, abbreviations and entries are read on first use and kept
(`elf.py:1608-1633,1844-1924,1993-2030`).  The caches are set to an empty list before they are filled, so an exception leaves
what was read before it.  Which entries of a unit are kept by a `get_DIEs` that raises is a parameter (`Left`): the entry
being read has no size yet.  A unit is its own key: no two units of a file start at the same offset.
-/
namespace EspSize

/-- An attribute of an entry of a unit: unit, offset of the entry, attribute. -/
abbrev AttrId := CU × Nat × Nat

/-- The mutable part of an `Elf` object. -/
structure ElfObj where
  /-- `_symbols` -/
  syms : Option (List RawSym) := none
  /-- `_CUs` -/
  cus : Option (List CU) := none
  /-- `_abbrev_table` of the units, without the leading `None` -/
  abbr : CU → Option (List AbbrevEntry) := fun _ => none
  /-- `_die` of the units, `{}` and `None` alike -/
  dies : CU → Dict Nat Die := fun _ => []
  /-- the keys `evaluated` and `string` of the attributes -/
  attrs : AttrId → Option EVal × Option Str := fun _ => (none, none)
  /-- `cu_name` of the symbol that `add_cus_to_symbols` finds for an address -/
  names : Nat → Option Str := fun _ => none

/-- A computation with an object; the object keeps its changes if there is an exception. -/
def Acc (α : Type) := ElfObj → Except Err α × ElfObj

def Acc.pure {α : Type} (a : α) : Acc α := fun o => (.ok a, o)

def Acc.bind {α β : Type} (x : Acc α) (f : α → Acc β) : Acc β := fun o =>
  match x o with
  | (.ok a, o) => f a o
  | (.error e, o) => (.error e, o)

def Acc.fail {α : Type} (e : Err) : Acc α := fun o => (.error e, o)

/-- A computation that does not touch the object. -/
def Acc.lift {α : Type} (x : Except Err α) : Acc α := fun o => (x, o)

/-! ## What was read before an exception -/

/-- The records before the first that cannot be read. -/
def recordsRead (fmt : Str) (rest : Bytes) : List (List Bytes) :=
  if rest = [] then []
  else if rest.length < calcsize fmt then []
  else if calcsize fmt = 0 then []
  else chunks (fmtWidths fmt) rest :: recordsRead fmt (rest.drop (calcsize fmt))
termination_by rest.length
decreasing_by
  rename_i h1 _ _
  have : rest.length ≠ 0 := fun h => h1 (List.length_eq_zero_iff.mp h)
  simp only [List.length_drop]
  omega

/-- The results before the first exception. -/
def okPrefix {α β : Type} (f : α → Except Err β) : List α → List β
  | [] => []
  | a :: t => match f a with
    | .ok b => b :: okPrefix f t
    | .error _ => []

/-- The symbols of one table before the exception. -/
def ElfFile.tableRead (e : ElfFile) (s : RawShdr) : List RawSym :=
  match e.data s with
  | .error _ => []
  | .ok d => okPrefix (symOf e.order e.cls s.link) (recordsRead (symFmt e.cls) d)

/-- `_symbols` after an exception: the tables before the one that cannot be read, and the symbols of it. -/
def ElfFile.symbolsRead (e : ElfFile) : List RawShdr → List RawSym
  | [] => []
  | s :: t => match e.tableSymbols s with
    | .ok l => l ++ e.symbolsRead t
    | .error _ => e.tableRead s

/-- The units before the first that cannot be read. -/
def cusRead (o : Order) (d : Bytes) (off : Nat) : List CU :=
  if _h : off < d.length then
    match _hc : cuAt o d off with
    | .error _ => []
    | .ok cu => cu :: cusRead o d (off + (cu.lenBytes + cu.length))
  else []
termination_by d.length - off
decreasing_by
  have := cuAt_advances _hc _h
  omega

/-- `_CUs` after an exception. -/
def ElfFile.cusRead (e : ElfFile) : List CU :=
  match e.infoData with
  | .error _ => []
  | .ok d => EspSize.cusRead e.order d 0

/-- The abbreviations before the first that cannot be read. -/
def abbrevsRead (o : Order) (d : Bytes) (off : Nat) : List AbbrevEntry :=
  match getUleb128 d off with
  | .error _ => []
  | .ok c =>
    if c.1 = 0 then []
    else
      match _h : abbrevEntryAt o d off with
      | .error _ => []
      | .ok (e, next) => e :: abbrevsRead o d next
termination_by d.length - off
decreasing_by
  have := abbrevEntryAt_bound _h
  simp only at this
  omega

/-- `_abbrev_table` after an exception. -/
def ElfFile.abbrevsRead (e : ElfFile) (cu : CU) : List AbbrevEntry :=
  match e.lookupShdr (str ".debug_abbrev") e.shdrs with
  | .error _ => []
  | .ok none => []
  | .ok (some s) => match e.data s with
    | .error _ => []
    | .ok d => EspSize.abbrevsRead e.order d cu.abbrevOff

/-! ## The attributes -/

/-- `Elf.symbols`, `elf.py:1993-2010`. -/
def accSymbols (e : ElfFile) : Acc (List RawSym) := fun o =>
  match o.syms with
  | some l => (.ok l, o)
  | none => match e.symbols with
    | .ok l => (.ok l, { o with syms := some l })
    | .error x => (.error x, { o with syms := some (e.symbolsRead e.shdrs) })

/-- `Elf.CUs`, `elf.py:2011-2030`. -/
def accCUs (e : ElfFile) : Acc (List CU) := fun o =>
  match o.cus with
  | some l => (.ok l, o)
  | none => match e.cus with
    | .ok l => (.ok l, { o with cus := some l })
    | .error x => (.error x, { o with cus := some e.cusRead })

/-- `Dwarf_CU.abbrev_table`, `elf.py:1608-1633`. -/
def accAbbrevs (e : ElfFile) (cu : CU) : Acc (List AbbrevEntry) := fun o =>
  match o.abbr cu with
  | some l => (.ok l, o)
  | none => match e.abbrevs cu with
    | .ok l => (.ok l, { o with abbr := fun u => if u = cu then some l else o.abbr u })
    | .error x => (.error x, { o with abbr := fun u => if u = cu then some (e.abbrevsRead cu) else o.abbr u })

/-- The entries a `get_DIEs` leaves in `_die` when it raises: any. -/
abbrev Left := CU → Option (List Nat) → List AbbrevEntry → Dict Nat Die

/-- `self._data` of a unit, `elf.py:1546-1549,2022-2024`. -/
def ElfFile.unitData (e : ElfFile) : Bytes :=
  match e.infoData with
  | .ok d => d
  | .error _ => []

/-- Whether reading the entries gets to the abbreviations, `elf.py:1877-1891`: the first code is there and not 0. -/
def usesAbbrevs (d : Bytes) (cu : CU) : Bool :=
  match getUleb128 d cu.dieOff with
  | .ok c => c.1 ≠ 0
  | .error _ => false

/-- `Dwarf_CU.get_DIEs`, `elf.py:1844-1924`: entries kept before are returned whatever the filter is. -/
def accDIEs (e : ElfFile) (J : Left) (cu : CU) (filter : Option (List Nat)) : Acc (Dict Nat Die) := fun o =>
  if o.dies cu ≠ [] then (.ok (o.dies cu), o)
  else
    let t := if usesAbbrevs e.unitData cu then accAbbrevs e cu o else (.ok [], o)
    match getDIEs ⟨formEnv e cu, e.unitData, t.1, filter⟩ cu with
    | .ok ds => (.ok ds, { t.2 with dies := fun u => if u = cu then ds else t.2.dies u })
    | .error x => (.error x, { t.2 with dies := fun u => if u = cu then J cu filter (t.1.toOption.getD []) else t.2.dies u })

/-- A function of an attribute and its caches. -/
def accAttr {β : Type} (id : AttrId) (a : DAttr) (f : AttrObj → Except Err β × AttrObj) : Acc β := fun o =>
  let r := f ⟨a, (o.attrs id).1, (o.attrs id).2⟩
  (r.1, { o with attrs := fun i => if i = id then (r.2.evaluated, r.2.string) else o.attrs i })

/-! ## Compilation unit names of symbols -/

/-- `for cu in self.CUs: ...; dies.update(cu_dies)`, `elf.py:2154-2158`. -/
def accAllDies (e : ElfFile) (J : Left) : List CU → Dict Nat (Die × CU) → Acc (Dict Nat (Die × CU))
  | [], acc => .pure acc
  | cu :: t, acc => (accDIEs e J cu (some cuTags)).bind fun ds =>
    accAllDies e J t (ds.foldl (fun acc p => dset acc p.1 (p.2, cu)) acc)

/-- `get_cu_name`, `elf.py:2143-2152`. -/
def accCuName (e : ElfFile) (dies : Dict Nat (Die × CU)) (x : Die × CU) : Acc Str :=
  (Acc.lift (originDie dies x)).bind fun y => (Acc.lift (lookupDie dies y.2.dieOff)).bind fun c =>
    match dget c.1.attrs 3 with
    | none => .fail .keyError
    | some a => accAttr (c.2, c.1.offset, 3) a e.getAttrStr

/-- The address of an entry, `elf.py:2169-2194`. -/
def accAddr (e : ElfFile) (x : Die × CU) : Acc (Option Int) :=
  if x.1.tag = 0x2E then
    match dget x.1.attrs 0x11 with
    | none => .pure none
    | some a => .lift (do .ok (some (← a.value.toInt)))
  else if x.1.tag = 0x34 then
    match dget x.1.attrs 2 with
    | none => .pure none
    | some a => (accAttr (x.2, x.1.offset, 2) a e.getAttrEval).bind fun v =>
      match v with
      | .none_ => .pure none
      | .num n => .pure (some n)
      | .str _ => .fail .valueError
  else .pure none

/-- `syms_dict[addr].cu_name = name`. -/
def accSetName (addr : Nat) (n : Str) : Acc Unit := fun o => (.ok (), { o with names := fun a => if a = addr then some n else o.names a })

/-- One turn of the loop, `elf.py:2168-2198`. -/
def accNameStep (e : ElfFile) (dies : Dict Nat (Die × CU)) (syms : Dict Nat (RawSym × Option Str)) (x : Die × CU) : Acc Unit :=
  (accAddr e x).bind fun addr =>
    match addr with
    | none => .pure ()
    | some addr =>
      if addr < 0 then .pure ()
      else match dget syms addr.toNat with
        | none => .pure ()
        | some _ => (accCuName e dies x).bind fun n => accSetName addr.toNat n

def accLoop (e : ElfFile) (dies : Dict Nat (Die × CU)) (syms : Dict Nat (RawSym × Option Str)) : Dict Nat (Die × CU) → Acc Unit
  | [] => .pure ()
  | p :: t => (accNameStep e dies syms p.2).bind fun _ => accLoop e dies syms t

/-- The symbols with the names they have now. -/
def withNames (names : Nat → Option Str) (syms : Dict Nat (RawSym × Option Str)) : Dict Nat (RawSym × Option Str) :=
  syms.map fun p => (p.1, (p.2.1, names p.1))

/-- `Elf.add_cus_to_symbols`, `elf.py:2139-2200`. -/
def accAddCus (e : ElfFile) (J : Left) : Acc (Dict Nat (RawSym × Option Str)) :=
  (accCUs e).bind fun cus => (accAllDies e J cus []).bind fun dies => (accSymbols e).bind fun syms =>
    (accLoop e dies (symsByAddr syms) dies).bind fun _ => fun o => (.ok (withNames o.names (symsByAddr syms)), o)

/-! ## Executions -/

/-- A use of an `Elf` object. -/
inductive ElfOp where
  | symbols
  | cus
  | abbrevs (cu : CU)
  | dies (cu : CU) (filter : Option (List Nat))
  | addCus

def ElfOp.run (e : ElfFile) (J : Left) (op : ElfOp) (o : ElfObj) : ElfObj :=
  match op with
  | .symbols => (accSymbols e o).2
  | .cus => (accCUs e o).2
  | .abbrevs cu => (accAbbrevs e cu o).2
  | .dies cu f => (accDIEs e J cu f o).2
  | .addCus => (accAddCus e J o).2

/-- The object after some uses, from a state. -/
def runOps (e : ElfFile) (J : Left) (ops : List ElfOp) (o : ElfObj) : ElfObj := ops.foldl (fun o op => op.run e J o) o

end EspSize
