import Verif.Model.Elf
import Verif.Model.Expand
/-!
# DWARF

`/repo/esp_idf_size/elf.py:1475-1924,2011-2030,2139-2200`.  Values are recomputed instead of cached; what the caches
hold after an exception is not modelled, nor Python's recursion limit.  The functions are total: every loop
advances in the data.
-/
namespace EspSize

/-! ## Reading numbers advances -/

theorem ulebLoop_count {d : Bytes} {res idx : Nat} {r : Nat × Nat} (h : ulebLoop d res idx = .ok r) :
    idx < r.2 ∧ r.2 ≤ idx + d.length := by
  induction d generalizing res idx with
  | nil => cases h
  | cons b t ih =>
    unfold ulebLoop at h
    simp only at h
    split at h
    · cases h; simp only [List.length_cons]; omega
    · have := ih h; simp only [List.length_cons]; omega

theorem getUleb128_bound {d : Bytes} {off : Nat} {r : Nat × Nat} (h : getUleb128 d off = .ok r) : off < r.2 ∧ r.2 ≤ d.length := by
  unfold getUleb128 at h
  cases hl : ulebLoop (d.drop off) 0 0 with
  | error x => rw [hl] at h; cases h
  | ok q =>
    rw [hl] at h
    cases h
    have := ulebLoop_count hl
    simp only [List.length_drop] at this
    simp only
    omega

/-! ## Abbreviations -/

/-- `Dwarf_Abbrev_Attr`, `elf.py:1475-1500`. -/
structure AbbrevAttr where
  attr : Nat
  form : Nat
  value : Option Nat
deriving DecidableEq, Repr

/-- `DW_FORM_implicit_const`. -/
def formImplicitConst : Nat := 0x21

/-- `Dwarf_Abbrev_Attr.__init__`, `elf.py:1485-1500`, with the offset after it. -/
def abbrevAttrAt (d : Bytes) (off : Nat) : Except Err (AbbrevAttr × Nat) := do
  let a ← getUleb128 d off
  let f ← getUleb128 d a.2
  if f.1 = formImplicitConst then
    let v ← getUleb128 d f.2
    .ok (⟨a.1, f.1, some v.1⟩, v.2)
  else .ok (⟨a.1, f.1, none⟩, f.2)

theorem abbrevAttrAt_bound {d : Bytes} {off : Nat} {r : AbbrevAttr × Nat} (h : abbrevAttrAt d off = .ok r) : off < r.2 ∧ r.2 ≤ d.length := by
  unfold abbrevAttrAt at h
  simp only [bind, Except.bind] at h
  cases h1 : getUleb128 d off with
  | error x => rw [h1] at h; cases h
  | ok a =>
    rw [h1] at h
    have b1 := getUleb128_bound h1
    simp only at h
    cases h2 : getUleb128 d a.2 with
    | error x => rw [h2] at h; cases h
    | ok f =>
      rw [h2] at h
      have b2 := getUleb128_bound h2
      simp only at h
      split at h
      · cases h3 : getUleb128 d f.2 with
        | error x => rw [h3] at h; cases h
        | ok v =>
          rw [h3] at h
          have b3 := getUleb128_bound h3
          cases h
          simp only
          omega
      · cases h
        simp only
        omega

/-- The loop of `Dwarf_Abbrev_Entry.__init__`, `elf.py:1530-1537`. -/
def abbrevAttrs (d : Bytes) (off : Nat) : Except Err (List AbbrevAttr × Nat) :=
  match _h : abbrevAttrAt d off with
  | .error x => .error x
  | .ok (a, o) =>
    if a.attr = 0 ∧ a.form = 0 then .ok ([a], o)
    else do
      let r ← abbrevAttrs d o
      .ok (a :: r.1, r.2)
termination_by d.length - off
decreasing_by
  have := abbrevAttrAt_bound _h
  simp only at this
  omega

/-- `Dwarf_Abbrev_Entry`, `elf.py:1511-1539`. -/
structure AbbrevEntry where
  code : Nat
  tag : Nat
  children : Nat
  attrs : List AbbrevAttr
deriving DecidableEq, Repr

/-- `Dwarf_Abbrev_Entry.__init__`, with the offset after it. -/
def abbrevEntryAt (o : Order) (d : Bytes) (off : Nat) : Except Err (AbbrevEntry × Nat) := do
  let c ← getUleb128 d off
  let t ← getUleb128 d c.2
  let ch := getUint o d 1 t.2
  let r ← abbrevAttrs d ch.2
  .ok (⟨c.1, t.1, ch.1, r.1⟩, r.2)

theorem abbrevAttrs_bound {d : Bytes} {off : Nat} {r : List AbbrevAttr × Nat} (h : abbrevAttrs d off = .ok r) : off < r.2 ∧ r.2 ≤ d.length := by
  have key : ∀ k off r, d.length - off ≤ k → abbrevAttrs d off = .ok r → off < r.2 ∧ r.2 ≤ d.length := by
    intro k
    induction k with
    | zero =>
      intro off r hk h
      unfold abbrevAttrs at h
      split at h
      · cases h
      · rename_i a o ha
        have := abbrevAttrAt_bound ha
        simp only at this
        omega
    | succ k ih =>
      intro off r hk h
      unfold abbrevAttrs at h
      split at h
      · cases h
      · rename_i a o ha
        have hb := abbrevAttrAt_bound ha
        simp only at hb
        split at h
        · cases h; simp only; omega
        · cases hr : abbrevAttrs d o with
          | error x => rw [hr] at h; cases h
          | ok q =>
            rw [hr] at h
            have := ih o q (by omega) hr
            cases h
            simp only
            omega
  exact key _ off r (Nat.le_refl _) h

theorem abbrevEntryAt_bound {o : Order} {d : Bytes} {off : Nat} {r : AbbrevEntry × Nat} (h : abbrevEntryAt o d off = .ok r) :
    off < r.2 ∧ r.2 ≤ d.length := by
  unfold abbrevEntryAt at h
  simp only [bind, Except.bind] at h
  cases h1 : getUleb128 d off with
  | error x => rw [h1] at h; cases h
  | ok c =>
    rw [h1] at h
    have b1 := getUleb128_bound h1
    simp only at h
    cases h2 : getUleb128 d c.2 with
    | error x => rw [h2] at h; cases h
    | ok t =>
      rw [h2] at h
      have b2 := getUleb128_bound h2
      simp only [getUint] at h
      cases h3 : abbrevAttrs d (t.2 + 1) with
      | error x => rw [h3] at h; cases h
      | ok q =>
        rw [h3] at h
        have b3 := abbrevAttrs_bound h3
        cases h
        simp only
        omega

/-- The loop of `Dwarf_CU.abbrev_table`, `elf.py:1623-1632`; the list without the leading `None`. -/
def abbrevTable (o : Order) (d : Bytes) (off : Nat) : Except Err (List AbbrevEntry) := do
  let c ← getUleb128 d off
  if c.1 = 0 then .ok []
  else
    match _h : abbrevEntryAt o d off with
    | .error x => .error x
    | .ok (e, next) => do
      let t ← abbrevTable o d next
      .ok (e :: t)
termination_by d.length - off
decreasing_by
  have := abbrevEntryAt_bound _h
  simp only at this
  omega

/-! ## Compilation units -/

/-- `Dwarf_CU`, `elf.py:1546-1606`. -/
structure CU where
  offset : Nat
  /-- `len(self.unit_length)` -/
  lenBytes : Nat
  length : Nat
  version : Nat
  unitType : Option Nat
  addrSize : Nat
  abbrevOff : Nat
  /-- size of an offset: `get_offset` -/
  offSize : Nat
  /-- `_die_offset` -/
  dieOff : Nat
deriving DecidableEq, Repr

/-- `self.size`. -/
def CU.size (c : CU) : Nat := (if c.offSize = 8 then 12 else 4) + c.length

/-- The part after the unit length, `elf.py:1588-1606`. -/
def cuRest (o : Order) (d : Bytes) (offset lenBytes length offSize off : Nat) : Except Err CU :=
  let v := getUint o d 2 off
  if v.1 = 5 then
    let ut := getUint o d 1 v.2
    let as := getUint o d 1 ut.2
    let ao := getUint o d offSize as.2
    if as.1 = 4 ∨ as.1 = 8 then .ok ⟨offset, lenBytes, length, v.1, some ut.1, as.1, ao.1, offSize, ao.2⟩ else .error .elf
  else if v.1 ≤ 4 then
    let ao := getUint o d offSize v.2
    let as := getUint o d 1 ao.2
    if as.1 = 4 ∨ as.1 = 8 then .ok ⟨offset, lenBytes, length, v.1, none, as.1, ao.1, offSize, as.2⟩ else .error .elf
  else .error .elf

/-- `Dwarf_CU.__init__`, `elf.py:1565-1606`. -/
def cuAt (o : Order) (d : Bytes) (offset : Nat) : Except Err CU :=
  let ul := getBytes 4 d offset
  let len := getUint o d 4 offset
  if len.1 = 0xFFFFFFFF then
    let ul2 := getBytes 8 d len.2
    let len2 := getUint o d 8 len.2
    cuRest o d offset (ul.1.length + ul2.1.length) len2.1 8 len2.2
  else cuRest o d offset ul.1.length len.1 4 len.2

theorem cuRest_fields {o : Order} {d : Bytes} {offset lenBytes length offSize off : Nat} {c : CU}
    (h : cuRest o d offset lenBytes length offSize off = .ok c) :
    c.offset = offset ∧ c.lenBytes = lenBytes ∧ c.length = length ∧ c.offSize = offSize ∧ off < c.dieOff := by
  unfold cuRest at h
  simp only at h
  split at h
  · split at h
    · cases h; exact ⟨rfl, rfl, rfl, rfl, by simp only [getUint]; omega⟩
    · cases h
  · split at h
    · split at h
      · cases h; exact ⟨rfl, rfl, rfl, rfl, by simp only [getUint]; omega⟩
      · cases h
    · cases h

theorem cuAt_advances {o : Order} {d : Bytes} {off : Nat} {c : CU} (h : cuAt o d off = .ok c) (hlt : off < d.length) : 0 < c.lenBytes := by
  unfold cuAt at h
  simp only at h
  split at h
  · have := (cuRest_fields h).2.1
    rw [this]
    simp only [getBytes, slice, List.length_take, List.length_drop]
    omega
  · have := (cuRest_fields h).2.1
    rw [this]
    simp only [getBytes, slice, List.length_take, List.length_drop]
    omega

/-- The loop of `Elf.CUs`, `elf.py:2022-2028`. -/
def cusFrom (o : Order) (d : Bytes) (off : Nat) : Except Err (List CU) :=
  if _h : off < d.length then
    match _hc : cuAt o d off with
    | .error x => .error x
    | .ok cu => do
      let t ← cusFrom o d (off + (cu.lenBytes + cu.length))
      .ok (cu :: t)
  else .ok []
termination_by d.length - off
decreasing_by
  have := cuAt_advances _hc _h
  omega

/-! ## Attributes -/

/-- A raw attribute value. -/
inductive AVal where
  | num (n : Int)
  | bytes (b : Bytes)
  | true_
  | none_
deriving DecidableEq, Repr

/-- What `get_attr_value` uses of the file and the unit. -/
structure FormEnv where
  order : Order
  addrSize : Nat
  offSize : Nat
  cuOffset : Nat
deriving DecidableEq, Repr

def numAt (o : Order) (d : Bytes) (size off : Nat) : AVal × Nat := let r := getUint o d size off; (.num r.1, r.2)
/-- `value += self.offset`. -/
def refAt (E : FormEnv) (d : Bytes) (size off : Nat) : AVal × Nat := let r := getUint E.order d size off; (.num ((r.1 : Int) + E.cuOffset), r.2)
def blockAt (d : Bytes) (size : Nat × Nat) : AVal × Nat := let r := getBytes size.1 d size.2; (.bytes r.1, r.2)
def ulebNum (d : Bytes) (off : Nat) : Except Err (AVal × Nat) := do let r ← getUleb128 d off; .ok (.num (r.1 : Int), r.2)

/-- `Dwarf_CU.get_attr_value`, `elf.py:1635-1764`; the forms are `elf.py:637-679`. -/
def attrValue (E : FormEnv) (a : AbbrevAttr) (d : Bytes) (off : Nat) : Except Err (AVal × Nat) :=
  let f := a.form
  let o := E.order
  if f = 0x01 then .ok (numAt o d E.addrSize off)                     -- addr
  else if f = 0x17 then .ok (numAt o d E.offSize off)                 -- sec_offset
  else if f = 0x0A then .ok (blockAt d (getUint o d 1 off))           -- block1
  else if f = 0x03 then .ok (blockAt d (getUint o d 2 off))           -- block2
  else if f = 0x04 then .ok (blockAt d (getUint o d 4 off))           -- block4
  else if f = 0x09 then do .ok (blockAt d (← getUleb128 d off))       -- block
  else if f = 0x0B then .ok (numAt o d 1 off)                         -- data1
  else if f = 0x05 then .ok (numAt o d 2 off)                         -- data2
  else if f = 0x06 then .ok (numAt o d 4 off)                         -- data4
  else if f = 0x07 then .ok (numAt o d 8 off)                         -- data8
  else if f = 0x1E then .ok (numAt o d 16 off)                        -- data16
  else if f = 0x0F then ulebNum d off                                 -- udata
  else if f = 0x0D then do let r ← getSleb128 d off; .ok (.num r.1, r.2)   -- sdata
  else if f = 0x21 then .ok ((match a.value with | some v => .num (v : Int) | none => .none_), off)   -- implicit_const
  else if f = 0x18 then do .ok (blockAt d (← getUleb128 d off))       -- exprloc
  else if f = 0x0C then .ok (numAt o d 1 off)                         -- flag
  else if f = 0x19 then .ok (.true_, off)                             -- flag_present
  else if f = 0x22 then do let r ← getUleb128 d off; .ok (.none_, r.2)     -- loclistx
  else if f = 0x23 then do let r ← getUleb128 d off; .ok (.none_, r.2)     -- rnglistx
  else if f = 0x11 then .ok (refAt E d 1 off)                         -- ref1
  else if f = 0x12 then .ok (refAt E d 2 off)                         -- ref2
  else if f = 0x13 then .ok (refAt E d 4 off)                         -- ref4
  else if f = 0x14 then .ok (refAt E d 8 off)                         -- ref8
  else if f = 0x15 then do let r ← getUleb128 d off; .ok (.num ((r.1 : Int) + E.cuOffset), r.2)   -- ref_udata
  else if f = 0x10 then .ok (numAt o d E.offSize off)                 -- ref_addr
  else if f = 0x20 then .ok (numAt o d 1 off)                         -- ref_sig8
  else if f = 0x1C then .ok (numAt o d 4 off)                         -- ref_sup4
  else if f = 0x24 then .ok (numAt o d 8 off)                         -- ref_sup8
  else if f = 0x08 then do let r ← getString d off; .ok (.bytes r.1, r.2)  -- string
  else if f = 0x0E then .ok (numAt o d E.offSize off)                 -- strp
  else if f = 0x1F then .ok (numAt o d E.offSize off)                 -- line_strp
  else if f = 0x1D then .ok (numAt o d E.offSize off)                 -- strp_sup
  else if f = 0x1A then ulebNum d off                                 -- strx
  else if f = 0x25 then .ok (numAt o d 1 off)                         -- strx1
  else if f = 0x26 then .ok (numAt o d 2 off)                         -- strx2
  else if f = 0x27 then .ok (numAt o d 3 off)                         -- strx3
  else if f = 0x28 then .ok (numAt o d 4 off)                         -- strx4
  else .error .elf

/-- An attribute of an entry, `get_dwarf_attr`, `elf.py:1851-1864`. -/
structure DAttr where
  attr : Nat
  form : Nat
  offset : Nat
  value : AVal
  size : Nat
deriving DecidableEq, Repr

def dattrAt (E : FormEnv) (a : AbbrevAttr) (d : Bytes) (off : Nat) : Except Err DAttr := do
  let r ← attrValue E a d off
  .ok ⟨a.attr, a.form, off, r.1, r.2 - off⟩

/-- The loop over the attributes, `elf.py:1898-1904`. -/
def dieAttrs (E : FormEnv) (d : Bytes) : List AbbrevAttr → Nat → Dict Nat DAttr → Except Err (Dict Nat DAttr × Nat)
  | [], off, acc => .ok (acc, off)
  | a :: t, off, acc =>
    if a.attr = 0 then .ok (acc, off)
    else do
      let x ← dattrAt E a d off
      dieAttrs E d t (off + x.size) (dset acc x.attr x)

theorem dieAttrs_bound {E : FormEnv} {d : Bytes} {l : List AbbrevAttr} {off : Nat} {acc : Dict Nat DAttr} {r : Dict Nat DAttr × Nat}
    (h : dieAttrs E d l off acc = .ok r) : off ≤ r.2 := by
  induction l generalizing off acc with
  | nil => cases h; exact Nat.le_refl _
  | cons a t ih =>
    unfold dieAttrs at h
    split at h
    · cases h; exact Nat.le_refl _
    · cases hx : dattrAt E a d off with
      | error x => rw [hx] at h; cases h
      | ok x =>
        rw [hx] at h
        have := ih h
        omega

/-! ## Entries -/

/-- A debugging information entry, `elf.py:1867-1875`. -/
structure Die where
  offset : Nat
  parent : Option Nat
  level : Nat
  code : Nat
  tag : Nat
  size : Nat
  attrs : Dict Nat DAttr
deriving DecidableEq, Repr

/-- `filter_tags is None or die['tag'] in filter_tags`. -/
def wanted (filter : Option (List Nat)) (tag : Nat) : Bool :=
  match filter with
  | none => true
  | some l => l.contains tag

/-- What parsing needs. -/
structure DieEnv where
  E : FormEnv
  d : Bytes
  /-- `abbrev_table` without the leading `None` -/
  tab : Except Err (List AbbrevEntry)
  filter : Option (List Nat)

/-- `self.abbrev_table[code]` for `code ≥ 1`, and the assertion, `elf.py:1891-1896`. -/
def abbrevOf (V : DieEnv) (code : Nat) : Except Err AbbrevEntry :=
  match V.tab with
  | .error x => .error x
  | .ok t =>
    match t[code - 1]? with
    | none => .error .indexError
    | some e => if e.code = code then .ok e else .error .assertion

/-- Code, offset after the entry, collected entries. -/
structure DieRes where
  code : Nat
  next : Nat
  dies : List Die
deriving DecidableEq, Repr

mutual
/-- `get_DIE`, `elf.py:1866-1921`. -/
def getDie (V : DieEnv) (off : Nat) (parent : Option Nat) (level : Nat) : Except Err DieRes :=
  match _hu : getUleb128 V.d off with
  | .error x => .error x
  | .ok (code, o1) =>
    if code = 0 then
      .ok ⟨0, o1, if wanted V.filter 0 then [⟨off, parent, level, 0, 0, o1 - off, []⟩] else []⟩
    else
      match abbrevOf V code with
      | .error x => .error x
      | .ok e =>
        match _ha : dieAttrs V.E V.d e.attrs o1 [] with
        | .error x => .error x
        | .ok (attrs, o2) =>
          if e.children = 0 then
            .ok ⟨code, o2, if wanted V.filter e.tag then [⟨off, parent, level, code, e.tag, o2 - off, attrs⟩] else []⟩
          else
            match getKids V o2 off (level + 1) with
            | .error x => .error x
            | .ok (ds, o3) =>
              .ok ⟨code, o3, (if wanted V.filter e.tag then [⟨off, parent, level, code, e.tag, o3 - off, attrs⟩] else []) ++ ds⟩
termination_by (V.d.length - off, 0)
decreasing_by
  have h1 := getUleb128_bound _hu
  have h2 := dieAttrs_bound _ha
  simp only at h1 h2
  exact Prod.Lex.left _ _ (by omega)

/-- The loop over the children, `elf.py:1910-1917`.  The last branch is never reached: an entry has at least one
byte (`getDie_advances`). -/
def getKids (V : DieEnv) (off parent level : Nat) : Except Err (List Die × Nat) :=
  match getDie V off (some parent) level with
  | .error x => .error x
  | .ok r =>
    if r.code = 0 then .ok (r.dies, r.next)
    else if _h : off < r.next ∧ off < V.d.length then
      match getKids V r.next parent level with
      | .error x => .error x
      | .ok (ds, o) => .ok (r.dies ++ ds, o)
    else .error .typeError
termination_by (V.d.length - off, 1)
decreasing_by
  · exact Prod.Lex.right _ (by omega)
  · exact Prod.Lex.left _ _ (by omega)
end

/-- `Dwarf_CU.get_DIEs` on a fresh unit, `elf.py:1844-1924`, as the dictionary by offset. -/
def getDIEs (V : DieEnv) (cu : CU) : Except Err (Dict Nat Die) := do
  let r ← getDie V cu.dieOff none 0
  .ok (r.dies.foldl (fun acc x => dset acc x.offset x) [])

/-! ## Evaluation -/

/-- An evaluated attribute. -/
inductive EVal where
  | none_
  | str (s : Str)
  | num (n : Nat)
deriving DecidableEq, Repr

/-- `int(value)` of a raw value; texts of digits are not modelled. -/
def AVal.toInt : AVal → Except Err Int
  | .num n => .ok n
  | .true_ => .ok 1
  | .bytes _ => .error .valueError
  | .none_ => .error .typeError

/-- The size of an address of the file, `Elf.get_address`, `elf.py:2104-2109`. -/
def ElfFile.addrSize (e : ElfFile) : Nat :=
  match e.cls with
  | .c32 => 4
  | .c64 => 8

/-- The loop over a DWARF expression, `elf.py:1797-1809`: `none` is the list `[None]`, `DW_OP_addr = 3`. -/
def exprLoop (o : Order) (asize : Nat) (value : Bytes) (off : Nat) (stack : List Nat) : Option (List Nat) :=
  if _h : off < value.length then
    if value[off]? = some 3 then exprLoop o asize value (off + 1 + asize) (stack ++ [(getUint o value asize (off + 1)).1])
    else none
  else some stack
termination_by value.length - off

/-- A string of the section `name`, `elf.py:1775-1779`. -/
def ElfFile.sectionString (e : ElfFile) (name : Str) (value : AVal) : Except Err EVal := do
  match ← e.lookupShdr name e.shdrs with
  | none => .ok .none_
  | some s =>
    let d ← e.data s
    let i ← value.toInt
    let b ← lookupString d i.toNat
    .ok (.str (← decodeUtf8 b))

/-- The evaluation itself, `elf.py:1770-1815`. -/
def ElfFile.evalAttr (e : ElfFile) (form : Nat) (value : AVal) : Except Err EVal :=
  if form = 0x0E then e.sectionString (str ".debug_str") value
  else if form = 0x1F then e.sectionString (str ".debug_line_str") value
  else if form = 0x08 then
    match value with
    | .bytes b => do .ok (.str (← decodeUtf8 b))
    | _ => .error .assertion
  else if form = 0x18 then
    match value with
    | .bytes b =>
      match exprLoop e.order e.addrSize b 0 [] with
      | none => .ok .none_
      | some [x] => .ok (.num x)
      | some _ => .error .elf
    | _ => .error .assertion
  else .ok .none_

/-- An attribute with its caches: the keys `evaluated` and `string`. -/
structure AttrObj where
  attr : DAttr
  evaluated : Option EVal
  string : Option Str
deriving DecidableEq, Repr

/-- `Dwarf_CU.get_attr_eval`, `elf.py:1766-1818`, and the attribute afterwards: if the key `evaluated` is there, the
key `eval` is returned, which is never there. -/
def ElfFile.getAttrEval (e : ElfFile) (x : AttrObj) : Except Err EVal × AttrObj :=
  match x.evaluated with
  | some _ => (.error .keyError, x)
  | none =>
    match e.evalAttr x.attr.form x.attr.value with
    | .error r => (.error r, x)
    | .ok v => (.ok v, { x with evaluated := some v })

def hexLower (n : Nat) : Char := if n < 10 then Char.ofNat (48 + n) else Char.ofNat (87 + n)

/-- `f'{n:#x}'`. -/
def hexNum (n : Int) : Str :=
  (if n < 0 then ['-'] else []) ++ str "0x" ++ Nat.toDigits 16 n.natAbs

/-- `bytes.hex()`. -/
def hexBytes (b : Bytes) : Str := b.flatMap fun x => [hexLower (x.toNat / 16), hexLower (x.toNat % 16)]

/-- The text of a raw value, `elf.py:1830-1835`. -/
def AVal.text : AVal → Except Err Str
  | .num n => .ok (hexNum n)
  | .true_ => .ok (hexNum 1)
  | .bytes b => .ok (hexBytes b)
  | .none_ => .error .typeError

/-- The text of an evaluated attribute, `elf.py:1826-1835`. -/
def attrText (v : EVal) (raw : AVal) : Except Err Str :=
  match v with
  | .none_ => raw.text
  | .str s => .ok s
  | .num n => .ok (hexNum n)

/-- `Dwarf_CU.get_attr_str`, `elf.py:1820-1838`, and the attribute afterwards. -/
def ElfFile.getAttrStr (e : ElfFile) (x : AttrObj) : Except Err Str × AttrObj :=
  match x.string with
  | some s => (.ok s, x)
  | none =>
    match e.getAttrEval x with
    | (.error r, x) => (.error r, x)
    | (.ok v, x) =>
      match attrText v x.attr.value with
      | .error r => (.error r, x)
      | .ok s => (.ok s, { x with string := some s })

/-! ## Compilation unit names of symbols -/

/-- The data of `.debug_info`, none if there is no such section, `elf.py:2017-2020`. -/
def ElfFile.infoData (e : ElfFile) : Except Err Bytes := do
  match ← e.lookupShdr (str ".debug_info") e.shdrs with
  | none => .ok []
  | some s => e.data s

/-- `Elf.CUs`, `elf.py:2011-2030`. -/
def ElfFile.cus (e : ElfFile) : Except Err (List CU) := do
  let d ← e.infoData
  cusFrom e.order d 0

/-- `Dwarf_CU.abbrev_table`, `elf.py:1608-1633`. -/
def ElfFile.abbrevs (e : ElfFile) (cu : CU) : Except Err (List AbbrevEntry) := do
  match ← e.lookupShdr (str ".debug_abbrev") e.shdrs with
  | none => .ok []
  | some s => do
    let d ← e.data s
    abbrevTable e.order d cu.abbrevOff

def formEnv (e : ElfFile) (cu : CU) : FormEnv := ⟨e.order, cu.addrSize, cu.offSize, cu.offset⟩

/-- The entries used: `DW_TAG_compile_unit`, `DW_TAG_subprogram`, `DW_TAG_variable`, `elf.py:2155`. -/
def cuTags : List Nat := [0x11, 0x2E, 0x34]

/-- `for cu in self.CUs: ...; dies.update(cu_dies)`, `elf.py:2154-2158`. -/
def ElfFile.allDies (e : ElfFile) (info : Bytes) : List CU → Dict Nat (Die × CU) → Except Err (Dict Nat (Die × CU))
  | [], acc => .ok acc
  | cu :: t, acc => do
    let ds ← getDIEs ⟨formEnv e cu, info, e.abbrevs cu, some cuTags⟩ cu
    e.allDies info t (ds.foldl (fun acc p => dset acc p.1 (p.2, cu)) acc)

/-- `dies[k]`. -/
def lookupDie (dies : Dict Nat (Die × CU)) (k : Int) : Except Err (Die × CU) :=
  if k < 0 then .error .keyError
  else match dget dies k.toNat with
    | some x => .ok x
    | none => .error .keyError

/-- The entry that holds the unit: `die` or its abstract origin (`DW_AT_abstract_origin = 0x31`), `elf.py:2144-2146`. -/
def originDie (dies : Dict Nat (Die × CU)) (x : Die × CU) : Except Err (Die × CU) :=
  match dget x.1.attrs 0x31 with
  | none => .ok x
  | some a => do lookupDie dies (← a.value.toInt)

/-- `get_cu_name`, `elf.py:2143-2152` (`DW_AT_name = 3`). -/
def ElfFile.cuNameOf (e : ElfFile) (dies : Dict Nat (Die × CU)) (x : Die × CU) : Except Err Str := do
  let y ← originDie dies x
  let c ← lookupDie dies y.2.dieOff
  match dget c.1.attrs 3 with
  | none => .error .keyError
  | some a => (e.getAttrStr ⟨a, none, none⟩).1

/-- The symbols by address, `elf.py:2162-2166` (`SHN_ABS = 0xFFF1`). -/
def symsByAddr (syms : List RawSym) : Dict Nat (RawSym × Option Str) :=
  (syms.filter fun s => decide (s.size ≠ 0) && (decide (s.type = 2) || decide (s.type = 1)) && decide (s.shndx ≠ 0xFFF1)).foldl
    (fun acc s => dset acc s.value (s, none)) []

/-- The address of an entry, if it has one: `DW_AT_low_pc = 0x11` of a function, `DW_AT_location = 2` of a variable,
`elf.py:2169-2194`. -/
def ElfFile.dieAddr (e : ElfFile) (x : Die × CU) : Except Err (Option Int) :=
  if x.1.tag = 0x2E then
    match dget x.1.attrs 0x11 with
    | none => .ok none
    | some a => do .ok (some (← a.value.toInt))
  else if x.1.tag = 0x34 then
    match dget x.1.attrs 2 with
    | none => .ok none
    | some a => do
      match ← e.evalAttr a.form a.value with
      | .none_ => .ok none
      | .num n => .ok (some n)
      | .str _ => .error .valueError
  else .ok none

/-- One turn of the loop, `elf.py:2168-2198`. -/
def ElfFile.nameStep (e : ElfFile) (dies : Dict Nat (Die × CU)) (syms : Dict Nat (RawSym × Option Str)) (x : Die × CU) :
    Except Err (Dict Nat (RawSym × Option Str)) := do
  match ← e.dieAddr x with
  | none => .ok syms
  | some addr =>
    if addr < 0 then .ok syms
    else match dget syms addr.toNat with
      | none => .ok syms
      | some s => do
        let n ← e.cuNameOf dies x
        .ok (dset syms addr.toNat (s.1, some n))

/-- `Elf.add_cus_to_symbols`, `elf.py:2139-2200`, on a file whose entries were not evaluated before. -/
def ElfFile.addCus (e : ElfFile) : Except Err (Dict Nat (RawSym × Option Str)) := do
  let info ← e.infoData
  let cus ← e.cus
  let dies ← e.allDies info cus []
  let syms ← e.symbols
  dies.foldlM (fun acc p => e.nameStep dies acc p.2) (symsByAddr syms)

end EspSize
