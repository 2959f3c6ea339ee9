import Verif.Model.Dwarf
import Verif.Py.Fmt
/-!
# The texts about debugging information that cannot be read

The `Elf_Exception` of `Dwarf_CU`, `/repo/esp_idf_size/elf.py:1565-1818`, with what is in it.  `main` does not handle it
(`main.py:159`), so that the text is the last line of a traceback; programs that import the package may print it by `log`.
-/
namespace EspSize

inductive DwarfProblem where
  | version (v : Nat)                -- elf.py:1597
  | addrSize (n : Nat)               -- elf.py:1604
  | form (f : Nat)                   -- elf.py:1762
  | stack (l : List Nat)             -- elf.py:1809
deriving DecidableEq, Repr

/-- `DW_FORM_NAME_MAP`, `elf.py:685-734`. -/
def formNames : Dict Nat Str :=
  [(0x00, str "DW_FORM_end"), (0x01, str "DW_FORM_addr"), (0x03, str "DW_FORM_block2"), (0x04, str "DW_FORM_block4"), (0x05, str "DW_FORM_data2"),
   (0x06, str "DW_FORM_data4"), (0x07, str "DW_FORM_data8"), (0x08, str "DW_FORM_string"), (0x09, str "DW_FORM_block"), (0x0A, str "DW_FORM_block1"),
   (0x0B, str "DW_FORM_data1"), (0x0C, str "DW_FORM_flag"), (0x0D, str "DW_FORM_sdata"), (0x0E, str "DW_FORM_strp"), (0x0F, str "DW_FORM_udata"),
   (0x10, str "DW_FORM_ref_addr"), (0x11, str "DW_FORM_ref1"), (0x12, str "DW_FORM_ref2"), (0x13, str "DW_FORM_ref4"), (0x14, str "DW_FORM_ref8"),
   (0x15, str "DW_FORM_ref_udata"), (0x16, str "DW_FORM_indirect"), (0x17, str "DW_FORM_sec_offset"), (0x18, str "DW_FORM_exprloc"),
   (0x19, str "DW_FORM_flag_present"), (0x20, str "DW_FORM_ref_sig8"), (0x1A, str "DW_FORM_strx"), (0x1B, str "DW_FORM_addrx"),
   (0x1C, str "DW_FORM_ref_sup4"), (0x1D, str "DW_FORM_strp_sup"), (0x1E, str "DW_FORM_data16"), (0x1F, str "DW_FORM_line_strp"),
   (0x21, str "DW_FORM_implicit_const"), (0x22, str "DW_FORM_loclistx"), (0x23, str "DW_FORM_rnglistx"), (0x24, str "DW_FORM_ref_sup8"),
   (0x25, str "DW_FORM_strx1"), (0x26, str "DW_FORM_strx2"), (0x27, str "DW_FORM_strx3"), (0x28, str "DW_FORM_strx4"), (0x29, str "DW_FORM_addrx1"),
   (0x2A, str "DW_FORM_addrx2"), (0x2B, str "DW_FORM_addrx3"), (0x2C, str "DW_FORM_addrx4"), (0x1F01, str "DW_FORM_GNU_addr_index"),
   (0x1F02, str "DW_FORM_GNU_str_index"), (0x1F20, str "DW_FORM_GNU_ref_alt"), (0x1F21, str "DW_FORM_GNU_strp_alt")]

/-- `str` of a list of numbers. -/
def natsRepr (l : List Nat) : Str := '[' :: (join (str ", ") (l.map fun n : Nat => intStr n) ++ [']'])

/-- `str(e)`. -/
def DwarfProblem.text : DwarfProblem → Str
  | .version v => str "unsupported DWARF version " ++ intStr v
  | .addrSize n => str "unknown DWARF address size " ++ intStr n
  | .form f => str "unknown dwarf form " ++ hexNum f ++ [' '] ++ (dget formNames f).getD (str "unknown")
  | .stack l => str "invalid DWARF stack " ++ natsRepr l

/-- The part after the unit length, `elf.py:1588-1604`. -/
def restProblem (o : Order) (d : Bytes) (offSize off : Nat) : Option DwarfProblem :=
  let v := getUint o d 2 off
  if v.1 = 5 then
    let ut := getUint o d 1 v.2
    let as := getUint o d 1 ut.2
    if as.1 = 4 ∨ as.1 = 8 then none else some (.addrSize as.1)
  else if v.1 ≤ 4 then
    let ao := getUint o d offSize v.2
    let as := getUint o d 1 ao.2
    if as.1 = 4 ∨ as.1 = 8 then none else some (.addrSize as.1)
  else some (.version v.1)

/-- The exception of `Dwarf_CU.__init__`, `elf.py:1565-1606`. -/
def unitProblem (o : Order) (d : Bytes) (offset : Nat) : Option DwarfProblem :=
  let len := getUint o d 4 offset
  if len.1 = 0xFFFFFFFF then restProblem o d 8 (getUint o d 8 len.2).2 else restProblem o d 4 len.2

/-- The exception of `Elf.CUs`, `elf.py:2022-2028`. -/
def unitsProblem (o : Order) (d : Bytes) (off : Nat) : Option DwarfProblem :=
  if _h : off < d.length then
    match _hc : cuAt o d off with
    | .error _ => unitProblem o d off
    | .ok cu => unitsProblem o d (off + (cu.lenBytes + cu.length))
  else none
termination_by d.length - off
decreasing_by
  have := cuAt_advances _hc _h
  omega

/-- The exception of `Dwarf_CU.get_attr_value`, `elf.py:1759-1762`. -/
def attrProblem (E : FormEnv) (a : AbbrevAttr) (d : Bytes) (off : Nat) : Option DwarfProblem :=
  match attrValue E a d off with
  | .error .elf => some (.form a.form)
  | _ => none

/-- The exception of the evaluation of an expression, `elf.py:1785-1809`. -/
def stackProblem (o : Order) (asize : Nat) (value : Bytes) : Option DwarfProblem :=
  match exprLoop o asize value 0 [] with
  | none => none
  | some l => if l.length = 1 then none else some (.stack l)

end EspSize
