import Verif.Model.Dump
/-!
# Listings of abbreviations and debugging information

`/repo/esp_idf_size/elf.py:2202-2227`, on an object that was not used before.
-/
namespace EspSize

/-- A listing for each element, up to the first exception. -/
def printAll {α : Type} (f : α → Printout) : List α → Printout
  | [] => ([], none)
  | a :: t => Printout.andThen (f a) (printAll f t)

/-! ## Debugging information -/

/-- The line of an entry, `elf.py:2216-2221`. -/
def dieLine (d : Die) : Str :=
  '<' :: (intStr d.level ++ (str "> <" ++ (hexNum d.offset ++ (str "> Abbrev Number: <" ++ (intStr d.code ++ (str "> (" ++ (nameOrUnknown tagMap d.tag ++
    (str ") size: " ++ hexNum d.size))))))))

/-- The line of an attribute, `elf.py:2223-2227`; there is no blank between the name and the form. -/
def ElfFile.attrLine (e : ElfFile) (a : DAttr) : Except Err Str := do
  let v ← (e.getAttrStr ⟨a, none, none⟩).1
  .ok (str "    <" ++ (hexNum a.offset ++ (str "> " ++ (padRight 30 (nameOrUnknown atMap a.attr) ++ (padRight 30 (nameOrUnknown formMap a.form) ++
    ' ' :: v)))))

/-- The lines of an entry, `elf.py:2215-2227`. -/
def ElfFile.dieLines (e : ElfFile) (d : Die) : Printout :=
  Printout.andThen ([dieLine d], none) (printEach e.attrLine (d.attrs.map Prod.snd))

/-- The lines of a unit, `elf.py:2214-2227`. -/
def ElfFile.unitLines (e : ElfFile) (info : Bytes) (cu : CU) : Printout :=
  match getDIEs ⟨formEnv e cu, info, e.abbrevs cu, none⟩ cu with
  | .error x => ([], some x)
  | .ok ds => printAll e.dieLines (ds.map Prod.snd)

/-- `dump_debug_info`, `elf.py:2212-2227`. -/
def ElfFile.dumpDebugInfo (e : ElfFile) : Printout :=
  match e.infoData, e.cus with
  | .ok info, .ok cus => printAll (e.unitLines info) cus
  | .error x, _ => ([], some x)
  | _, .error x => ([], some x)

/-! ## Abbreviations -/

/-- The attributes of a declaration with their offsets (`Dwarf_Abbrev_Attr.offset`), the first one at `off`. -/
def attrOffsets (d : Bytes) : Nat → List AbbrevAttr → List (Nat × AbbrevAttr)
  | _, [] => []
  | off, a :: t =>
    (off, a) :: match abbrevAttrAt d off with
      | .ok r => attrOffsets d r.2 t
      | .error _ => []

/-- The offset of the first attribute of a declaration at `off`, `elf.py:1527-1529`. -/
def attrsStart (d : Bytes) (off : Nat) : Except Err Nat := do
  let c ← getUleb128 d off
  let t ← getUleb128 d c.2
  .ok (t.2 + 1)

/-- The declarations with their offsets (`Dwarf_Abbrev_Entry.offset`), the first one at `off`. -/
def entryOffsets (o : Order) (d : Bytes) : Nat → List AbbrevEntry → List (Nat × AbbrevEntry)
  | _, [] => []
  | off, x :: t =>
    (off, x) :: match abbrevEntryAt o d off with
      | .ok r => entryOffsets o d r.2 t
      | .error _ => []

/-- The line of an attribute, `elf.py:2210`. -/
def abbrevAttrLine (p : Nat × AbbrevAttr) : Str :=
  '<' :: (hexPad 10 p.1 ++ (str ">      " ++ (padRight 30 (nameOrUnknown atMap p.2.attr) ++ ' ' :: nameOrUnknown formMap p.2.form)))

/-- The line of a declaration, `elf.py:2208`. -/
def abbrevLine (p : Nat × AbbrevEntry) : Str :=
  '<' :: (hexPad 10 p.1 ++ (str ">   " ++ (intStr p.2.code ++ ' ' :: (nameOrUnknown tagMap p.2.tag ++ (str " [" ++ (intStr p.2.children ++ str "]"))))))

/-- The lines of a declaration, `elf.py:2208-2210`. -/
def abbrevLines (d : Bytes) (p : Nat × AbbrevEntry) : List Str :=
  abbrevLine p :: match attrsStart d p.1 with
    | .ok s => (attrOffsets d s p.2.attrs).map abbrevAttrLine
    | .error _ => []

/-- The line of a unit, `elf.py:2204`. -/
def cuLine (idx : Nat) (cu : CU) : Str :=
  '<' :: (hexPad 10 cu.abbrevOff ++ (str "> CU<" ++ (intStr idx ++ (str "> at offset " ++ hexPad 10 cu.offset))))

/-- The data of `.debug_abbrev`, none if there is no such section. -/
def ElfFile.abbrevData (e : ElfFile) : Except Err Bytes := do
  match ← e.lookupShdr (str ".debug_abbrev") e.shdrs with
  | none => .ok []
  | some s => e.data s

/-- The lines of a unit, `elf.py:2204-2210`. -/
def ElfFile.cuAbbrevLines (e : ElfFile) (p : CU × Nat) : Printout :=
  Printout.andThen ([cuLine p.2 p.1], none)
    (match e.abbrevs p.1, e.abbrevData with
    | .ok l, .ok d => ((entryOffsets e.order d p.1.abbrevOff l).flatMap (abbrevLines d), none)
    | .error x, _ => ([], some x)
    | _, .error x => ([], some x))

/-- `dump_abbrev_table`, `elf.py:2202-2210`. -/
def ElfFile.dumpAbbrevs (e : ElfFile) : Printout :=
  match e.cus with
  | .error x => ([], some x)
  | .ok cus => printAll e.cuAbbrevLines cus.zipIdx

/-! ## The program -/

/-- The choices of `--debug`, `elf.py:2270`. -/
inductive ElfDebug where
  | info | abbrev | files
deriving DecidableEq, Repr

/-- The options of the program, `elf.py:2263-2275`, after `argparse`. -/
structure ElfArgs where
  sections : Bool := false
  symbols : Bool := false
  debug : Option ElfDebug := none
deriving DecidableEq, Repr

/-- `python elf.py`, `elf.py:2256-2293`, on the bytes of the file: what is printed, nothing if it is the help. -/
def elfProgram (long : Nat) (file : Bytes) (a : ElfArgs) : Option Printout :=
  match openElf long file with
  | .error x => some ([], some x)
  | .ok e =>
    match a.debug with
    | some .info => some e.dumpDebugInfo
    | some .abbrev => some e.dumpAbbrevs
    | some .files => some (e.dumpSymbolCu (some e))
    | none =>
      if a.symbols then some (e.dumpSymbolTable (some e))
      else if a.sections then some e.dumpSections
      else none

end EspSize
