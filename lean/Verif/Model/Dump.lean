import Verif.Model.ElfNames
import Verif.Model.Dwarf
/-!
# Listings of sections, symbols and entries

`/repo/esp_idf_size/elf.py:2229-2253`.  What is printed is a list of lines, and the exception that ends it if there is one.
Abbreviations and debugging information are in `Model/DumpDwarf.lean`.
-/
namespace EspSize

/-- `f'{s:w}'` of a string, `f'{i:<w}'`. -/
def padRight (w : Nat) (s : Str) : Str := s ++ List.replicate (w - s.length) ' '

/-- `f'{n:#0wx}'` for `n ≥ 0`: zeros after the prefix. -/
def hexPad (w n : Nat) : Str := str "0x" ++ (List.replicate (w - 2 - (Nat.toDigits 16 n).length) '0' ++ Nat.toDigits 16 n)

/-- Printed lines, up to an exception. -/
abbrev Printout := List Str × Option Err

/-- One line for each element. -/
def printEach {α : Type} (f : α → Except Err Str) : List α → Printout
  | [] => ([], none)
  | a :: t =>
    match f a with
    | .error x => ([], some x)
    | .ok l => (l :: (printEach f t).1, (printEach f t).2)

/-- Two listings, one after the other. -/
def Printout.andThen (a b : Printout) : Printout :=
  match a.2 with
  | some x => (a.1, some x)
  | none => (a.1 ++ b.1, b.2)

/-- The titles of `dump_sections`, `elf.py:2248`. -/
def sectionTitles : Str :=
  padRight 3 (str "Nr") ++ ' ' :: (padRight 30 (str "Name") ++ ' ' :: (padRight 15 (str "Type") ++ ' ' :: (padRight 10 (str "Address") ++ ' ' ::
    (padRight 8 (str "Off") ++ ' ' :: padRight 8 (str "Size")))))

/-- The line of a section, `elf.py:2249-2253`. -/
def ElfFile.sectionLine (e : ElfFile) (p : RawShdr × Nat) : Except Err Str := do
  let n ← e.shdrName p.1
  .ok (padRight 3 (intStr p.2) ++ ' ' :: (padRight 30 n ++ ' ' :: (padRight 15 (nameOrUnknown shtMap p.1.type) ++ ' ' ::
    (hexPad 10 p.1.addr ++ ' ' :: (hexPad 8 p.1.offset ++ ' ' :: hexPad 8 p.1.size)))))

/-- `dump_sections`, `elf.py:2247-2253`. -/
def ElfFile.dumpSections (e : ElfFile) : Printout := Printout.andThen ([sectionTitles], none) (printEach e.sectionLine e.shdrs.zipIdx)

/-- The titles of `dump_symbol_table`, `elf.py:2233`. -/
def symbolTitles : Str :=
  padRight 7 (str "Num") ++ ' ' :: (padRight 10 (str "Value") ++ ' ' :: (padLeft 7 (str "Size") ++ ' ' :: (padRight 10 (str "Type") ++ ' ' ::
    (padRight 10 (str "Bind") ++ ' ' :: (padRight 10 (str "Vis") ++ ' ' :: (padLeft 6 (str "Ndx") ++ ' ' :: (padRight 20 (str "Shdr") ++
      str " Name")))))))

/-- `shdr_name`, `elf.py:2236`: `elf` is the variable of the module, which exists when it is run as a program. -/
def sectionOf (main : Option ElfFile) (shndx : Nat) : Except Err Str :=
  match main with
  | none => .error .nameError
  | some g =>
    match g.shdrs[shndx]? with
    | some s => g.shdrName s
    | none => .ok (str "SPECIAL")

/-- The line of a symbol, `elf.py:2234-2241`, with its compilation unit. -/
def ElfFile.symbolLine (e : ElfFile) (main : Option ElfFile) (p : (RawSym × Option Str) × Nat) : Except Err Str := do
  let sh ← sectionOf main p.1.1.shndx
  let ty ← nameOrError sttMap p.1.1.type
  let bi ← nameOrError stbMap p.1.1.bind
  let vi ← nameOrError stvMap p.1.1.visibility
  let n ← e.symName p.1.1
  .ok (padRight 7 (intStr p.2) ++ ' ' :: (hexPad 10 p.1.1.value ++ ' ' :: (padLeft 7 (intStr p.1.1.size) ++ ' ' :: (padRight 10 ty ++ ' ' ::
    (padRight 10 bi ++ ' ' :: (padRight 10 vi ++ ' ' :: (padLeft 6 (intStr p.1.1.shndx) ++ ' ' :: (padRight 20 sh ++ ' ' :: (n ++ ' ' ::
      p.1.2.getD (str "NOCU"))))))))))

/-- `dump_symbol_table` of a list of symbols, `elf.py:2229-2241`. -/
def ElfFile.dumpSymbols (e : ElfFile) (main : Option ElfFile) (syms : List (RawSym × Option Str)) : Printout :=
  Printout.andThen ([symbolTitles], none) (printEach (e.symbolLine main) syms.zipIdx)

/-- `dump_symbol_table()`: the symbols of a fresh object have no compilation unit. -/
def ElfFile.dumpSymbolTable (e : ElfFile) (main : Option ElfFile) : Printout :=
  match e.symbols with
  | .error x => ([], some x)
  | .ok l => e.dumpSymbols main (l.map fun s => (s, none))

/-- `dump_symbol_cu`, `elf.py:2243-2245`. -/
def ElfFile.dumpSymbolCu (e : ElfFile) (main : Option ElfFile) : Printout :=
  match e.addCus with
  | .error x => ([], some x)
  | .ok d => e.dumpSymbols main (d.map Prod.snd)

end EspSize
