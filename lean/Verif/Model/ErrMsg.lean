import Verif.Model.Get
/-!
# The errors reported by `log.err`

`get` and what it calls report three kinds of errors by `log.err`, which does not end the program.
-/
namespace EspSize

/-- What is reported. -/
inductive ErrProblem where
  | entry (line : Str)                         -- mapfile.py:439
  | elfRead (fn : Str)                         -- memorymap.py:1097
  | elfParse (fn : Str)                        -- memorymap.py:1099
deriving DecidableEq, Repr

/-- The text; `reason` is `str` of the exception of the ELF file. -/
def ErrProblem.text (reason : Str) : ErrProblem → Str
  | .entry l => str "unexpected format of cross reference table entry \"" ++ l ++ str "\""
  | .elfRead fn => str "cannot read project ELF file " ++ fn ++ str ": " ++ reason
  | .elfParse fn => str "cannot parse ELF file " ++ fn ++ str ": " ++ reason

/-- The loop `mapfile.py:420-449` up to the first line that is reported.  The exception follows in line 441 or 442. -/
def crtProblem : List Str → Bool → Bool → Option Str
  | [], _, _ => none
  | l :: ls, found, header =>
    if !found && startsWith l crossRef then crtProblem ls true header
    else if !header then crtProblem ls found (startsWith l (str "Symbol"))
    else if l = [] then none
    else if !startsWithAny l [str " ", str "\t"] then
      if (splitN 1 l).length ≠ 2 then some l else crtProblem ls found header
    else crtProblem ls found header

/-- `MapFile.__init__`, `mapfile.py:20-27`. -/
def crtErr (lines : List Str) : Option Str :=
  match getMemoryRegions lines with
  | .error _ => none
  | .ok (_, rest) => match getSections rest with
    | .error _ => none
    | .ok (_, rest) => crtProblem rest false false

/-- `_load_elf_file`, `memorymap.py:1092-1102`. -/
def loadErr (fn : Str) : Except Err ElfData → Option ErrProblem
  | .error .osError => some (.elfRead fn)
  | .error .valueError => some (.elfRead fn)
  | .error .elf => some (.elfParse fn)
  | _ => none

/-- `get_elf`, `memorymap.py:1617-1627`. -/
def elfErr (w : World) (mapFn : Str) (desc : Option ProjDesc) : Option ErrProblem :=
  let desc := match desc with
    | some d => if d.nonempty then some d else getProjDesc w mapFn
    | none => getProjDesc w mapFn
  match desc with
  | none => none
  | some d => match d.appElf with
    | none => none
    | some app => match w.elf (pathJoin (dirname mapFn) app) with
      | none => none
      | some r => loadErr (pathJoin (dirname mapFn) app) r

/-- The map file, `memorymap.py:222-225`. -/
def mapErr (w : World) (mapFn : Str) : Option MapFile → Option Str
  | some _ => none
  | none => match w.lines mapFn with
    | .ok lines => crtErr lines
    | .error _ => none

/-- What a call of `get` reports, `memorymap.py:187-235`; it is at most one error. -/
def getErr (w : World) (mapFn : Str) (mf : Option MapFile) : Option ErrProblem :=
  match descTarget (getProjDesc w mapFn) with
  | .error _ => none
  | .ok _ => match mapErr w mapFn mf with
    | some l => some (.entry l)
    | none => match useMap w mapFn mf with
      | .error _ => none
      | .ok f => match warnInvalid f with
        | .error _ => none
        | .ok () => elfErr w mapFn (getProjDesc w mapFn)

end EspSize
