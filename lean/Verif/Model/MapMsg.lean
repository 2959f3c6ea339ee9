import Verif.Model.MapFile
import Verif.Py.Fmt
/-!
# The text of `MapFileException`

For every `raise` in the parser of link map files, what is raised for which line.  The text for a file that cannot be read
(`mapfile.py:34`), which is that of the operating system, is not modelled.
-/
namespace EspSize

/-- The places that report a line. -/
inductive LineKind where
  | region                                     -- mapfile.py:66-69
  | input                                      -- mapfile.py:294-297
  | cont                                       -- mapfile.py:305-308
  | fill                                       -- mapfile.py:316-319
  | output                                     -- mapfile.py:370-373
deriving DecidableEq, Repr

/-- What is reported: a line with its number, a section that is missing. -/
inductive MapProblem where
  | line (k : LineKind) (line : Str) (number : Nat)
  | config                                     -- mapfile.py:74
  | script                                     -- mapfile.py:376
deriving DecidableEq, Repr

/-- The text about a line. -/
def lineText (fn : Str) (k : LineKind) (line : Str) (n : Nat) : Str :=
  let at_ := str "\"" ++ line ++ str "\" at line " ++ intStr n ++ str " "
  let config := str "in \"Memory Configuration\" section in \"" ++ fn ++ str "\" map file"
  let script := str "in \"Linker script and memory map\" section in \"" ++ fn ++ str "\" map file"
  match k with
  | .region => str "unexpected format of memory region " ++ at_ ++ config
  | .input => str "unexpected format of input section " ++ at_ ++ script
  | .cont => str "unexpected input section continuous line " ++ at_ ++ script
  | .fill => str "unexpected \"*fill*\" line " ++ at_ ++ script
  | .output => str "unexpected format of output section " ++ at_ ++ script

/-- `str(e)`.  The text of the last one is not an f-string. -/
def MapProblem.text (fn : Str) : MapProblem → Str
  | .line k l n => lineText fn k l n
  | .config => str "cannot parse \"Memory Configuration\" section in \"" ++ fn ++ str "\" map file"
  | .script => str "cannot parse \"Linker script and memory map\" section in \"{self.fn}\" map file"

/-- `_get_memory_regions`, `mapfile.py:38-74`, from line `ln` (counted from 0). -/
def regionsProblem : Nat → List Str → Bool → Bool → Option MapProblem
  | _, [], found, header => if found && header then none else some .config
  | ln, l :: ls, found, header =>
    if startsWith l linkerScript then (if found && header then none else some .config)
    else if !found then regionsProblem (ln + 1) ls (startsWith l memConfig) header
    else if !header then regionsProblem (ln + 1) ls found (startsWith l (str "Name"))
    else match regionLine l with
      | .ok _ => regionsProblem (ln + 1) ls found header
      | .error .mapFile => some (.line .region l (ln + 1))
      | .error _ => none

/-- The place at which a line of the listing is rejected, `mapfile.py:294,305,316,370`. -/
def stepKind (st : PState) (line : Str) : LineKind :=
  match st.osec with
  | none => .output
  | some _ =>
    if startsWithAny (strip line) [str ".", str "COMMON"] then .input
    else match st.isec with
      | some i => if i.address = none then .cont else .fill
      | none => .fill

/-- The variable `line`, which is stripped inside of an output section, `mapfile.py:236`. -/
def stepQuoted (st : PState) (line : Str) : Str := if st.osec = none then line else strip line

/-- `_get_sections`, `mapfile.py:224-376`, from line `ln`. -/
def sectionsProblem : Nat → List Str → PState → Option MapProblem
  | _, [], st => if st.found then none else some .script
  | ln, l :: ls, st =>
    if startsWith l crossRef then (if st.found then none else some .script)
    else match stepLine st l with
      | .ok st' => sectionsProblem (ln + 1) ls st'
      | .error .mapFile => some (.line (stepKind st l) (stepQuoted st l) (ln + 1))
      | .error _ => none

/-- The `MapFileException` of `MapFile.__init__`, `mapfile.py:20-27`, after the file was read; `none` if there is none. -/
def mapProblem (lines : List Str) : Option MapProblem :=
  match regionsProblem 0 lines false false with
  | some p => some p
  | none =>
    match getMemoryRegions lines with
    | .error _ => none
    | .ok (_, rest) => sectionsProblem (lines.length - rest.length) rest {}

end EspSize
