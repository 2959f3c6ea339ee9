import Verif.Model.Files
/-!
# The texts of the chip tables

`_get_memory_types`, `/repo/esp_idf_size/memorymap.py:1431-1455`, on the bytes of a file.  PyYAML and `eval` are modelled for files of
the form of those in `/repo/esp_idf_size/chip_info`: comments, blank lines, keys of the memory types at the start of a line, two blanks before
the keys of an entry, values that are sums of products of integer literals, and names that are plain scalars which YAML reads as strings.
Of other texts nothing is said (`none`).
-/
namespace EspSize

/-- A line without the comment: `#` begins a comment at the start of a line or behind a blank. -/
def uncomment : Bool → Str → Str
  | _, [] => []
  | blank, c :: s => if c = '#' ∧ blank = true then [] else c :: uncomment (c == ' ') s

/-- Without the blanks at the end. -/
def rtrim (s : Str) : Str := (s.reverse.dropWhile (· == ' ')).reverse

/-- Without the blanks at both ends. -/
def trimBlanks (s : Str) : Str := rtrim (s.dropWhile (· == ' '))

/-- A line of a file. -/
inductive ChipLine
  | skip
  | head (key : Str)
  | field (key value : Str)
deriving DecidableEq

/-- Kind of a line, by its indentation. -/
def chipLine (l : Str) : Option ChipLine :=
  match rtrim (uncomment true l) with
  | [] => some .skip
  | ' ' :: s => match s with
    | ' ' :: s => match cutAt ':' s with
      | some (k, ' ' :: v) => some (.field k (v.dropWhile (· == ' ')))
      | _ => none
    | _ => none
  | s => match s.reverse with
    | ':' :: r => some (.head r.reverse)
    | _ => none

/-- The fields before the first key of a memory type, and the memory types with their fields. -/
def chipLines : List Str → Option (List (Str × Str) × List (Str × List (Str × Str)))
  | [] => some ([], [])
  | l :: ls => do
    let (fs, es) ← chipLines ls
    match ← chipLine l with
    | .skip => some (fs, es)
    | .field k v => some ((k, v) :: fs, es)
    | .head k => some ([], (k, fs) :: es)

/-- Scalars that are no strings: `bool` and `null` of YAML 1.1, `resolver.py` of PyYAML. -/
def yamlWords : List Str := [str "yes", str "Yes", str "YES", str "no", str "No", str "NO", str "true", str "True", str "TRUE",
  str "false", str "False", str "FALSE", str "on", str "On", str "ON", str "off", str "Off", str "OFF", str "null", str "Null",
  str "NULL"]

/-- A scalar that is a string. -/
def yamlString (s : Str) : Option Str :=
  match s with
  | [] => none
  | c :: _ => if c.isAlpha ∧ (∀ d ∈ s, d.isAlphanum ∨ d = '_' ∨ d = ' ') ∧ s ∉ yamlWords then some s else none

/-- `s.split(c)`. -/
def splitChar (c : Char) : Str → List Str
  | [] => [[]]
  | d :: s => if d = c then [] :: splitChar c s
    else match splitChar c s with
      | [] => [[d]]
      | h :: t => (d :: h) :: t

/-- `eval` of a product of integer literals. -/
def evalProduct (s : Str) : Option Int :=
  ((splitChar '*' s).mapM fun p => parseNat0 (trimBlanks p)).map fun ns => ns.foldr (fun (n : Nat) (m : Int) => n * m) 1

/-- `eval(str(value))`, `memorymap.py:1443-1446`, of a sum of products; a literal alone is an integer for YAML, and its text evaluates to
the same integer. -/
def evalSum (s : Str) : Option Int := ((splitChar '+' s).mapM evalProduct).map fun ns => ns.foldr (· + ·) 0

/-- The keys of an entry. -/
def entryKeys : List Str := [str "primary_address", str "length", str "secondary_address", str "name"]

/-- `f d[k]` if there is such a key. -/
def optField {α : Type} (d : Dict Str Str) (k : Str) (f : Str → Option α) : Option (Option α) :=
  match dget d k with
  | none => some none
  | some v => (f v).map some

/-- An entry, `memorymap.py:1442-1451`. -/
def chipEntryOf (fs : List (Str × Str)) : Option ChipEntry :=
  let d := dictOf fs
  if ∀ p ∈ fs, p.1 ∈ entryKeys then do
    let primary ← (dget d (str "primary_address")).bind evalSum
    let length ← (dget d (str "length")).bind evalSum
    let secondary ← optField d (str "secondary_address") evalSum
    let name ← optField d (str "name") yamlString
    some { primary := primary, length := length, secondary := secondary, name := name }
  else none

/-- The table in these lines. -/
def readChip (lines : List Str) : Option (Dict Str ChipEntry) :=
  match chipLines lines with
  | some ([], es) => (es.mapM fun (p : Str × List (Str × Str)) => do
      let k ← yamlString p.1
      let e ← chipEntryOf p.2
      some (k, e)).map dictOf
  | _ => none

/-- `_get_memory_types`, `memorymap.py:1431-1455`, `name` being `target + '.yaml'` and `package` the directory of `memorymap.py`, before the
exceptions are handled. -/
def chipFrom (package : Str) (fs : Files) (name : Str) : Option (Except Err (Dict Str MemTypeInfo)) :=
  match readText fs (pathJoin (pathJoin package (str "chip_info")) name) with
  | .error e => some (.error e)
  | .ok t => (readChip (splitlines t)).map fun table => .ok (memoryTypes table)

/-- `chip_info/esp32.yaml`. -/
def esp32Lines : List Str := [
  str "# Data_type:",
  str "#   primary_address: value",
  str "#   length: value or equation",
  str "#   secondary_address: value if exist",
  str "DRAM:",
  str "  primary_address: 0x3FFAE000",
  str "  length: 17 * 0x2000 + 4 * 0x8000 + 4 * 0x4000",
  str "IRAM:",
  str "  primary_address: 0x40070000",
  str "  length: 0x50000",
  str "CACHE_I:",
  str "  primary_address: 0x400C2000",
  str "  length: 0xB3E000",
  str "  name: Flash Code",
  str "CACHE_D_1:",
  str "  primary_address: 0x3F400000",
  str "  length: 0x400000",
  str "  name: Flash Data",
  str "CACHE_D_2:",
  str "  primary_address: 0x3F800000",
  str "  length: 0x400000",
  str "  name: SPI DRAM",
  str "RTC_FAST_D:",
  str "  primary_address: 0x3FF80000",
  str "  length: 0x2000",
  str "  secondary_address: 0x400C0000",
  str "  name: RTC FAST",
  str "RTC_SLOW_D:",
  str "  primary_address: 0x50000000",
  str "  length: 0x2000",
  str "  name: RTC SLOW"]

/-- `chip_info/esp32c2.yaml`. -/
def esp32c2Lines : List Str := [
  str "# Data_type:",
  str "#   primary_address: value",
  str "#   length: value or equation",
  str "#   secondary_address: value if exist",
  str "DRAM:",
  str "  primary_address: 0x3FCA0000",
  str "  length: 0x40000",
  str "  secondary_address: 0x40380000",
  str "  name: DIRAM",
  str "IRAM:",
  str "  primary_address: 0x4037C000",
  str "  length: 0x4000",
  str "CACHE_I:",
  str "  primary_address: 0x42000000",
  str "  length: 0x400000",
  str "  name: Flash Code",
  str "CACHE_D:",
  str "  primary_address: 0x3C000000",
  str "  length: 0x400000",
  str "  name: Flash Data"]

/-- `chip_info/esp32c3.yaml`. -/
def esp32c3Lines : List Str := [
  str "# Data_type:",
  str "#   primary_address: value",
  str "#   length: value or equation",
  str "#   secondary_address: value if exist",
  str "DRAM:",
  str "  primary_address: 0x3FC80000",
  str "  length: 0x60000",
  str "  secondary_address: 0x40380000",
  str "IRAM:",
  str "  primary_address: 0x4037C000",
  str "  length: 0x4000",
  str "CACHE_I:",
  str "  primary_address: 0x42000000",
  str "  length: 0x800000",
  str "  name: Flash Code",
  str "CACHE_D:",
  str "  primary_address: 0x3C000000",
  str "  length: 0x800000",
  str "  name: Flash Data",
  str "RTC_SLOW_D:",
  str "  primary_address: 0x50000000",
  str "  length: 0x2000",
  str "  name: RTC SLOW"]

/-- `chip_info/esp32c5.yaml`. -/
def esp32c5Lines : List Str := [
  str "# Data_type:",
  str "#   primary_address: value",
  str "#   length: value or equation",
  str "#   secondary_address: value if exist",
  str "DRAM:",
  str "  primary_address: 0x40800000",
  str "  length: 0x60000",
  str "  secondary_address: 0x40800000",
  str "  name: HP SRAM",
  str "CACHE_I:",
  str "  primary_address: 0x42000000",
  str "  length: 0x2000000",
  str "  name: Flash",
  str "CACHE_D: # This could be removed, but keep it for consistency with other definitions.",
  str "  primary_address: 0x42000000",
  str "  length: 0x2000000",
  str "EXT_RAM:",
  str "  primary_address: 0x42000000",
  str "  length: 0x2000000",
  str "  name: External RAM",
  str "RTC_SLOW_D:",
  str "  primary_address: 0x50000000",
  str "  length: 0x4000",
  str "  name: LP SRAM"]

/-- `chip_info/esp32c6.yaml`. -/
def esp32c6Lines : List Str := [
  str "# Data_type:",
  str "#   primary_address: value",
  str "#   length: value or equation",
  str "#   secondary_address: value if exist",
  str "DRAM:",
  str "  primary_address: 0x40800000",
  str "  length: 0x80000",
  str "  secondary_address: 0x40800000",
  str "  name: DIRAM",
  str "CACHE_I:",
  str "  primary_address: 0x42000000",
  str "  length: 0x1000000",
  str "  name: Flash Code",
  str "CACHE_D:",
  str "  primary_address: 0x42000000",
  str "  length: 0x1000000",
  str "  name: Flash Data",
  str "RTC_SLOW_D: # TODO: IDF-5667 Better to rename to LP_RAM",
  str "  primary_address: 0x50000000",
  str "  length: 0x4000",
  str "  name: LP SRAM"]

/-- `chip_info/esp32c61.yaml`. -/
def esp32c61Lines : List Str := [
  str "# Data_type:",
  str "#   primary_address: value",
  str "#   length: value or equation",
  str "#   secondary_address: value if exist",
  str "DRAM:",
  str "  primary_address: 0x40800000",
  str "  length: 0x50000",
  str "  secondary_address: 0x40800000",
  str "  name: DIRAM",
  str "CACHE_I:",
  str "  primary_address: 0x42000000",
  str "  length: 0x2000000",
  str "  name: Flash Code",
  str "CACHE_D:",
  str "  primary_address: 0x42000000",
  str "  length: 0x2000000",
  str "  name: Flash Data",
  str "EXT_RAM:",
  str "  primary_address: 0x42000000",
  str "  length: 0x2000000",
  str "  name: External RAM",
  str "RTC_SLOW_D:",
  str "  primary_address: 0x50000000",
  str "  length: 0x4000",
  str "  name: LP SRAM"]

/-- `chip_info/esp32h2.yaml`. -/
def esp32h2Lines : List Str := [
  str "# Data_type:",
  str "#   primary_address: value",
  str "#   length: value or equation",
  str "#   secondary_address: value if exist",
  str "DRAM:",
  str "  primary_address: 0x40800000",
  str "  length: 0x50000",
  str "  secondary_address: 0x40800000",
  str "  name: DIRAM",
  str "CACHE_I:",
  str "  primary_address: 0x42000000",
  str "  length: 0x1000000",
  str "  name: Flash Code",
  str "CACHE_D:",
  str "  primary_address: 0x42000000",
  str "  length: 0x1000000",
  str "  name: Flash Data",
  str "RTC_SLOW_D: # TODO: IDF-5667 Better to rename to LP_RAM",
  str "  primary_address: 0x50000000",
  str "  length: 0x1000",
  str "  name: LP SRAM"]

/-- `chip_info/esp32h21.yaml`. -/
def esp32h21Lines : List Str := [
  str "# Data_type:",
  str "#   primary_address: value",
  str "#   length: value or equation",
  str "#   secondary_address: value if exist",
  str "DRAM:",
  str "  primary_address: 0x40800000",
  str "  length: 0x50000",
  str "  secondary_address: 0x40800000",
  str "  name: DIRAM",
  str "CACHE_I:",
  str "  primary_address: 0x42000000",
  str "  length: 0x1000000",
  str "  name: Flash",
  str "RTC_SLOW_D:",
  str "  primary_address: 0x50000000",
  str "  length: 0x1000",
  str "  name: LP SRAM"]

/-- `chip_info/esp32h4.yaml`. -/
def esp32h4Lines : List Str := [
  str "# Data_type:",
  str "#   primary_address: value",
  str "#   length: value or equation",
  str "#   secondary_address: value if exist",
  str "DRAM:",
  str "  primary_address: 0x40808000",
  str "  length: 0x60000",
  str "  secondary_address: 0x40808000",
  str "  name: DIRAM",
  str "CACHE_I:",
  str "  primary_address: 0x42000020",
  str "  length: 0x2000000",
  str "  name: Flash",
  str "EXT_RAM:",
  str "  primary_address: 0x42000020",
  str "  length: 0x2000000",
  str "  name: External RAM"]

/-- `chip_info/esp32p4.yaml`. -/
def esp32p4Lines : List Str := [
  str "# Data_type:",
  str "#   primary_address: value",
  str "#   length: value or equation",
  str "#   secondary_address: value if exist",
  str "DRAM:",
  str "  primary_address: 0x4ff00000",
  str "  length: 0xC0000",
  str "  secondary_address: 0x4ff00000",
  str "  name: DIRAM",
  str "CACHE_I_1:",
  str "  primary_address: 0x40000000",
  str "  length: 0x4000000",
  str "  name: Flash",
  str "CACHE_D_1:",
  str "  primary_address: 0x40000000",
  str "  length: 0x4000000",
  str "CACHE_I_2:",
  str "  primary_address: 0x48000000",
  str "  length: 0x4000000",
  str "  name: External RAM",
  str "CACHE_D_2:",
  str "  primary_address: 0x48000000",
  str "  length: 0x4000000",
  str "RTC_FAST_D:",
  str "  primary_address: 0x30100000",
  str "  length: 0x2000",
  str "  secondary_address: 0x30100000",
  str "  name: HP core RAM",
  str "RTC_SLOW_D:",
  str "  primary_address: 0x50108000",
  str "  length: 0x8000",
  str "  secondary_address: 0x50108000",
  str "  name: LP RAM"]

/-- `chip_info/esp32s2.yaml`. -/
def esp32s2Lines : List Str := [
  str "# Data_type:",
  str "#   primary_address: value",
  str "#   length: value or equation",
  str "#   secondary_address: value if exist",
  str "DRAM:",
  str "  primary_address: 0x3FFB2000",
  str "  length: 3 * 0x2000 + 18 * 0x4000",
  str "  secondary_address: 0x40022000",
  str "  name: DIRAM",
  str "CACHE_I_1:",
  str "  primary_address: 0x3F000000",
  str "  length: 0x400000",
  str "  name: Flash Data",
  str "CACHE_D:",
  str "  primary_address: 0x3F500000",
  str "  length: 0xA80000",
  str "  name: SPI DRAM",
  str "CACHE_I_2:",
  str "  primary_address: 0x40080000",
  str "  length: 0x780000",
  str "  name: Flash Code",
  str "RTC_FAST_D:",
  str "  primary_address: 0x40070000",
  str "  length: 0x2000",
  str "  secondary_address: 0x3FF9E000",
  str "  name: RTC FAST",
  str "RTC_SLOW_D:",
  str "  primary_address: 0x50000000",
  str "  length: 0x2000",
  str "  name: RTC SLOW"]

/-- `chip_info/esp32s3.yaml`. -/
def esp32s3Lines : List Str := [
  str "# Data_type:",
  str "#   primary_address: value",
  str "#   length: value or equation",
  str "#   secondary_address: value if exist",
  str "IRAM:",
  str "  primary_address: 0x40370000",
  str "  length: 0x8000",
  str "DRAM_1:",
  str "  primary_address: 0x3FC88000",
  str "  length: 0x8000 + 6 * 0x10000",
  str "  secondary_address: 0x40378000",
  str "  name: DIRAM",
  str "DRAM_2:",
  str "  primary_address: 0x3FCF0000",
  str "  length: 0x10000",
  str "  name: DRAM",
  str "CACHE_I:",
  str "  primary_address: 0x42000000",
  str "  length: 0x2000000",
  str "  name: Flash Code",
  str "CACHE_D:",
  str "  primary_address: 0x3C000000",
  str "  length: 0x2000000",
  str "  name: Flash Data",
  str "EXT_RAM:",
  str "  primary_address: 0x3C000000",
  str "  length: 0x2000000",
  str "  name: External RAM",
  str "RTC_FAST_D:",
  str "  primary_address: 0x3ff80000",
  str "  length: 0x2000",
  str "  secondary_address: 0x600FE000",
  str "  name: RTC FAST",
  str "RTC_SLOW_D:",
  str "  primary_address: 0x50000000",
  str "  length: 0x2000",
  str "  name: RTC SLOW"]

/-- `chip_info/esp32s31.yaml`. -/
def esp32s31Lines : List Str := [
  str "# Data_type:",
  str "#   primary_address: value",
  str "#   length: value or equation",
  str "#   secondary_address: value if exist",
  str "DRAM:",
  str "  primary_address: 0x2F000000",
  str "  length: 0x80000",
  str "  secondary_address: 0x2F000000",
  str "  name: DIRAM",
  str "CACHE_I_1:",
  str "  primary_address: 0x40000000",
  str "  length: 0x4000000",
  str "  name: Flash",
  str "CACHE_I_2:",
  str "  primary_address: 0x50000000",
  str "  length: 0x4000000",
  str "  name: External RAM",
  str "RTC_SLOW_D:",
  str "  primary_address: 0x2E000000",
  str "  length: 0x8000",
  str "  name: LP SRAM"]

/-- The files of the package and their lines. -/
def chipTexts : Dict Str (List Str) := [
  (str "esp32", esp32Lines),
  (str "esp32c2", esp32c2Lines),
  (str "esp32c3", esp32c3Lines),
  (str "esp32c5", esp32c5Lines),
  (str "esp32c6", esp32c6Lines),
  (str "esp32c61", esp32c61Lines),
  (str "esp32h2", esp32h2Lines),
  (str "esp32h21", esp32h21Lines),
  (str "esp32h4", esp32h4Lines),
  (str "esp32p4", esp32p4Lines),
  (str "esp32s2", esp32s2Lines),
  (str "esp32s3", esp32s3Lines),
  (str "esp32s31", esp32s31Lines)]

end EspSize
