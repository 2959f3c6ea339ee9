import Verif.Model.Regions
/-!
# The chip tables

`/repo/esp_idf_size/chip_info/*.yaml`, one definition for each file, and `_get_memory_types`,
`/repo/esp_idf_size/memorymap.py:1430-1455`. The texts are in `Model/ChipText`; here an entry is written
as the mapping that `yaml.safe_load` returns, with the arithmetic expressions (`17 * 0x2000 + ...`)
that the code passes to `eval` written as Lean expressions.
-/
namespace EspSize

/-- One entry of a table; an absent key is `none`. -/
structure ChipEntry where
  primary : Int
  length : Int
  secondary : Option Int := none
  name : Option Str := none
deriving DecidableEq, Repr

/-- One iteration of the loop `memorymap.py:1441-1451`. -/
def ChipEntry.info (key : Str) (e : ChipEntry) : MemTypeInfo where
  name := e.name.getD key
  primary := e.primary
  length := e.length
  secondary := e.secondary.getD 0

/-- `_get_memory_types`, `memorymap.py:1441-1455`, on a table that was read. -/
def memoryTypes (table : Dict Str ChipEntry) : Dict Str MemTypeInfo := table.map fun p => (p.1, p.2.info p.1)

/-- `chip_info/esp32.yaml:5-31`. -/
def esp32 : Dict Str ChipEntry := [
  (str "DRAM", { primary := 0x3FFAE000, length := 17 * 0x2000 + 4 * 0x8000 + 4 * 0x4000 }),
  (str "IRAM", { primary := 0x40070000, length := 0x50000 }),
  (str "CACHE_I", { primary := 0x400C2000, length := 0xB3E000, name := some (str "Flash Code") }),
  (str "CACHE_D_1", { primary := 0x3F400000, length := 0x400000, name := some (str "Flash Data") }),
  (str "CACHE_D_2", { primary := 0x3F800000, length := 0x400000, name := some (str "SPI DRAM") }),
  (str "RTC_FAST_D", { primary := 0x3FF80000, length := 0x2000, secondary := some 0x400C0000, name := some (str "RTC FAST") }),
  (str "RTC_SLOW_D", { primary := 0x50000000, length := 0x2000, name := some (str "RTC SLOW") })]

/-- `chip_info/esp32c2.yaml:5-20`. -/
def esp32c2 : Dict Str ChipEntry := [
  (str "DRAM", { primary := 0x3FCA0000, length := 0x40000, secondary := some 0x40380000, name := some (str "DIRAM") }),
  (str "IRAM", { primary := 0x4037C000, length := 0x4000 }),
  (str "CACHE_I", { primary := 0x42000000, length := 0x400000, name := some (str "Flash Code") }),
  (str "CACHE_D", { primary := 0x3C000000, length := 0x400000, name := some (str "Flash Data") })]

/-- `chip_info/esp32c3.yaml:5-23`. -/
def esp32c3 : Dict Str ChipEntry := [
  (str "DRAM", { primary := 0x3FC80000, length := 0x60000, secondary := some 0x40380000 }),
  (str "IRAM", { primary := 0x4037C000, length := 0x4000 }),
  (str "CACHE_I", { primary := 0x42000000, length := 0x800000, name := some (str "Flash Code") }),
  (str "CACHE_D", { primary := 0x3C000000, length := 0x800000, name := some (str "Flash Data") }),
  (str "RTC_SLOW_D", { primary := 0x50000000, length := 0x2000, name := some (str "RTC SLOW") })]

/-- `chip_info/esp32c5.yaml:5-24`. -/
def esp32c5 : Dict Str ChipEntry := [
  (str "DRAM", { primary := 0x40800000, length := 0x60000, secondary := some 0x40800000, name := some (str "HP SRAM") }),
  (str "CACHE_I", { primary := 0x42000000, length := 0x2000000, name := some (str "Flash") }),
  (str "CACHE_D", { primary := 0x42000000, length := 0x2000000 }),
  (str "EXT_RAM", { primary := 0x42000000, length := 0x2000000, name := some (str "External RAM") }),
  (str "RTC_SLOW_D", { primary := 0x50000000, length := 0x4000, name := some (str "LP SRAM") })]

/-- `chip_info/esp32c6.yaml:5-21`. -/
def esp32c6 : Dict Str ChipEntry := [
  (str "DRAM", { primary := 0x40800000, length := 0x80000, secondary := some 0x40800000, name := some (str "DIRAM") }),
  (str "CACHE_I", { primary := 0x42000000, length := 0x1000000, name := some (str "Flash Code") }),
  (str "CACHE_D", { primary := 0x42000000, length := 0x1000000, name := some (str "Flash Data") }),
  (str "RTC_SLOW_D", { primary := 0x50000000, length := 0x4000, name := some (str "LP SRAM") })]

/-- `chip_info/esp32c61.yaml:5-25`. -/
def esp32c61 : Dict Str ChipEntry := [
  (str "DRAM", { primary := 0x40800000, length := 0x50000, secondary := some 0x40800000, name := some (str "DIRAM") }),
  (str "CACHE_I", { primary := 0x42000000, length := 0x2000000, name := some (str "Flash Code") }),
  (str "CACHE_D", { primary := 0x42000000, length := 0x2000000, name := some (str "Flash Data") }),
  (str "EXT_RAM", { primary := 0x42000000, length := 0x2000000, name := some (str "External RAM") }),
  (str "RTC_SLOW_D", { primary := 0x50000000, length := 0x4000, name := some (str "LP SRAM") })]

/-- `chip_info/esp32h2.yaml:5-21`. -/
def esp32h2 : Dict Str ChipEntry := [
  (str "DRAM", { primary := 0x40800000, length := 0x50000, secondary := some 0x40800000, name := some (str "DIRAM") }),
  (str "CACHE_I", { primary := 0x42000000, length := 0x1000000, name := some (str "Flash Code") }),
  (str "CACHE_D", { primary := 0x42000000, length := 0x1000000, name := some (str "Flash Data") }),
  (str "RTC_SLOW_D", { primary := 0x50000000, length := 0x1000, name := some (str "LP SRAM") })]

/-- `chip_info/esp32h21.yaml:5-17`. -/
def esp32h21 : Dict Str ChipEntry := [
  (str "DRAM", { primary := 0x40800000, length := 0x50000, secondary := some 0x40800000, name := some (str "DIRAM") }),
  (str "CACHE_I", { primary := 0x42000000, length := 0x1000000, name := some (str "Flash") }),
  (str "RTC_SLOW_D", { primary := 0x50000000, length := 0x1000, name := some (str "LP SRAM") })]

/-- `chip_info/esp32h4.yaml:5-17`. -/
def esp32h4 : Dict Str ChipEntry := [
  (str "DRAM", { primary := 0x40808000, length := 0x60000, secondary := some 0x40808000, name := some (str "DIRAM") }),
  (str "CACHE_I", { primary := 0x42000020, length := 0x2000000, name := some (str "Flash") }),
  (str "EXT_RAM", { primary := 0x42000020, length := 0x2000000, name := some (str "External RAM") })]

/-- `chip_info/esp32p4.yaml:5-33`. -/
def esp32p4 : Dict Str ChipEntry := [
  (str "DRAM", { primary := 0x4ff00000, length := 0xC0000, secondary := some 0x4ff00000, name := some (str "DIRAM") }),
  (str "CACHE_I_1", { primary := 0x40000000, length := 0x4000000, name := some (str "Flash") }),
  (str "CACHE_D_1", { primary := 0x40000000, length := 0x4000000 }),
  (str "CACHE_I_2", { primary := 0x48000000, length := 0x4000000, name := some (str "External RAM") }),
  (str "CACHE_D_2", { primary := 0x48000000, length := 0x4000000 }),
  (str "RTC_FAST_D", { primary := 0x30100000, length := 0x2000, secondary := some 0x30100000, name := some (str "HP core RAM") }),
  (str "RTC_SLOW_D", { primary := 0x50108000, length := 0x8000, secondary := some 0x50108000, name := some (str "LP RAM") })]

/-- `chip_info/esp32s2.yaml:5-30`. -/
def esp32s2 : Dict Str ChipEntry := [
  (str "DRAM", { primary := 0x3FFB2000, length := 3 * 0x2000 + 18 * 0x4000, secondary := some 0x40022000, name := some (str "DIRAM") }),
  (str "CACHE_I_1", { primary := 0x3F000000, length := 0x400000, name := some (str "Flash Data") }),
  (str "CACHE_D", { primary := 0x3F500000, length := 0xA80000, name := some (str "SPI DRAM") }),
  (str "CACHE_I_2", { primary := 0x40080000, length := 0x780000, name := some (str "Flash Code") }),
  (str "RTC_FAST_D", { primary := 0x40070000, length := 0x2000, secondary := some 0x3FF9E000, name := some (str "RTC FAST") }),
  (str "RTC_SLOW_D", { primary := 0x50000000, length := 0x2000, name := some (str "RTC SLOW") })]

/-- `chip_info/esp32s3.yaml:5-37`. -/
def esp32s3 : Dict Str ChipEntry := [
  (str "IRAM", { primary := 0x40370000, length := 0x8000 }),
  (str "DRAM_1", { primary := 0x3FC88000, length := 0x8000 + 6 * 0x10000, secondary := some 0x40378000, name := some (str "DIRAM") }),
  (str "DRAM_2", { primary := 0x3FCF0000, length := 0x10000, name := some (str "DRAM") }),
  (str "CACHE_I", { primary := 0x42000000, length := 0x2000000, name := some (str "Flash Code") }),
  (str "CACHE_D", { primary := 0x3C000000, length := 0x2000000, name := some (str "Flash Data") }),
  (str "EXT_RAM", { primary := 0x3C000000, length := 0x2000000, name := some (str "External RAM") }),
  (str "RTC_FAST_D", { primary := 0x3ff80000, length := 0x2000, secondary := some 0x600FE000, name := some (str "RTC FAST") }),
  (str "RTC_SLOW_D", { primary := 0x50000000, length := 0x2000, name := some (str "RTC SLOW") })]

/-- `chip_info/esp32s31.yaml:5-21`. -/
def esp32s31 : Dict Str ChipEntry := [
  (str "DRAM", { primary := 0x2F000000, length := 0x80000, secondary := some 0x2F000000, name := some (str "DIRAM") }),
  (str "CACHE_I_1", { primary := 0x40000000, length := 0x4000000, name := some (str "Flash") }),
  (str "CACHE_I_2", { primary := 0x50000000, length := 0x4000000, name := some (str "External RAM") }),
  (str "RTC_SLOW_D", { primary := 0x2E000000, length := 0x8000, name := some (str "LP SRAM") })]

/-- The files of `chip_info`. -/
def chipTables : Dict Str (Dict Str ChipEntry) := [
  (str "esp32", esp32),
  (str "esp32c2", esp32c2),
  (str "esp32c3", esp32c3),
  (str "esp32c5", esp32c5),
  (str "esp32c6", esp32c6),
  (str "esp32c61", esp32c61),
  (str "esp32h2", esp32h2),
  (str "esp32h21", esp32h21),
  (str "esp32h4", esp32h4),
  (str "esp32p4", esp32p4),
  (str "esp32s2", esp32s2),
  (str "esp32s3", esp32s3),
  (str "esp32s31", esp32s31)]

end EspSize
