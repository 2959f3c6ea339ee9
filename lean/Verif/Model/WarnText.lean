import Verif.Model.Warnings
/-!
# The texts of the warnings
-/
namespace EspSize

/-- The text of a message as it is given to `log.warn`.  The text of `invalid` is `misplacedText`, and that of `badElf` quotes an exception that is not modelled. -/
def Msg.text : Msg → Option Str
  -- main.py:103
  | .noAbbrev => some (str "The \"--no-abbrev\" option cannot be used with the \"--unify\" option and will be ignored.")
  -- main.py:108
  | .noDiff => some (str "The \"--diff\" option cannot be used with the \"--archive-dependencies\" option and will be ignored.")
  | .targets a b => some (targetsText a b)
  -- mapfile.py:96
  | .noTarget => some (str "cannot find target in linker map file")
  | .invalid => none
  | .badElf => none
  -- memorymap.py:1288
  | .noDesc => some (str "ignoring DWARF information because project description information is not available")
  -- memorymap.py:1291
  | .noElf => some (str "ignoring DWARF information because ELF file is not available")
  -- memorymap.py:919
  | .region name => some (str "cannot assign memory region " ++ name ++ str " to chip memory type")
  -- memorymap.py:1541-1545
  | .exceeds s r => some (str "output section " ++ s.name ++ str "(addr: " ++ intStr s.address ++ str ", " ++ str "size: " ++ intStr s.size ++
      str ") exceeds memory region \"" ++ r.name ++ str "\" " ++ str "(addr: " ++ intStr r.origin ++ str ", size: " ++ intStr r.length ++ str ")")
  -- memorymap.py:1559-1564
  | .overflow s r => some (str "[red]" ++ r.type.name ++ str " overflow detected![/red]: " ++ str "output section or its part " ++ s.name ++ str "(addr: " ++
      intStr s.address ++ str ", " ++ str "size: " ++ intStr s.size ++ str ") does not fit into any memory region and " ++
      str "will be assigned to the preceding " ++ r.name ++ str " memory region")
  -- memorymap.py:1589-1592
  | .nowhere s => some (str "cannot assign output section " ++ s.name ++ str "(addr: " ++ intStr s.address ++ str ", size: " ++ intStr s.size ++
      str ") to any memory type")

end EspSize
