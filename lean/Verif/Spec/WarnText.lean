import Verif.Model.WarnText
import Verif.Spec.Markup
import Verif.Spec.MemTypes
/-! # What the warnings should say -/
namespace EspSize

/-- How a part of an output section is referred to. -/
def partText (s : MSec) (more : Str) : Str :=
  s.name ++ (str "(addr: " ++ (intStr s.address ++ (str ", size: " ++ (intStr s.size ++ (')' :: more)))))

/-- What a reader should see for a message: all names and numbers. -/
def Tells (u : Str) : Msg → Prop
  | .noAbbrev => u = str "The \"--no-abbrev\" option cannot be used with the \"--unify\" option and will be ignored."
  | .noDiff => u = str "The \"--diff\" option cannot be used with the \"--archive-dependencies\" option and will be ignored."
  | .targets a b => u = str "The target of the reference and other project is " ++ (a ++ (str " and " ++ (b ++ str ", respectively.")))
  | .noTarget => u = str "cannot find target in linker map file"
  | .invalid => False
  | .badElf => False
  | .noDesc => u = str "ignoring DWARF information because project description information is not available"
  | .noElf => u = str "ignoring DWARF information because ELF file is not available"
  | .region name => u = str "cannot assign memory region " ++ (name ++ str " to chip memory type")
  | .exceeds s r => u = str "output section " ++ partText s (str " exceeds memory region \"" ++ (r.name ++ (str "\" (addr: " ++ (intStr r.origin ++
      (str ", size: " ++ (intStr r.length ++ [')']))))))
  | .overflow s r => u = r.type.name ++ (str " overflow detected!: output section or its part " ++ partText s
      (str " does not fit into any memory region and will be assigned to the preceding " ++ (r.name ++ str " memory region")))
  | .nowhere s => u = str "cannot assign output section " ++ partText s (str " to any memory type")

/-- The names in the message do not look like markup. -/
def Msg.plain : Msg → Prop
  | .targets a b => NoMarkup a ∧ NoMarkup b
  | .region name => NoMarkup name
  | .exceeds s r => NoMarkup s.name ∧ NoMarkup r.name
  | .overflow s r => NoMarkup s.name ∧ NoMarkup r.name ∧ NoMarkup r.type.name
  | .nowhere s => NoMarkup s.name
  | _ => True

/-- `r` is the region that precedes the address: it ends at or before it, and no other region starts between them. -/
def Precedes (regions : List SReg) (r : SReg) (a : Int) : Prop :=
  r.origin ≤ a ∧ r.origin + r.length ≤ a ∧ ∀ q ∈ regions, q.origin ≤ a → q.origin ≤ r.origin

end EspSize
