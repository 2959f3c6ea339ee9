import Verif.Model.Get
/-! # Specification of the choice of the target, and of paths -/
namespace EspSize

/-- `b` is the last component of path `p`. -/
def LastPart (p b : Str) : Prop := '/' ∉ b ∧ (p = b ∨ ∃ d, p = d ++ '/' :: b)

/-- `s` is file name `name` without its extension.  Dots at the start do not begin an extension. -/
def StemOf (name s : Str) : Prop :=
  (∃ ext, name = s ++ '.' :: ext ∧ '.' ∉ ext ∧ ∃ c ∈ s, c ≠ '.') ∨
  (s = name ∧ ∀ s' ext, name = s' ++ '.' :: ext → '.' ∉ ext → ∀ c ∈ s', c = '.')

/-- A directory path without slash at the end. -/
def DirPath (dir : Str) : Prop := dir ≠ [] ∧ ¬ ['/'] <:+ dir

/-- The project description belongs to the map file named `base`: the ELF file has the same stem. -/
def Belongs (base : Str) (d : ProjDesc) : Prop :=
  ∃ app stem, LastPart (d.appElf.getD []) app ∧ StemOf base stem ∧ StemOf app stem

/-- The target is that of the project description `desc`, if it belongs to the map file and has one;
otherwise `fromMap`, the one detected in the map file. -/
def Chosen (desc : Option ProjDesc) (base fromMap t : Str) : Prop :=
  (∃ d, desc = some d ∧ Belongs base d ∧ d.target = some t ∧ t ≠ []) ∨
  ((∀ d, desc = some d → Belongs base d → d.target = none ∨ d.target = some []) ∧ t = fromMap)

/-- The map file that is used: the given one, or the one parsed from the lines of the file. -/
def UsesMap (w : World) (fn : Str) (given : Option MapFile) (m : MapFile) : Prop :=
  given = some m ∨ (given = none ∧ ∃ lines, w.lines fn = .ok lines ∧ parseMap lines = .ok m)

/-- `l` cannot declare a target. -/
def SilentLine (l : Str) : Prop :=
  ¬ str "IDF_TARGET_" <:+: l ∧ ¬ str "project_elf_src_" <:+: l ∧ ¬ str "LOAD " <+: l ∧ ¬ str "Cross Reference Table" <+: l

/-- A line that is looked at. -/
def Looked (l : Str) : Prop := ¬ str "Cross Reference Table" <+: l ∧ ¬ str "Linker script and memory map" <+: l

/-- Text without blanks. -/
def NoBlank (s : Str) : Prop := ∀ c ∈ s, isSpace c = false

/-- `p` occurs in `a ++ p ++ b` not before the end of `a`. -/
def FirstAt (p a b : Str) : Prop := ∀ a' b', a ++ p ++ b = a' ++ p ++ b' → a.length ≤ a'.length

end EspSize
