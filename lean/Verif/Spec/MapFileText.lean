import Verif.Spec.MapText
import Verif.Spec.Get
/-!
# The text of a whole link map file
-/
namespace EspSize

/-- The lines name the target: in the first line that names one in the form `IDF_TARGET_<NAME> =`, or nowhere. -/
inductive TargetText : Str → List Str → Prop
  | named {pre post : List Str} {a x b : Str} : (∀ l ∈ pre, SilentLine l) → Looked (a ++ str "IDF_TARGET_" ++ x ++ str " =" ++ b) → NoBlank x →
      FirstAt (str "IDF_TARGET_") a (x ++ str " =" ++ b) →
      TargetText (lower x) (pre ++ (a ++ str "IDF_TARGET_" ++ x ++ str " =" ++ b) :: post)
  | none {lines : List Str} : (∀ l ∈ lines, SilentLine l) → TargetText [] lines

/-- The cross reference table: title, lines up to the header, the blocks of the symbols, and what follows. -/
def TableText (t : List (Str × List (Str × Str))) (ls : List Str) : Prop :=
  ∃ title mid header body rest, ls = title :: (mid ++ header :: (body ++ rest)) ∧ crossRef <+: title ∧
    (∀ l ∈ mid, NotStart [str "Symbol"] l) ∧ str "Symbol" <+: header ∧ CrtText t body ∧ CrtEnd rest ∧ (t.map (·.1)).Nodup ∧ t ≠ []

/-- A link map file: Memory Configuration, linker script and memory map, cross reference table. -/
inductive MapFileText (regs : List Region) (target : Str) (os : List ListedOut) (t : List (Str × List (Str × Str))) : List Str → Prop
  | mk {hd rl sl tl : List Str} {title : Str} : ConfigHead hd → RegionsText regs rl → linkerScript <+: title → OutsText os sl →
      TableText t tl → TargetText target (title :: (sl ++ tl)) → MapFileText regs target os t (hd ++ (rl ++ title :: (sl ++ tl)))

end EspSize
