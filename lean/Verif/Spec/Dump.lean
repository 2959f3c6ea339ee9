import Verif.Spec.ElfNames
import Verif.Spec.Text
import Verif.Spec.Sort
import Verif.Model.Dump
/-! # Listings of sections and symbols: what the words of a line are -/
namespace EspSize

/-- The words of the line of section number `i`: number, name, type and, in hexadecimal, address, offset and size. -/
def SectionLine (name type : Str) (s : RawShdr) (i : Nat) (line : Str) : Prop :=
  ∃ a o z, HexOf s.addr a ∧ HexOf s.offset o ∧ HexOf s.size z ∧ Words line (intStr i :: (split name ++ (split type ++ [a, o, z])))

/-- The section of a symbol: the name of section number `n`, or `SPECIAL` if there is no such section. -/
def SectionColumn (e : ElfFile) (n : Nat) (name : Str) : Prop :=
  (∃ s, e.shdrs[n]? = some s ∧ e.shdrName s = .ok name) ∨ (e.shdrs.length ≤ n ∧ name = str "SPECIAL")

/-- The words of the line of symbol number `i`: number, value in hexadecimal, size, type, binding, visibility, index and name of the
section, name of the symbol and of its compilation unit, or `NOCU`. -/
def SymbolLine (section_ type bind vis name : Str) (cu : Option Str) (s : RawSym) (i : Nat) (line : Str) : Prop :=
  ∃ v, HexOf s.value v ∧ Words line (intStr i :: v :: intStr s.size :: (split type ++ (split bind ++ (split vis ++ (intStr s.shndx ::
    (split section_ ++ (split name ++ split (cu.getD (str "NOCU")))))))))

/-- A listing has a line for each element, up to the first one that has none. -/
def PrintedEach {α : Type} (f : α → Except Err Str) (l : List α) (out : Printout) : Prop :=
  ∃ done todo, l = done ++ todo ∧ All2 (fun a line => f a = .ok line) done out.1 ∧
    ((todo = [] ∧ out.2 = none) ∨ ∃ a rest x, todo = a :: rest ∧ f a = .error x ∧ out.2 = some x)

end EspSize
