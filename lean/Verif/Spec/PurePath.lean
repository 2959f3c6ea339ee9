import Verif.Spec.Abspath
/-! # Paths as lists of names -/
namespace EspSize

/-- The path `p` begins at the place `r`: where the process is (0), at the root (1), or at the other root of POSIX (2). -/
def RootOf (p : Str) (r : Nat) : Prop :=
  (¬ ['/'] <+: p ∧ r = 0) ∨
  (['/'] <+: p ∧ ¬ (['/', '/'] <+: p ∧ ¬ ['/', '/', '/'] <+: p) ∧ r = 1) ∨
  (['/', '/'] <+: p ∧ ¬ ['/', '/', '/'] <+: p ∧ r = 2)

/-- The names `cs` are those the path `p` leads along from its beginning `r`; empty parts and dots lead nowhere. -/
def PathOf (p : Str) (r : Nat) (cs : List Str) : Prop :=
  RootOf p r ∧ ∃ ps, Parts p ps ∧ cs = ps.filter fun c => decide (c ≠ [] ∧ c ≠ str ".")

/-- The path is that of the directory, or leads further. -/
def InDir (dir path : Str) : Prop := ∃ r ds cs, PathOf dir r ds ∧ PathOf path r (ds ++ cs)

/-- The names with slashes between them, nothing else. -/
def PlainPath (a : Str) (cs : List Str) : Prop := (cs = [] ∧ a = str ".") ∨ (cs ≠ [] ∧ Parts a cs)

/-- `a` is the plain path of `file` relative to `dir`. -/
def RelTo (dir file a : Str) : Prop := ∃ r ds cs, PathOf dir r ds ∧ PathOf file r (ds ++ cs) ∧ PlainPath a cs

/-- The last name of a path is `n`, which is empty if it has none. -/
def EndsIn (p n : Str) : Prop := ∃ r cs, PathOf p r cs ∧ ((cs = [] ∧ n = []) ∨ ∃ ds, cs = ds ++ [n])

/-- The texts tell that the directory contains the path: not for a directory that is the current one, and the text of no other
directory begins that of the path (`/c/http` and `/c/http_client/x.c`). -/
def TellsDir (dir path : Str) : Prop :=
  ¬ PathOf dir 0 [] ∧ (asPosix dir <+: asPosix path → InDir dir path)

end EspSize
