import Verif.Py.Abspath
import Verif.Spec.Get
/-! # What a path means

A place in the tree of directories is the list of the names that lead to it from the root.  Symbolic links are not
looked at: `..` goes back to the name before. -/
namespace EspSize

/-- The parts of a path between the slashes. -/
inductive Parts : Str → List Str → Prop
  | last {c : Str} : '/' ∉ c → Parts c [c]
  | more {c s : Str} {cs : List Str} : '/' ∉ c → Parts s cs → Parts (c ++ '/' :: s) (c :: cs)

/-- A name of a file or directory. -/
def FileName (c : Str) : Prop := c ≠ [] ∧ c ≠ str "." ∧ c ≠ str ".." ∧ '/' ∉ c

/-- From the place `d` the parts `cs` lead to the place `e`. -/
inductive LeadsTo : List Str → List Str → List Str → Prop
  | here {d : List Str} : LeadsTo d [] d
  | stay {d e cs : List Str} {c : Str} : c = [] ∨ c = str "." → LeadsTo d cs e → LeadsTo d (c :: cs) e
  | up {d e cs : List Str} : LeadsTo d.dropLast cs e → LeadsTo d (str ".." :: cs) e
  | down {d e cs : List Str} {c : Str} : FileName c → LeadsTo (d ++ [c]) cs e → LeadsTo d (c :: cs) e

/-- The place of a path, for the current directory `cwd`.  Two slashes at the beginning mean something else in POSIX. -/
def Place (cwd : List Str) (p : Str) (e : List Str) : Prop :=
  ¬ (['/', '/'] <+: p ∧ ¬ ['/', '/', '/'] <+: p) ∧
    ∃ cs, Parts p cs ∧ ((['/'] <+: p ∧ LeadsTo [] cs e) ∨ (¬ ['/'] <+: p ∧ LeadsTo cwd cs e))

/-- The path that goes straight to a place. -/
def straight : List Str → Str
  | [] => ['/']
  | n :: ns => (n :: ns).flatMap ('/' :: ·)

/-- Paths of one place have one file. -/
structure ByPlace (w : World) (cwd : List Str) : Prop where
  json : ∀ p q e, Place cwd p e → Place cwd q e → w.json p = w.json q
  lines : ∀ p q e, Place cwd p e → Place cwd q e → w.lines p = w.lines q
  elf : ∀ p q e, Place cwd p e → Place cwd q e → w.elf p = w.elf q

/-- The path of a file: it ends with a name. -/
def NamesFile (p : Str) : Prop := ∃ n, LastPart p n ∧ FileName n

end EspSize
