import Verif.Model.Deps
/-! # Specification of the DOT report -/
namespace EspSize

/-- The archives declared as nodes, in order. -/
def declared (ls : List DotLine) : List Str :=
  ls.filterMap fun
    | .node n _ _ _ => some n
    | .edge _ _ _ => none

/-- The edges, in order. -/
def edges (ls : List DotLine) : List (Str × Str × Option (List Str)) :=
  ls.filterMap fun
    | .node _ _ _ _ => none
    | .edge s d l => some (s, d, l)

/-- The dependencies of a report: dependent, dependency and symbols. -/
def dependencies (rev : Bool) (d : Deps) : List (Str × Str × List Str) :=
  d.flatMap fun p => p.2.archives.map fun q => if rev then (q.1, p.1, q.2.symbols) else (p.1, q.1, q.2.symbols)

/-- Every edge comes after the declarations of its two ends. -/
def DeclaredFirst (ls : List DotLine) : Prop :=
  ∀ l1 s d lab l2, ls = l1 ++ DotLine.edge s d lab :: l2 → s ∈ declared l1 ∧ d ∈ declared l1

/-- The archive occurs in the report. -/
def Occurs (d : Deps) (n : Str) : Prop := n ∈ dkeys d ∨ ∃ p ∈ d, n ∈ dkeys p.2.archives

end EspSize
