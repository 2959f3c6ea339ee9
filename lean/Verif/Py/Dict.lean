import Verif.Py.Basic
/-!
# Python `dict`

An insertion-ordered dictionary is an association list.  The distinctness of keys is the
predicate `KeysNodup`, a theorem about what the operations produce, not part of the type.
-/
namespace EspSize

/-- Python `dict` with keys in insertion order. -/
abbrev Dict (κ α : Type) := List (κ × α)

section
variable {κ α β : Type} [DecidableEq κ]

/-- `d.get(k)`. -/
def dget (d : Dict κ α) (k : κ) : Option α :=
  match d with
  | [] => none
  | (k', v) :: t => if k' = k then some v else dget t k

/-- `k in d`. -/
def dhas (d : Dict κ α) (k : κ) : Bool := (dget d k).isSome

/-- `d[k] = v`: replaces in place when the key is present, appends otherwise. -/
def dset (d : Dict κ α) (k : κ) (v : α) : Dict κ α :=
  match d with
  | [] => [(k, v)]
  | (k', v') :: t => if k' = k then (k, v) :: t else (k', v') :: dset t k v

/-- `d.keys()`. -/
def dkeys (d : Dict κ α) : List κ := d.map (·.1)

/-- `{k: f(k, v) for k, v in d.items()}`. -/
def dmap (f : κ → α → β) (d : Dict κ α) : Dict κ β := d.map fun p => (p.1, f p.1 p.2)

/-- `{k: v for k, v in d.items() if p(k, v)}`. -/
def dfilter (p : κ → α → Bool) (d : Dict κ α) : Dict κ α := d.filter fun q => p q.1 q.2

/-- A loop over `d.items()` replacing each value, which may raise. -/
def dmapM {ε : Type} (f : κ → α → Except ε β) : Dict κ α → Except ε (Dict κ β)
  | [] => .ok []
  | (k, v) :: t => do
    let v' ← f k v
    let t' ← dmapM f t
    .ok ((k, v') :: t')

/-- Python guarantees this of every `dict`. -/
def KeysNodup (d : Dict κ α) : Prop := (dkeys d).Nodup

instance (d : Dict κ α) : Decidable (KeysNodup d) := inferInstanceAs (Decidable (List.Nodup _))

end

/-- Sum of a function over a list (Python `+=` loops). -/
def sumBy {α : Type} (f : α → Int) : List α → Int
  | [] => 0
  | x :: t => f x + sumBy f t

end EspSize
