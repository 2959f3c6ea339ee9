import Verif.Model.DescJson
/-!
# Keys of `project_description.json` and `sdkconfig.json`
-/
namespace EspSize

/-- The path of the description of the project. -/
def descPath (fn : Str) : Str := pathJoin (dirname fn) (str "project_description.json")

/-- The path of the configuration. -/
def configPath (fn : Str) : Str := pathJoin (pathJoin (dirname fn) (str "config")) (str "sdkconfig.json")

/-- Nothing, or `null`. -/
def NoValue (o : Option JVal) : Prop := o = none ∨ o = some .null

/-- Two files have the same values of the keys: both have nothing, or both have dictionaries, both empty or both not, with the same values of the keys. -/
inductive SameKeys (ks : List Str) : Option JVal → Option JVal → Prop where
  | nothing {a b : Option JVal} : NoValue a → NoValue b → SameKeys ks a b
  | dict {d d' : Dict Str JVal} : (d = [] ↔ d' = []) → (∀ k ∈ ks, dget d k = dget d' k) → SameKeys ks (some (.obj d)) (some (.obj d'))

/-- A value that is neither a dictionary nor `null`. -/
def NotDict (v : JVal) : Prop := v ≠ .null ∧ ∀ d, v ≠ .obj d

/-- The values that count as false: `null`, `false`, zero, and empty strings, lists and dictionaries. -/
inductive Falsy (zero : Str → Bool) : JVal → Prop where
  | null : Falsy zero .null
  | false : Falsy zero (.bool .false)
  | int : Falsy zero (.int 0)
  | float {t : Str} : zero t = true → Falsy zero (.float t)
  | str : Falsy zero (.str [])
  | arr : Falsy zero (.arr [])
  | obj : Falsy zero (.obj [])

/-- Not a string. -/
def NotStr (v : JVal) : Prop := ∀ s, v ≠ .str s

/-- A component with a value of `file`. -/
def FileOf (c v : JVal) : Prop := ∃ d, c = .obj d ∧ dget d (str "file") = some v

/-- The exception of looking up a key that a value does not have: `KeyError` for a dictionary, `TypeError` for anything else. -/
inductive NoItem : JVal → Err → Prop where
  | key {d : Dict Str JVal} : NoItem (.obj d) .keyError
  | type {c : JVal} : (∀ d, c ≠ .obj d) → NoItem c .typeError

end EspSize
