import Verif.Model.Tree
/-! # Command line arguments

The `args` dictionary, `/repo/esp_idf_size/main.py:166-301`. -/
namespace EspSize

/-- The entries of `args` that the modelled code reads.  `diff` and `archiveDetails` are `None` or a
string; their truth value is that of a nonempty string. -/
structure Args where
  format : Str := str "table"
  archives : Bool := false
  archiveDependencies : Bool := false
  depSymbols : Bool := false
  depReverse : Bool := false
  archiveDetails : Option Str := none
  files : Bool := false
  diff : Option Str := none
  noAbbrev : Bool := false
  abbrev_ : Bool := true
  unify : Bool := false
  showUnused : Bool := false
  showUnchanged : Bool := false
  useFlashSize : Bool := false
  useDwarf : Option Bool := none
  outputFile : Option Str := none
  sort : Str := str "1"
  filter : Option (List Str) := none
  sortDiff : Bool := false
  /-- `True` (descending) unless `--sort-reverse` is given (`main.py:285-291`). -/
  sortReverse : Bool := true
deriving DecidableEq, Repr

/-- Python truth value of an optional string. -/
def truthy : Option Str → Bool
  | some (_ :: _) => true
  | _ => false

end EspSize
