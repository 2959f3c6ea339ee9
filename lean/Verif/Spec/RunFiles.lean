import Verif.Spec.Lazy
import Verif.Spec.DescJson
import Verif.Model.Args
/-! # What a run over the files looks at -/
namespace EspSize

/-- `f` is a link map file of the run: the input, or the other project; `--diff` is ignored with `--archive-dependencies`. -/
def RunMap (input : Str) (args : Args) (f : Str) : Prop := f = input ∨ (args.archiveDependencies = false ∧ args.diff = some f ∧ f ≠ [])

/-- The description beside the link map file `fn` names the ELF file `p`. -/
def NamesElf (json : Str → Option JVal) (fn p : Str) : Prop :=
  ∃ d app, json (descPath fn) = some (.obj d) ∧ dget d (str "app_elf") = some (.str app) ∧ p = pathJoin (dirname fn) app

/-- A symbol whose name decides which rows of the table of cross references are kept: a function or object that is not absolute. -/
def IsLinked (y : RawSym) : Prop := (y.info % 16 = 1 ∨ y.info % 16 = 2) ∧ y.shndx ≠ 0xFFF1

/-- The names needed for dependencies can be read, and are those given by `yn`. -/
def LinkedRead (e : ElfFile) (yn : RawSym → Str) : Prop := ∃ t, e.symbols = .ok t ∧ ∀ y ∈ t, IsLinked y → e.symName y = .ok (yn y)

/-- Reading what is needed for dependencies raises `x`. -/
def LinkedUnreadable (e : ElfFile) (x : Err) : Prop := e.symbols = .error x ∨ ∃ t, e.symbols = .ok t ∧ ∃ y ∈ t, IsLinked y ∧ e.symName y = .error x

end EspSize
