import Verif.Spec.Get
import Verif.Spec.PurePath
import Verif.Spec.Sections
import Verif.Spec.Symbols
import Verif.Model.Get
/-! # The inputs of `get`, and LTO projects -/
namespace EspSize

/-- The path of `x` given relative to `dir`. -/
def PathAt (dir x p : Str) : Prop := (['/'] <+: x ∧ p = x) ∨ (¬ ['/'] <+: x ∧ p = dir ++ '/' :: x)

/-- The project description in use for the map file `dir/base`, if any. -/
def UsesDesc (w : World) (dir base : Str) : Option ProjDesc → Prop
  | some d => w.json (dir ++ str "/project_description.json") = some d ∧ Belongs base d
  | none => ∀ d, w.json (dir ++ str "/project_description.json") = some d → ¬ Belongs base d

/-- The ELF file in use, if any: the one named by the project description, unless it is missing or unreadable. -/
def UsesElf (w : World) (dir : Str) (desc : Option ProjDesc) : Option ElfData → Prop
  | some e => ∃ d app p, desc = some d ∧ d.appElf = some app ∧ PathAt dir app p ∧ w.elf p = some (.ok e)
  | none => desc = none ∨ ∃ d app p, desc = some d ∧ d.appElf = some app ∧ PathAt dir app p ∧
      (w.elf p = none ∨ ∃ x ∈ [Err.osError, Err.valueError, Err.elf], w.elf p = some (.error x))

/-- Debug information is wanted: as the option says, otherwise if the project is configured for LTO. -/
def WantsDwarf (w : World) (dir : Str) (option : Option Bool) : Prop :=
  option = some true ∨ (option = none ∧ w.sdkconfig (dir ++ str "/config/sdkconfig.json") = some true)

/-- `owner` tells the archive of the compilation units of symbols: that of the component with the innermost directory
that contains the unit. -/
def Owns (build : Str) (comps : List Comp) (syms : Dict Int CuSym) (owner : Str → Option Str) : Prop :=
  ∀ p ∈ syms, ∀ cu, p.2.cuName = some cu →
    (∀ a, owner cu = some a → ∃ c ∈ comps, c.file ≠ [] ∧ RelTo build c.file a ∧ InDir c.dir cu ∧
      ∀ c' ∈ comps, c'.file ≠ [] → InDir c'.dir cu → InDir c'.dir c.dir) ∧
    (owner cu = none → ∀ c ∈ comps, c.file ≠ [] → ¬ InDir c.dir cu)

/-- The archive of a symbol, if it has a size and is known to be in a compilation unit of a component. -/
def ownerOf (owner : Str → Option Str) (y : CuSym) : Option (Str × Str) :=
  if y.size = 0 then none
  else match y.cuName with
    | none => none
    | some cu => if cu = [] then none else (owner cu).map fun a => (a, pathName cu)

/-- The symbols with an archive that start in an input section, each with its archive and file. -/
def symsWithin (owner : Str → Option Str) (syms : Dict Int CuSym) (i : ISec) : List (CuSym × Str × Str) :=
  syms.filterMap fun p => if i.address ≤ p.2.value ∧ p.2.value < i.stop then (ownerOf owner p.2).map fun x => (p.2, x) else none

/-- Bytes of an input section that count for the archives, object files, names selected by `P`: without archive, its
symbols count for their archives and the rest as before. -/
def ltoBytes (owner : Str → Option Str) (syms : Dict Int CuSym) (P : Str → Str → Str → Bool) (i : ISec) : Int :=
  if i.archive = str "(exe)" then
    sumBy (fun y => if P y.2.1 y.2.2 y.1.name then y.1.size else 0) (symsWithin owner syms i) +
      (if P i.archive i.objectFile i.name then i.size - sumBy (fun y => y.1.size) (symsWithin owner syms i) else 0)
  else if P i.archive i.objectFile i.name then i.size else 0

/-- Symbols by address, not overlapping. -/
structure SymsDisjoint (owner : Str → Option Str) (syms : Dict Int CuSym) : Prop where
  keys : KeysNodup syms
  address : ∀ p ∈ syms, p.1 = p.2.value
  size : ∀ p ∈ syms, 0 ≤ p.2.size
  apart : ∀ p ∈ syms, ∀ q ∈ syms, (ownerOf owner p.2).isSome = true → (ownerOf owner q.2).isSome = true → p.2.value < q.2.value →
    p.2.value + p.2.size ≤ q.2.value

/-- An input section without archive that can be attributed: symbols that start in it end in it, and behind the last of
them there is nothing left, or some further symbol. -/
structure Attributable (owner : Str → Option Str) (syms : Dict Int CuSym) (i : ISec) : Prop where
  size : 0 ≤ i.size
  inside : ∀ y ∈ symsWithin owner syms i, y.1.value + y.1.size ≤ i.stop
  behind : i.size = 0 ∨ (∃ y ∈ symsWithin owner syms i, y.1.value + y.1.size = i.stop) ∨
    ∃ p ∈ syms, (ownerOf owner p.2).isSome = true ∧ i.stop ≤ p.2.value

/-- The output section `o'` is `o` with the bytes of input sections without archive attributed. -/
def AttributedTo (owner : Str → Option Str) (syms : Dict Int CuSym) (o o' : OSec) : Prop :=
  o'.name = o.name ∧ o'.address = o.address ∧ o'.size = o.size ∧
  ((∀ i ∈ o.inputs, i.archive = str "(exe)" → Attributable owner syms i) →
    ∀ P, inputSum P ISec.size o' = sumBy (ltoBytes owner syms P) o.inputs)

/-- The texts tell which directories of components contain which compilation units. -/
def DirsApart (comps : List Comp) (syms : Dict Int CuSym) : Prop :=
  ∀ c ∈ comps, c.file ≠ [] → ∀ p ∈ syms, ∀ cu, p.2.cuName = some cu → TellsDir c.dir cu

/-- What `get` reads for the map file `dir/base`. -/
structure LoadedFrom (w : World) (dir base : Str) (option : Option Bool) (given : Option MapFile) (f : MapFile)
    (desc : Option ProjDesc) (l : GetIn) : Prop where
  map_ : UsesMap w (dir ++ '/' :: base) given f
  desc_ : UsesDesc w dir base desc
  elf : UsesElf w dir desc l.elf
  regions : l.regions = f.regions
  target : Chosen (w.json (dir ++ str "/project_description.json")) base f.target l.target ∧ l.target ≠ []
  types : w.chip (l.target ++ str ".yaml") = .ok l.types
  plain : ¬ (WantsDwarf w dir option ∧ desc.isSome = true ∧ l.elf.isSome = true) → l.sections = f.sections.map toOSec
  lto : WantsDwarf w dir option → ∀ d e, desc = some d → l.elf = some e → ∃ syms build comps, e.cuSyms = .ok syms ∧
    d.build = some build ∧ d.comps = some comps ∧ ∃ owner, (DirsApart comps syms → Owns build comps syms owner) ∧
      (SymsDisjoint owner syms → All2 (AttributedTo owner syms) (f.sections.map toOSec) l.sections)

end EspSize
