import Verif.Model.MemTypes
import Verif.Spec.Sections
/-! # Specification of the memory type map -/
namespace EspSize

/-- `k` is the display name of a memory type of the table. -/
def IsAlias (types : Dict Str MemTypeInfo) (k : Str) : Prop := ∃ p ∈ types, p.2.name = k

/-- Distance of the two windows of a memory type, 0 if there is only one. -/
def windowDist (t : MemTypeInfo) : Int :=
  if t.secondary = 0 then 0 else if t.primary ≤ t.secondary then t.secondary - t.primary else t.primary - t.secondary

/-- `r` is another view of the memory of `q`: same length, at the distance of the windows. -/
def SameMemory (q r : SReg) : Prop :=
  q.length = r.length ∧ (q.origin - r.origin = windowDist r.type ∨ r.origin - q.origin = windowDist r.type)

instance (q r : SReg) : Decidable (SameMemory q r) := inferInstanceAs (Decidable (_ ∧ _))

/-- The regions shown under the name `k` that are not another view of an earlier one; `seen` are the
regions that come earlier. -/
def firstViews (k : Str) (seen : List SReg) : List SReg → List SReg
  | [] => []
  | r :: rs =>
    if r.type.name = k ∧ ∀ q ∈ seen, q.type.name = k → ¬ SameMemory q r then r :: firstViews k (seen ++ [r]) rs
    else firstViews k (seen ++ [r]) rs

/-- `e` is the name of the first memory type that stands for external RAM. -/
def ExtAlias (types : Dict Str MemTypeInfo) (e : Str) : Prop :=
  ∃ pre p post, types = pre ++ p :: post ∧ p.2.name = e ∧ e ∈ [str "External RAM", str "SPI DRAM"] ∧
    ∀ q ∈ pre, q.2.name ∉ [str "External RAM", str "SPI DRAM"]

/-- Sections placed in external RAM by name. -/
def ExtName (name : Str) : Prop := str ".ext_ram.bss" <+: name ∨ str ".ext_ram_noinit" <+: name

/-- The name of a section that overflows. -/
def overflowKey (name : Str) : Str := name ++ str "_overflow"

/-- Where an output section is accounted: memory type name and key, or nowhere. -/
inductive Goes (types : Dict Str MemTypeInfo) (regions : List SReg) (s : MSec) : Option (Str × Str) → Prop
  /-- external RAM, by name -/
  | ext {e} : ExtAlias types e → ExtName s.name → Goes types regions s (some (e, s.name))
  /-- the region that contains its address, the one with the lowest origin if there are several -/
  | inside {r} : (∀ e, ExtAlias types e → ¬ ExtName s.name) → r ∈ regions → InRegion r s.address →
      (∀ r' ∈ regions, InRegion r' s.address → r.origin ≤ r'.origin) →
      Goes types regions s (some (r.type.name, s.name))
  /-- between regions: the closest one below -/
  | between {r} : (∀ e, ExtAlias types e → ¬ ExtName s.name) → (∀ r' ∈ regions, ¬ InRegion r' s.address) →
      r ∈ regions → r.origin ≤ s.address → (∀ r' ∈ regions, r'.origin ≤ s.address → r'.origin ≤ r.origin) →
      (∃ r' ∈ regions, s.address < r'.origin) →
      Goes types regions s (some (r.type.name, overflowKey s.name))
  /-- below all regions: the lowest one -/
  | below {r} : (∀ e, ExtAlias types e → ¬ ExtName s.name) → (∀ r' ∈ regions, s.address < r'.origin) →
      2 ≤ regions.length → r ∈ regions → (∀ r' ∈ regions, r.origin ≤ r'.origin) →
      Goes types regions s (some (r.type.name, overflowKey s.name))
  /-- above all regions: a warning only -/
  | above : (∀ e, ExtAlias types e → ¬ ExtName s.name) → (∀ r' ∈ regions, ¬ InRegion r' s.address) →
      (∀ r' ∈ regions, r'.origin ≤ s.address) → Goes types regions s none
  /-- below the only region: a warning only -/
  | alone : (∀ e, ExtAlias types e → ¬ ExtName s.name) → (∀ r' ∈ regions, s.address < r'.origin) →
      regions.length = 1 → Goes types regions s none

/-- The entry of a section. -/
def secEntry (key : Str) (s : MSec) : Sec :=
  { abb := abbrevSec key, size := s.size, sizeDiff := 0, kids := s.archives }

/-- Value of `g` on the entry of `s`, if `s` goes to memory type `k`, else 0. -/
def entryValue (goes : MSec → Option (Str × Str)) (k : Str) (g : Sec → Int) (s : MSec) : Int :=
  match goes s with
  | some x => if x.1 = k then g (secEntry x.2 s) else 0
  | none => 0

/-- Memory type `k` holds exactly the sections that go there: `used` is the sum of their sizes, and each
key has the last section that goes to it. -/
structure Holds (goes : MSec → Option (Str × Str)) (sections : List MSec) (k : Str) (mt : MType) : Prop where
  used : mt.used = sumBy (fun s => s.size) (sections.filter fun s => (goes s).any fun x => x.1 = k)
  nodup : KeysNodup mt.sections
  keys : ∀ key, (dget mt.sections key).isSome = true ↔ ∃ s ∈ sections, goes s = some (k, key)
  last : ∀ key sec, dget mt.sections key = some sec → ∃ pre s post, sections = pre ++ s :: post ∧
    goes s = some (k, key) ∧ sec = secEntry key s ∧ ∀ s' ∈ post, goes s' ≠ some (k, key)
  distinct : (∀ i j : Nat, ∀ s s', i < j → sections[i]? = some s → sections[j]? = some s' →
      ∀ key, goes s = some (k, key) → goes s' ≠ some (k, key)) →
    mt.used = sumBy (fun p => p.2.size) mt.sections
  totals : (∀ i j : Nat, ∀ s s', i < j → sections[i]? = some s → sections[j]? = some s' →
      ∀ key, goes s = some (k, key) → goes s' ≠ some (k, key)) →
    ∀ g : Sec → Int, sumBy (fun p => g p.2) mt.sections = sumBy (entryValue goes k g) sections

end EspSize
