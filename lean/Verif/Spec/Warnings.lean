import Verif.Model.Warnings
import Verif.Spec.Get
import Verif.Spec.MemTypes
/-! # What the messages should tell -/
namespace EspSize

/-- A part that belongs to no memory type: not external RAM by name, and above all regions, or below the only one. -/
def NoPlace (types : Dict Str MemTypeInfo) (regions : List SReg) (s : MSec) : Prop :=
  (∀ e, ExtAlias types e → ¬ ExtName s.name) ∧
    (((∀ r ∈ regions, ¬ InRegion r s.address) ∧ ∀ r ∈ regions, r.origin ≤ s.address) ∨
      ((∀ r ∈ regions, s.address < r.origin) ∧ regions.length = 1))

/-- Bytes that are announced as not assigned. -/
def announced (ms : List Msg) : Int :=
  sumBy (fun m => match m with | .nowhere s => s.size | _ => 0) ms

/-- No address is in two regions. -/
def RegionsDisjoint (regions : List SReg) : Prop :=
  regions.Pairwise fun r q => ∀ x, ¬ (InRegion r x ∧ InRegion q x)

/-- No address is in two memory regions of the map file. -/
def MapRegionsDisjoint (regions : List Region) : Prop :=
  regions.Pairwise fun r q => ∀ x, ¬ ((r.origin ≤ x ∧ x < r.origin + r.length) ∧ (q.origin ≤ x ∧ x < q.origin + q.length))

end EspSize
