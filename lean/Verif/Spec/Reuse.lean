import Verif.Spec.Lto
/-! # Maps and files for which a `MapFile` object can be used again -/
namespace EspSize

/-- Every input section has an address and a size. -/
def Addressed (mf : MapFile) : Prop := ∀ o ∈ mf.sections, ∀ i ∈ o.inputs, i.address ≠ none ∧ i.size ≠ none

/-- Symbols are stored under their addresses and have no negative sizes; no archive of a component is called `(exe)`. -/
structure SaneFiles (w : World) : Prop where
  elf : ∀ fn e cu, w.elf fn = some (.ok e) → e.cuSyms = .ok cu → ∀ p ∈ cu, p.1 = p.2.value ∧ 0 ≤ p.2.size
  desc : ∀ fn d build comps, w.json fn = some d → d.build = some build → d.comps = some comps →
    ∀ c ∈ comps, ¬ RelTo build c.file (str "(exe)")

end EspSize
