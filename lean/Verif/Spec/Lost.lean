import Verif.Spec.MemTypes
/-! # Parts that the map does not show -/
namespace EspSize

/-- The parts that show up in the map: they have a memory type, and no later part has the same memory type and key. -/
def shownParts (goes : MSec → Option (Str × Str)) : List MSec → List MSec
  | [] => []
  | p :: ps => if goes p = none ∨ ∃ q ∈ ps, goes q = goes p then shownParts goes ps else p :: shownParts goes ps

/-- The other parts: they have no memory type, or are replaced by a later part of the same memory type and key. -/
def lostParts (goes : MSec → Option (Str × Str)) : List MSec → List MSec
  | [] => []
  | p :: ps => if goes p = none ∨ ∃ q ∈ ps, goes q = goes p then p :: lostParts goes ps else lostParts goes ps

/-- Size of the object files of parts, of the archives and object files selected by `P`. -/
def partsFiles (P : Str → Str → Bool) (ps : List MSec) : Int :=
  sumBy (fun p : MSec => sumBy (fun a => sumBy (fun o => if P a.1 o.1 then o.2.size else 0) a.2.kids) p.archives) ps

end EspSize
