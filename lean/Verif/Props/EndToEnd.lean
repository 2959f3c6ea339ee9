import Verif.Spec.MapFileText
import Verif.Props.MapSections
import Verif.Props.MapRegions
import Verif.Props.Get
/-!
# From the link map file to the printed report

Properties C70 and C71.
-/
namespace EspSize

theorem targetText_get {t : Str} {ls : List Str} (h : TargetText t ls) : getTarget ls = t := by
  cases h with
  | named h1 h2 h3 h4 => exact C34_detect _ _ _ _ _ h1 h2 h3 h4
  | none h => exact C34_detect_none _ h

/-- **C70**: a whole link map file is read back: regions, target, output sections with their input sections, and
the cross reference table. -/
theorem C70_map_file_partial {regs : List Region} {target : Str} {os : List ListedOut} {t : List (Str × List (Str × Str))}
    {lines : List Str} (h : MapFileText regs target os t lines) (hs : ∀ o ∈ os, ∀ i ∈ o.inputs, SimplePads o.address o.size i) :
    parseMap lines = .ok { regions := regs, target := target, sections := os.map ListedOut.toPOut, crt := some t } := by
  cases h with
  | mk h1 h2 h3 h4 h5 h6 =>
    obtain ⟨ti, mid, header, body, rest, rfl, c1, c2, c3, c4, c5, c6, c7⟩ := h5
    unfold parseMap
    rw [C27_round_trip h1 h2 h3]
    simp only [bind, Except.bind]
    rw [targetText_get h6, C29_sections_partial h3 h4 hs c1]
    simp only []
    rw [C33_round_trip c1 c2 c3 c4 c5 c6 c7]

end EspSize
