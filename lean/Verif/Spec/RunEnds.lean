import Verif.Model.Run
import Verif.Props.Regions
/-! # Runs that end -/
namespace EspSize

/-- The run prints a report or fails, it does not loop. -/
def RunEnds (R : RunIn) (input : Str) (args : Args) : Prop := ∃ n, (makeReport { R with n := n } input args).isSome = true

/-- The regions of a map file, without the default one. -/
def RegionsOf (l : GetIn) (regions : List Region) : Prop := regions = l.regions.filter fun r => decide (r.name ≠ str "*default*")

/-- None of the regions is `Stuck` behind the pieces of those before it. -/
def NoneStuck (types : Dict Str MemTypeInfo) (regions : List Region) : Prop :=
  ∀ pre r post n out ws, regions = pre ++ r :: post → splitMemoryRegions n types pre [] [] = some (out, ws) → ¬ Stuck types r out

/-- No region is `Stuck`, if the files of the project can be read. -/
def ProjectEnds (w : World) (fn : Str) (useDwarf : Option Bool) (mf : Option MapFile) : Prop :=
  ∀ l, load w fn useDwarf mf = .ok l → ∀ regions, RegionsOf l regions → NoneStuck l.types regions

end EspSize
