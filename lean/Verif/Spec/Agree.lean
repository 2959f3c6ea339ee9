import Verif.Spec.TableRun
/-! # Reports of one project next to each other -/
namespace EspSize

/-- What a report shows in column `c`: the sizes, or with `dif` the differences, of all entries whose name is selected. -/
def shownIn (dif : Bool) (P : Str → Bool) (c : Col) (E : Dict Str Entry) : Int :=
  sumBy (fun p => if P p.1 then ((cellOf p.2 c).map fun z => if dif then z.2 else z.1).getD 0 else 0) E

/-- The name of a file in the report of files, which is the name of the archive, a colon and the name of the file, begins
with the name of archive `a` and a colon. -/
def nameIn (a k : Str) : Bool := (a ++ str ":").isPrefixOf k

/-- No name of an archive in the report is the beginning of another one, up to a colon. -/
def ColonFree (E : Dict Str Entry) : Prop := ∀ a ∈ dkeys E, ∀ b ∈ dkeys E, (a ++ str ":") <+: (b ++ str ":") → a = b

/-- Nothing that matters is hidden: there is no comparison, or unchanged entries are shown, or it is about the differences in
the total column, which are 0 for hidden entries. -/
def Complete (args : Args) (dif : Bool) (c : Col) : Prop :=
  truthy args.diff = false ∨ args.showUnchanged = true ∨ (dif = true ∧ c = .total)

end EspSize
