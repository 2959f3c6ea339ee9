import Verif.Props.Cells
import Verif.Props.TableRun
/-! # C84: cells of the listings of whole runs -/
namespace EspSize

theorem all2_pairs {args : Args} {cur dif : Col → Int} {exact : Col → Prop} : ∀ {cols : List Col} {cells : List Str},
    All2 (fun c cell => ∃ z x, cell = colorDiff z x (truthy args.diff) ∧ (exact c → z = cur c ∧ x = dif c)) cols cells →
    ∃ zs : List (Int × Int), cells.map styled = zs.map (fun z => numberCell true (truthy args.diff) z.1 z.2) ∧
      All2 (fun c z => exact c → z = (cur c, dif c)) cols zs
  | [], [], _ => ⟨[], rfl, trivial⟩
  | c :: cols, cell :: cells, ⟨⟨z, x, he, hz⟩, h⟩ => by
    obtain ⟨zs, h1, h2⟩ := all2_pairs h
    refine ⟨(z, x) :: zs, ?_, ?_, h2⟩
    · simp only [List.map_cons, h1, he, C84_size_cell]
    · intro hc
      obtain ⟨rfl, rfl⟩ := hz hc
      rfl

/-- **C84** the rows of a listing: name, sizes and changes with their colours. -/
theorem C84_listing {args : Args} {ab : Bool} {title : Str} {named : Str → Str → Prop} {exact : Col → Prop}
    {cur dif : Str → Col → Int} {tab : Table} {cols : List Col} {es : List (Str × Str)}
    (h : TableOf args ab title named exact cur dif tab cols es) :
    All2 (fun e row => ∃ zs : List (Int × Int),
      RowShows (displayed ab e) (zs.map fun z => numberCell true (truthy args.diff) z.1 z.2) row ∧
      All2 (fun c z => exact c → z = (cur e.1 c, dif e.1 c)) cols zs) es tab.rows := by
  refine All2.imp h.rows ?_
  rintro e _ row ⟨cells, rfl, hc⟩
  obtain ⟨zs, h1, h2⟩ := all2_pairs (cur := cur e.1) (dif := dif e.1) hc
  exact ⟨zs, ⟨_, _, rfl, fun h1 h2 => styledIn_plain h1 h2 [], h1⟩, h2⟩

/-- A growing archive, one that shrinks, and one that stays as it is. -/
example : styled (colorDiff 28 12 true) = inStyle none (str "28") ++ inStyle (some (str "red")) (str "    +12") ∧
    styled (colorDiff 4 (-2) true) = inStyle none (str "4") ++ inStyle (some (str "green")) (str "     -2") ∧
    styled (colorDiff 4 0 true) = inStyle none (str "4      0") ∧ styled (colorDiff 4 7 false) = inStyle none (str "4") ∧
    styled (colorSize 4 7 true) = inStyle none (str "4") ++ inStyle (some (str "green")) (str "     +7") := by decide +kernel

/-- Number formats without markup. -/
example : ∃ F : FloatOps, F.Plain :=
  ⟨{ rnd := id, round2 := id, show2 := fun q => intStr q.floor, plus2 := fun q => intStr q.floor, pad2 := fun q => intStr q.floor },
    fun _ => intStr_neutral _, fun _ => intStr_neutral _, fun _ => intStr_neutral _⟩

end EspSize
