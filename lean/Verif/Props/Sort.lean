import Verif.Model.Ops
import Verif.Spec.Ops
import Verif.Proofs.Sort
import Verif.Props.Diff
/-! # C07: `memorymap.sort` -/
namespace EspSize

theorem levelSorted_of {α : Type} (key key' : α → Int) (rev : Bool) (R : α → α → Prop) (f : α → α)
    (hk : ∀ x, key x = key' x) (hf : ∀ x, R x (f x)) (d : Dict Str α) :
    LevelSorted key' rev R d (dmap (fun _ => f) (sortDict key rev d)) := by
  have : key = key' := funext hk
  subst this
  exact ⟨_, sortedBy_stable _ rev d, all2_map _ _ _ fun p _ => ⟨rfl, hf _⟩⟩

/-- **C07** `sort` stably sorts every level by the selected key and changes nothing else. -/
theorem C07_sort_stable (m : MemMap) (args : Args) :
    MapSorted args.sortDiff args.sortReverse m (sort m args) := by
  refine ⟨rfl, levelSorted_of _ _ _ _ _ ?_ ?_ _⟩
  · intro x; cases args.sortDiff <;> rfl
  intro t
  refine ⟨rfl, levelSorted_of _ _ _ _ _ ?_ ?_ _⟩
  · intro x; cases args.sortDiff <;> rfl
  intro s
  refine ⟨rfl, rfl, rfl, levelSorted_of _ _ _ _ _ ?_ ?_ _⟩
  · intro x; cases args.sortDiff <;> rfl
  intro a
  refine ⟨rfl, rfl, rfl, levelSorted_of _ _ _ _ _ ?_ ?_ _⟩
  · intro x; cases args.sortDiff <;> rfl
  intro o
  refine ⟨rfl, rfl, rfl, ?_⟩
  have := levelSorted_of (α := Sym) (if args.sortDiff then Sym.sizeDiff else Sym.size)
    (fun x => if args.sortDiff then x.sizeDiff else x.size) args.sortReverse (fun y y' => y' = y) id
    (by intro x; cases args.sortDiff <;> rfl) (fun _ => rfl) o.kids
  simpa [dmap, sortObj] using this

/-- **C07** `get_summary_sorted` stably sorts the entries of a summary, the memory types of each entry and their sections,
and changes nothing else. -/
theorem C07_summary_sorted (es : Dict Str Entry) (args : Args) :
    EntriesSorted args.sortDiff args.sortReverse es (getSummarySorted es args) := by
  refine levelSorted_of _ _ _ _ _ ?_ ?_ _
  · intro x; cases args.sortDiff <;> rfl
  intro e
  refine ⟨rfl, rfl, rfl, levelSorted_of _ _ _ _ _ ?_ ?_ _⟩
  · intro x; cases args.sortDiff <;> rfl
  intro t
  refine ⟨rfl, rfl, ?_⟩
  have := levelSorted_of (α := SSec) (if args.sortDiff then SSec.sizeDiff else SSec.size)
    (fun x => if args.sortDiff then x.sizeDiff else x.size) args.sortReverse (fun y y' => y' = y) id
    (by intro x; cases args.sortDiff <;> rfl) (fun _ => rfl) t.sections
  simpa [dmap, sortSType] using this

example : dkeys (getSummarySorted [(str "a", ⟨str "a", 1, 5, []⟩), (str "b", ⟨str "b", 2, 3, []⟩)] {}) = [str "b", str "a"] ∧
    dkeys (getSummarySorted [(str "b", ⟨str "b", 2, 3, []⟩), (str "a", ⟨str "a", 1, 5, []⟩)] { sortDiff := true }) =
      [str "a", str "b"] := by decide

example : dkeys ((getObj (sort exMapA { sortReverse := false }) (str "DRAM") (str ".dram0.bss")
    (str "x/liba.a") (str "o.obj")).elim [] Node.kids) = [str "u", str "s"] := by decide
example : dkeys ((getType (sort exMapA {}) (str "DRAM")).elim [] MType.sections) =
    [str ".dram1.bss", str ".dram0.bss"] := by decide

end EspSize
