import Verif.Proofs.Unify
import Verif.Props.Diff
/-! # C04, C05: `memorymap.unify` -/
namespace EspSize

/-- **C04** (aggregation) memory types keep everything but their sections; at every path of
abbreviated names the unified entry is the aggregate of all entries with that chain. -/
theorem C04_unify_aggregates (m : MemMap) :
    dkeys (unify m).memoryTypes = dkeys m.memoryTypes ∧
    (∀ t, (getType (unify m) t).map (fun x => { x with sections := [] }) =
      (getType m t).map (fun x => { x with sections := [] })) ∧
    { unify m with memoryTypes := [] } = { m with memoryTypes := [] } ∧
    (∀ t s, Aggregate Node.abb Node.size Node.sizeDiff s (chainSecs m t s)
      (getSec (unify m) t s)) ∧
    (∀ t s a, Aggregate Node.abb Node.size Node.sizeDiff a (chainArchs m t s a)
      (getArch (unify m) t s a)) ∧
    (∀ t s a o, Aggregate Node.abb Node.size Node.sizeDiff o (chainObjs m t s a o)
      (getObj (unify m) t s a o)) ∧
    (∀ t s a o y, Aggregate Sym.abb Sym.size Sym.sizeDiff y (chainSyms m t s a o y)
      (getSym (unify m) t s a o y)) := by
  refine ⟨?_, ?_, rfl, ?_, ?_, ?_, ?_⟩
  · simp [unify, dkeys_dmap]
  · intro t
    rw [getType_unify]
    cases getType m t <;> rfl
  · intro t s; rw [getSec_unify]; exact aggregate_collapse _ _ _
  · intro t s a; rw [getArch_unify]; exact aggregate_collapse _ _ _
  · intro t s a o; rw [getObj_unify]; exact aggregate_collapse _ _ _
  · intro t s a o y; rw [getSym_unify]; exact aggregate_collapseSym _ _

/-- **C04** (totals) in every memory type the totals of every level are conserved. -/
theorem C04_unify_totals (m : MemMap) (t : Str) (x : MType) (hx : getType m t = some x) :
    ∃ x', getType (unify m) t = some x' ∧
      totSecs Node.size x' = totSecs Node.size x ∧
      totSecs Node.sizeDiff x' = totSecs Node.sizeDiff x ∧
      totArchs Node.size x' = totArchs Node.size x ∧
      totArchs Node.sizeDiff x' = totArchs Node.sizeDiff x ∧
      totObjs Node.size x' = totObjs Node.size x ∧
      totObjs Node.sizeDiff x' = totObjs Node.sizeDiff x ∧
      totSyms Sym.size x' = totSyms Sym.size x ∧
      totSyms Sym.sizeDiff x' = totSyms Sym.sizeDiff x := by
  rw [getType_unify, hx]
  refine ⟨_, rfl, ?_⟩
  simp only [totSecs, totArchs, totObjs, totSyms]
  unfold unifySecs unifyArchs unifyObjs
  have hs1 := sumBy_unifySyms Sym.size (fun _ => rfl) (fun _ _ => rfl)
  have hs2 := sumBy_unifySyms Sym.sizeDiff (fun _ => rfl) (fun _ _ => rfl)
  refine ⟨?_, ?_, ?_, ?_, ?_, ?_, ?_, ?_⟩
  · rw [sumBy_size_unifyNodes]; simp [sumBy]
  · rw [sumBy_sizeDiff_unifyNodes]; simp [sumBy]
  · rw [sumBy_unify_kids _ sumBy_size_unifyNodes]; simp [sumBy]
  · rw [sumBy_unify_kids _ sumBy_sizeDiff_unifyNodes]; simp [sumBy]
  · rw [sumBy_unify_kids _ (sumBy_unify_kids _ sumBy_size_unifyNodes)]; simp [sumBy]
  · rw [sumBy_unify_kids _ (sumBy_unify_kids _ sumBy_sizeDiff_unifyNodes)]; simp [sumBy]
  · rw [sumBy_unify_kids _ (sumBy_unify_kids _ (sumBy_unify_kids _ hs1))]; simp [sumBy]
  · rw [sumBy_unify_kids _ (sumBy_unify_kids _ (sumBy_unify_kids _ hs2))]; simp [sumBy]

theorem uni_obj_of {l : Dict Str Sym} {n : Obj} (h : n.kids = unifySyms l []) : Obj.Uni n := by
  refine ⟨?_, ?_⟩
  · rw [h]; exact keysNodup_unifySyms _ _ KeysNodup.nil
  · intro p hp; rw [h] at hp; exact ⟨(mem_unifySyms hp).1, trivial⟩

theorem uni_arch_of {l : Dict Str Obj} {n : Arch} (h : n.kids = unifyObjs l []) : Arch.Uni n := by
  refine ⟨?_, ?_⟩
  · rw [h]; exact keysNodup_unifyNodes _ _ _ KeysNodup.nil
  · intro p hp; rw [h] at hp
    obtain ⟨h1, l', h2⟩ := mem_unifyNodes appendLaw_syms hp
    exact ⟨h1, uni_obj_of h2⟩

theorem uni_sec_of {l : Dict Str Arch} {n : Sec} (h : n.kids = unifyArchs l []) : Sec.Uni n := by
  refine ⟨?_, ?_⟩
  · rw [h]; exact keysNodup_unifyNodes _ _ _ KeysNodup.nil
  · intro p hp; rw [h] at hp
    obtain ⟨h1, l', h2⟩ := mem_unifyNodes (appendLaw_nodes _) hp
    exact ⟨h1, uni_arch_of h2⟩

/-- **C05** (shape) after `unify` keys are the abbreviated names and distinct at each level. -/
theorem C05_unify_keys (m : MemMap) :
    ∀ p ∈ (unify m).memoryTypes, MType.Uni p.2 := by
  intro p hp
  simp only [unify, dmap, List.mem_map] at hp
  obtain ⟨q, _, rfl⟩ := hp
  refine ⟨keysNodup_unifyNodes _ _ _ KeysNodup.nil, ?_⟩
  intro s hs
  obtain ⟨h1, l', h2⟩ := mem_unifyNodes (appendLaw_nodes _) hs
  exact ⟨h1, uni_sec_of h2⟩

/-- **C05** (idempotence). -/
theorem C05_unify_idem (m : MemMap) : unify (unify m) = unify m := by
  have hi : Idem unifySecs :=
    idem_nodes (appendLaw_nodes _) (idem_nodes (appendLaw_nodes _) (idem_nodes appendLaw_syms idem_syms))
  simp only [unify, dmap, List.map_map]
  congr 1
  apply List.map_congr_left
  intro p _
  simp only [Function.comp]
  rw [show unifySecs (unifySecs p.2.sections []) [] = unifySecs p.2.sections [] from hi _]

/-! ### Non-vacuity: two sections, two archives and two symbols are merged -/

example : (getSec (unify exMapA) (str "DRAM") (str ".bss")).map Node.size = some 30 := by decide
example : (getSym (unify exMapA) (str "DRAM") (str ".bss") (str "liba.a") (str "o.obj")
    (str "s")).map Sym.size = some 27 := by decide
example : (chainSyms exMapA (str "DRAM") (str ".bss") (str "liba.a") (str "o.obj")
    (str "s")).length = 2 := by decide
example : unify exMapA ≠ exMapA := by decide

end EspSize
