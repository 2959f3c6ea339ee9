import Verif.Proofs.UnifyDiff
import Verif.Props.Unify
/-! # C06: `unify` and `diff` commute -/
namespace EspSize

theorem wf_unify {m : MemMap} (h : m.WF) : (unify m).WF := by
  refine ⟨by simp only [unify]; exact h.1.dmap _, ?_⟩
  intro p hp
  have hu := C05_unify_keys m p hp
  exact ⟨hu.1, fun s hs => ⟨(hu.2 s hs).2.1, fun a ha => ⟨((hu.2 s hs).2.2 a ha).2.1,
    fun o ho => ⟨(((hu.2 s hs).2.2 a ha).2.2 o ho).2.1, fun _ _ => trivial⟩⟩⟩⟩

/-- What a reader of the report sees of an entry. -/
def seenNode {α : Type} (n : Node α) : Str × Int × Int := (n.abb, n.size, n.sizeDiff)
def seenSym (n : Sym) : Str × Int × Int := (n.abb, n.size, n.sizeDiff)

theorem seen_node {α : Type} {uK : Dict Str α → Dict Str α → Dict Str α}
    (out : Option α → Option α → α) (k : Str) (g ga gb : List (Node α))
    (h0 : (∃ x ∈ g, True) ↔ (∃ x ∈ ga, True) ∨ ∃ x ∈ gb, True)
    (h1 : sumBy Node.size g = sumBy Node.size ga - sumBy (fun _ => 0) gb)
    (h2 : sumBy Node.sizeDiff g = sumBy Node.size ga - sumBy Node.size gb) :
    (collapse uK k g).map seenNode =
      (comb (outNode out) (collapse uK k ga) (collapse uK k gb)).map seenNode := by
  have hz : sumBy (fun _ => (0 : Int)) gb = 0 := sumBy_zero (fun _ _ => rfl)
  rw [hz] at h1
  cases g <;> cases ga <;> cases gb <;> simp [sumBy] at h0 h1 h2 ⊢ <;>
    simp [collapse, comb, outNode, seenNode, orZero, sumBy] <;> omega

theorem seen_sym (k : Str) (g ga gb : List Sym)
    (h0 : (∃ x ∈ g, True) ↔ (∃ x ∈ ga, True) ∨ ∃ x ∈ gb, True)
    (h1 : sumBy Sym.size g = sumBy Sym.size ga - sumBy (fun _ => 0) gb)
    (h2 : sumBy Sym.sizeDiff g = sumBy Sym.size ga - sumBy Sym.size gb) :
    (collapseSym k g).map seenSym =
      (comb outSym (collapseSym k ga) (collapseSym k gb)).map seenSym := by
  have hz : sumBy (fun _ => (0 : Int)) gb = 0 := sumBy_zero (fun _ _ => rfl)
  rw [hz] at h1
  cases g <;> cases ga <;> cases gb <;> simp [sumBy] at h0 h1 h2 ⊢ <;>
    simp [collapseSym, comb, outSym, seenSym, orZero, sumBy] <;> omega

/-- **C06** unifying the difference and differencing the unified maps give the same entries with
the same name, size and size difference at every path, for maps whose abbreviated names are a
function of the full names (as in maps built by `get`). -/
theorem C06_unify_diff_commute (fs fa fo fy : Str → Str) (a b : MemMap) (ha : a.WF) (hb : b.WF)
    (ha' : a.AbbBy fs fa fo fy) (hb' : b.AbbBy fs fa fo fy) :
    ∃ d e, diff a b = .ok d ∧ diff (unify a) (unify b) = .ok e ∧
      dkeys (unify d).memoryTypes = dkeys e.memoryTypes ∧
      (∀ t, (getType (unify d) t).map (fun x => { x with sections := [] }) =
        (getType e t).map (fun x => { x with sections := [] })) ∧
      (∀ t s, (getSec (unify d) t s).map seenNode = (getSec e t s).map seenNode) ∧
      (∀ t s r, (getArch (unify d) t s r).map seenNode = (getArch e t s r).map seenNode) ∧
      (∀ t s r o, (getObj (unify d) t s r o).map seenNode = (getObj e t s r o).map seenNode) ∧
      (∀ t s r o y, (getSym (unify d) t s r o y).map seenSym = (getSym e t s r o y).map seenSym) := by
  have hua := wf_unify ha
  have hub := wf_unify hb
  have da := dictN_secsAt ha ha'
  have db := dictN_secsAt hb hb'
  refine ⟨_, _, diff_eq ha hb, diff_eq hua hub, ?_, ?_, ?_, ?_, ?_, ?_⟩
  · simp [unify, outMap, dkeys_dmap, dkeys_outLevel]
  · intro t
    rw [getType_unify, getType_outMap hb, getType_outMap hub, getType_unify, getType_unify]
    cases getType a t <;> cases getType b t <;> simp [comb, outMType, orZero]
  · intro t s
    rw [getSec_unify, getSec_outMap hub, getSec_unify, getSec_unify]
    simp only [chainSecs_eq, secsAt_outMap hb]
    apply seen_node
    · exact exi_level fs (exi_true _ _) (abbLaw_node _) (da t) (db t) s
    · exact lin_level fs (lin_node_size _ _) (abbLaw_node _) (da t) (db t) s
    · exact lin_level fs (lin_node_diff _ _) (abbLaw_node _) (da t) (db t) s
  · intro t s r
    rw [getArch_unify, getArch_outMap hub, getArch_unify, getArch_unify]
    apply seen_node
    · simp only [ex_chainArchs, chainSecs_eq, secsAt_outMap hb]
      exact exi_level fs (exi_node _ (exi_true _ _) (abbLaw_node _) _) (abbLaw_node _) (da t) (db t) s
    · simp only [sum_chainArchs, chainSecs_eq, secsAt_outMap hb]
      exact lin_level fs (lin_node _ (lin_node_size _ _) (abbLaw_node _) _) (abbLaw_node _) (da t) (db t) s
    · simp only [sum_chainArchs, chainSecs_eq, secsAt_outMap hb]
      exact lin_level fs (lin_node _ (lin_node_diff _ _) (abbLaw_node _) _) (abbLaw_node _) (da t) (db t) s
  · intro t s r o
    rw [getObj_unify, getObj_outMap hub, getObj_unify, getObj_unify]
    apply seen_node
    · simp only [ex_chainObjs, chainSecs_eq, secsAt_outMap hb]
      exact exi_level fs (exi_node _ (exi_node _ (exi_true _ _) (abbLaw_node _) _)
        (abbLaw_node _) _) (abbLaw_node _) (da t) (db t) s
    · simp only [sum_chainObjs, chainSecs_eq, secsAt_outMap hb]
      exact lin_level fs (lin_node _ (lin_node _ (lin_node_size _ _) (abbLaw_node _) _)
        (abbLaw_node _) _) (abbLaw_node _) (da t) (db t) s
    · simp only [sum_chainObjs, chainSecs_eq, secsAt_outMap hb]
      exact lin_level fs (lin_node _ (lin_node _ (lin_node_diff _ _) (abbLaw_node _) _)
        (abbLaw_node _) _) (abbLaw_node _) (da t) (db t) s
  · intro t s r o y
    rw [getSym_unify, getSym_outMap hub, getSym_unify, getSym_unify]
    apply seen_sym
    · simp only [ex_chainSyms, chainSecs_eq, secsAt_outMap hb]
      exact exi_level fs (exi_node _ (exi_node _ (exi_node _ (exi_true _ _) abbLaw_sym _)
        (abbLaw_node _) _) (abbLaw_node _) _) (abbLaw_node _) (da t) (db t) s
    · simp only [sum_chainSyms, chainSecs_eq, secsAt_outMap hb]
      exact lin_level fs (lin_node _ (lin_node _ (lin_node _ (lin_sym_size _) abbLaw_sym _)
        (abbLaw_node _) _) (abbLaw_node _) _) (abbLaw_node _) (da t) (db t) s
    · simp only [sum_chainSyms, chainSecs_eq, secsAt_outMap hb]
      exact lin_level fs (lin_node _ (lin_node _ (lin_node _ (lin_sym_diff _) abbLaw_sym _)
        (abbLaw_node _) _) (abbLaw_node _) _) (abbLaw_node _) (da t) (db t) s

/-! ### Non-vacuity: hypotheses hold of two maps that differ at all levels -/

/-- Abbreviation of the section names used in the example. -/
def exFs (s : Str) : Str := if s = str ".iram0.text" then str ".text" else str ".bss"
def exFa (s : Str) : Str := s.drop 2

example : exMapA.AbbBy exFs exFa id id ∧ exMapB.AbbBy exFs exFa id id := by decide
example : (diff exMapA exMapB).map (fun d => (getSec (unify d) (str "DRAM") (str ".bss")).map seenNode)
    = .ok (some (str ".bss", 30, -15)) := by decide

end EspSize
