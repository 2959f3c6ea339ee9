import Verif.Proofs.Diff
import Verif.Spec.Diff
/-! # C01, C02, C03: `memorymap.diff` -/
namespace EspSize

theorem comb_diffAt_sym (c r : Option Sym) : DiffAt Sym.size Sym.sizeDiff c r (comb outSym c r) := by
  constructor
  · cases c <;> cases r <;> simp [comb]
  · cases c <;> cases r <;> simp [comb, outSym, orZero]
  · cases c <;> cases r <;> simp [comb, outSym, orZero]

theorem comb_diffAt_node {α : Type} (out : Option α → Option α → α) (c r : Option (Node α)) :
    DiffAt Node.size Node.sizeDiff c r (comb (outNode out) c r) := by
  constructor
  · cases c <;> cases r <;> simp [comb]
  · cases c <;> cases r <;> simp [comb, outNode, orZero]
  · cases c <;> cases r <;> simp [comb, outNode, orZero]

theorem comb_diffAt_size (c r : Option MType) :
    DiffAt MType.size MType.sizeDiff c r (comb outMType c r) := by
  constructor
  · cases c <;> cases r <;> simp [comb]
  · cases c <;> cases r <;> simp [comb, outMType, orZero]
  · cases c <;> cases r <;> simp [comb, outMType, orZero]

theorem comb_diffAt_used (c r : Option MType) :
    DiffAt MType.used MType.usedDiff c r (comb outMType c r) := by
  constructor
  · cases c <;> cases r <;> simp [comb]
  · cases c <;> cases r <;> simp [comb, outMType, orZero]
  · cases c <;> cases r <;> simp [comb, outMType, orZero]

/-- **C01** `diff` never raises and is the pointwise subtraction at every path of every level. -/
theorem C01_diff_pointwise (cur ref : MemMap) (hc : cur.WF) (hr : ref.WF) :
    ∃ d, diff cur ref = .ok d ∧
      (∀ t, DiffAt MType.size MType.sizeDiff (getType cur t) (getType ref t) (getType d t)) ∧
      (∀ t, DiffAt MType.used MType.usedDiff (getType cur t) (getType ref t) (getType d t)) ∧
      (∀ t s, DiffAt Node.size Node.sizeDiff (getSec cur t s) (getSec ref t s) (getSec d t s)) ∧
      (∀ t s a, DiffAt Node.size Node.sizeDiff
        (getArch cur t s a) (getArch ref t s a) (getArch d t s a)) ∧
      (∀ t s a o, DiffAt Node.size Node.sizeDiff
        (getObj cur t s a o) (getObj ref t s a o) (getObj d t s a o)) ∧
      (∀ t s a o y, DiffAt Sym.size Sym.sizeDiff
        (getSym cur t s a o y) (getSym ref t s a o y) (getSym d t s a o y)) ∧
      d.imageSize = cur.imageSize ∧ d.imageSizeDiff = cur.imageSize - ref.imageSize ∧
      d.target = cur.target ∧ d.targetDiff = ref.target ∧
      d.projectPath = cur.projectPath ∧ d.projectPathDiff = ref.projectPath ∧
      d.version = cur.version := by
  refine ⟨_, diff_eq hc hr, ?_, ?_, ?_, ?_, ?_, ?_, rfl, rfl, rfl, rfl, rfl, rfl, rfl⟩
  · intro t; rw [getType_outMap hr]; exact comb_diffAt_size _ _
  · intro t; rw [getType_outMap hr]; exact comb_diffAt_used _ _
  · intro t s; rw [getSec_outMap hr]; exact comb_diffAt_node _ _ _
  · intro t s a; rw [getArch_outMap hr]; exact comb_diffAt_node _ _ _
  · intro t s a o; rw [getObj_outMap hr]; exact comb_diffAt_node _ _ _
  · intro t s a o y; rw [getSym_outMap hr]; exact comb_diffAt_sym _ _

/-- `ks` (keys of the result) are the keys of the current dictionary in order, followed by the keys
that only the reference has, in its order. -/
def UnionKeys (c r ks : List Str) : Prop := ks = c ++ r.filter fun k => !c.contains k

/-- Keys of the children of a possibly absent node. -/
def kidKeys {α : Type} (n : Option (Node α)) : List Str := dkeys (kidsOf n)

/-- The abbreviated name is the one of cur if the entry exists there, else the one of ref. -/
def AbbOf {α : Type} (abb : α → Str) (c r : Option α) (x : α) : Prop :=
  (∀ y, c = some y → abb x = abb y) ∧ (c = none → ∀ y, r = some y → abb x = abb y)

theorem comb_keys {α : Type} (out : Option α → Option α → α) (c r : Option (Node α)) (x : Node α)
    (hx : comb (outNode out) c r = some x) :
    UnionKeys (kidKeys c) (kidKeys r) (dkeys x.kids) ∧ AbbOf Node.abb c r x := by
  cases c <;> cases r <;> simp only [comb, Option.some.injEq, reduceCtorEq] at hx <;> subst hx <;>
    simp [UnionKeys, kidKeys, AbbOf, outNode, kidsOf, dkeys_outLevel]

/-- **C02** the result is the union: keys (and their order) at every level, and abbreviated names;
presence of paths is `DiffAt.present` in C01. -/
theorem C02_diff_union (cur ref d : MemMap) (hc : cur.WF) (hr : ref.WF)
    (hd : diff cur ref = .ok d) :
    UnionKeys (dkeys cur.memoryTypes) (dkeys ref.memoryTypes) (dkeys d.memoryTypes) ∧
    (∀ t x, getType d t = some x →
      UnionKeys (dkeys (sectionsOf (getType cur t))) (dkeys (sectionsOf (getType ref t)))
        (dkeys x.sections)) ∧
    (∀ t s x, getSec d t s = some x →
      UnionKeys (kidKeys (getSec cur t s)) (kidKeys (getSec ref t s)) (dkeys x.kids) ∧
      AbbOf Node.abb (getSec cur t s) (getSec ref t s) x) ∧
    (∀ t s a x, getArch d t s a = some x →
      UnionKeys (kidKeys (getArch cur t s a)) (kidKeys (getArch ref t s a)) (dkeys x.kids) ∧
      AbbOf Node.abb (getArch cur t s a) (getArch ref t s a) x) ∧
    (∀ t s a o x, getObj d t s a o = some x →
      UnionKeys (kidKeys (getObj cur t s a o)) (kidKeys (getObj ref t s a o)) (dkeys x.kids) ∧
      AbbOf Node.abb (getObj cur t s a o) (getObj ref t s a o) x) ∧
    (∀ t s a o y x, getSym d t s a o y = some x →
      AbbOf Sym.abb (getSym cur t s a o y) (getSym ref t s a o y) x) := by
  rw [diff_eq hc hr] at hd
  cases hd
  refine ⟨dkeys_outLevel _ _ _, ?_, ?_, ?_, ?_, ?_⟩
  · intro t x hx
    rw [getType_outMap hr] at hx
    revert hx
    cases getType cur t <;> cases getType ref t <;> intro hx <;>
      simp only [comb, Option.some.injEq, reduceCtorEq] at hx <;> subst hx <;>
      simp [UnionKeys, outMType, sectionsOf, dkeys_outLevel]
  · intro t s x hx; rw [getSec_outMap hr] at hx; exact comb_keys _ _ _ _ hx
  · intro t s a x hx; rw [getArch_outMap hr] at hx; exact comb_keys _ _ _ _ hx
  · intro t s a o x hx; rw [getObj_outMap hr] at hx; exact comb_keys _ _ _ _ hx
  · intro t s a o y x hx
    rw [getSym_outMap hr] at hx
    revert hx
    cases getSym cur t s a o y <;> cases getSym ref t s a o y <;> intro hx <;>
      simp only [comb, Option.some.injEq, reduceCtorEq] at hx <;> subst hx <;>
      simp [AbbOf, outSym]

theorem outLevel_self {α : Type} {W : α → Prop} (out : Option α → Option α → α) (z : α → α)
    (d : Dict Str α) (hd : DictWF W d) (h : ∀ v, W v → out (some v) (some v) = z v) :
    outLevel out d d = dmap (fun _ => z) d := by
  unfold outLevel
  have h2 : (d.filter fun p => !dhas d p.1) = [] := by
    rw [List.filter_eq_nil_iff]
    intro p hp
    have : dhas d p.1 = true := dhas_iff.mpr (List.mem_map_of_mem (f := (·.1)) hp)
    simp [this]
  rw [h2]
  simp only [List.map_nil, List.append_nil, dmap]
  apply List.map_congr_left
  intro p hp
  rw [dget_of_mem hd.1 (k := p.1) (v := p.2) hp, h _ (hd.2 _ hp)]

theorem outSym_self (v : Sym) : outSym (some v) (some v) = v.zeroDiff := by
  simp [outSym, orZero, Sym.zeroDiff]

theorem outNode_self {α : Type} {W : α → Prop} (out : Option α → Option α → α) (z : α → α)
    (h : ∀ v, W v → out (some v) (some v) = z v) (n : Node α) (hn : Node.WF W n) :
    outNode out (some n) (some n) = Node.zeroDiff z n := by
  simp only [outNode, orZero, kidsOf, Node.zeroDiff]
  rw [outLevel_self out z n.kids hn h]
  simp

/-- **C03** (first half) comparing a map with itself gives the same map with all differences
zero. -/
theorem C03_diff_self (m : MemMap) (hm : m.WF) :
    diff m m = .ok { m.zeroDiff with targetDiff := m.target, projectPathDiff := m.projectPath } := by
  rw [diff_eq hm hm]
  simp only [outMap, MemMap.zeroDiff, Int.sub_self]
  rw [outLevel_self outMType MType.zeroDiff m.memoryTypes hm]
  intro t ht
  simp only [outMType, orZero, sectionsOf, MType.zeroDiff, Int.sub_self]
  rw [outLevel_self outSec Sec.zeroDiff t.sections ht]
  exact outNode_self _ _ (outNode_self _ _ (outNode_self _ _ (fun v _ => outSym_self v)))

/-- **C03** (second half) antisymmetry: swapping the arguments negates every difference at every
path. -/
theorem C03_diff_antisymm (a b : MemMap) (ha : a.WF) (hb : b.WF) :
    ∃ x y, diff a b = .ok x ∧ diff b a = .ok y ∧
      x.imageSizeDiff = - y.imageSizeDiff ∧
      (∀ t, orZero MType.sizeDiff (getType x t) = - orZero MType.sizeDiff (getType y t)) ∧
      (∀ t, orZero MType.usedDiff (getType x t) = - orZero MType.usedDiff (getType y t)) ∧
      (∀ t s, orZero Node.sizeDiff (getSec x t s) = - orZero Node.sizeDiff (getSec y t s)) ∧
      (∀ t s r, orZero Node.sizeDiff (getArch x t s r) = - orZero Node.sizeDiff (getArch y t s r)) ∧
      (∀ t s r o, orZero Node.sizeDiff (getObj x t s r o) =
        - orZero Node.sizeDiff (getObj y t s r o)) ∧
      (∀ t s r o z, orZero Sym.sizeDiff (getSym x t s r o z) =
        - orZero Sym.sizeDiff (getSym y t s r o z)) := by
  refine ⟨_, _, diff_eq ha hb, diff_eq hb ha, ?_, ?_, ?_, ?_, ?_, ?_, ?_⟩
  · simp only [outMap]; omega
  · intro t; rw [getType_outMap hb, getType_outMap ha]
    cases getType a t <;> cases getType b t <;> simp [comb, outMType, orZero] <;> omega
  · intro t; rw [getType_outMap hb, getType_outMap ha]
    cases getType a t <;> cases getType b t <;> simp [comb, outMType, orZero] <;> omega
  · intro t s; rw [getSec_outMap hb, getSec_outMap ha]
    cases getSec a t s <;> cases getSec b t s <;> simp [comb, outSec, outNode, orZero] <;> omega
  · intro t s r; rw [getArch_outMap hb, getArch_outMap ha]
    cases getArch a t s r <;> cases getArch b t s r <;>
      simp [comb, outArch, outNode, orZero] <;> omega
  · intro t s r o; rw [getObj_outMap hb, getObj_outMap ha]
    cases getObj a t s r o <;> cases getObj b t s r o <;>
      simp [comb, outObj, outNode, orZero] <;> omega
  · intro t s r o z; rw [getSym_outMap hb, getSym_outMap ha]
    cases getSym a t s r o z <;> cases getSym b t s r o z <;> simp [comb, outSym, orZero] <;> omega

/-! ### Non-vacuity -/

/-- A map with entries at all five levels, used by several examples. -/
def exMapA : MemMap :=
  { version := str "1.0", target := str "esp32", targetDiff := [], imageSize := 30,
    imageSizeDiff := 0, projectPath := str "/a.map", projectPathDiff := [],
    memoryTypes := [
      (str "DRAM", { size := 100, sizeDiff := 0, used := 30, usedDiff := 0, sections := [
        (str ".dram0.bss", { abb := str ".bss", size := 10, sizeDiff := 0, kids := [
          (str "x/liba.a", { abb := str "liba.a", size := 10, sizeDiff := 0, kids := [
            (str "o.obj", { abb := str "o.obj", size := 10, sizeDiff := 0, kids := [
              (str "s", { abb := str "s", size := 7, sizeDiff := 0 }),
              (str "u", { abb := str "u", size := 3, sizeDiff := 0 })] })] })] }),
        (str ".dram1.bss", { abb := str ".bss", size := 20, sizeDiff := 0, kids := [
          (str "y/liba.a", { abb := str "liba.a", size := 20, sizeDiff := 0, kids := [
            (str "o.obj", { abb := str "o.obj", size := 20, sizeDiff := 0, kids := [
              (str "s", { abb := str "s", size := 20, sizeDiff := 0 })] })] })] })] }),
      (str "Flash Code", { size := 1000, sizeDiff := 0, used := 0, usedDiff := 0, sections := [] })] }

/-- A reference map differing from `exMapA` at several levels. -/
def exMapB : MemMap :=
  { exMapA with
    target := str "esp32s3", imageSize := 50
    memoryTypes := [
      (str "DRAM", { size := 90, sizeDiff := 0, used := 45, usedDiff := 0, sections := [
        (str ".dram0.bss", { abb := str ".bss", size := 45, sizeDiff := 0, kids := [
          (str "x/liba.a", { abb := str "liba.a", size := 40, sizeDiff := 0, kids := [
            (str "o.obj", { abb := str "o.obj", size := 40, sizeDiff := 0, kids := [
              (str "s", { abb := str "s", size := 8, sizeDiff := 0 }),
              (str "w", { abb := str "w", size := 32, sizeDiff := 0 })] })] }),
          (str "z/libb.a", { abb := str "libb.a", size := 5, sizeDiff := 0, kids := [] })] })] }),
      (str "IRAM", { size := 64, sizeDiff := 0, used := 4, usedDiff := 0, sections := [
        (str ".iram0.text", { abb := str ".text", size := 4, sizeDiff := 0, kids := [] })] })] }

example : exMapA.WF ∧ exMapB.WF := by decide
example : (diff exMapA exMapB).map (fun d =>
    (getSym d (str "DRAM") (str ".dram0.bss") (str "x/liba.a") (str "o.obj") (str "w")).map
      fun s => (s.size, s.sizeDiff)) = .ok (some (0, -32)) := by decide
example : (diff exMapA exMapB).map (fun d =>
    (getType d (str "IRAM")).map fun t => [t.size, t.sizeDiff, t.used, t.usedDiff]) =
      .ok (some [0, -64, 0, -4]) := by decide
example : (diff exMapA exMapB).map (fun d => dkeys d.memoryTypes) =
    .ok [str "DRAM", str "Flash Code", str "IRAM"] := by decide

end EspSize
