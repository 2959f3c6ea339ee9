import Verif.Model.Diff
import Verif.Spec.Tree
import Verif.Proofs.Dict
/-! # `diff` computes an explicit union -/
namespace EspSize

variable {α : Type}

/-- Explicit form of one level of the result of `diff`. -/
def outLevel (out : Option α → Option α → α) (cur ref : Dict Str α) : Dict Str α :=
  cur.map (fun p => (p.1, out (some p.2) (dget ref p.1))) ++
    (ref.filter fun p => !dhas cur p.1).map (fun p => (p.1, out none (some p.2)))

/-- Merge of a value of cur with the value of the same name in ref, if any. -/
def mergeOpt (f : α → α → α) (c : α) : Option α → α
  | none => c
  | some r => f c r

theorem mergeLevel_eq (f : α → α → α) (cur ref : Dict Str α) (hc : KeysNodup cur)
    (hr : KeysNodup ref) :
    mergeLevel f cur ref =
      cur.map (fun p => (p.1, mergeOpt f p.2 (dget ref p.1))) ++
        ref.filter fun p => !dhas cur p.1 := by
  induction ref generalizing cur with
  | nil => simp [mergeLevel, mergeOpt]
  | cons q t ih =>
    have hn := KeysNodup.cons_iff.mp hr
    have hstep : mergeLevel f cur (q :: t) =
        mergeLevel f (match dget cur q.1 with
          | none => dset cur q.1 q.2
          | some c => dset cur q.1 (f c q.2)) t := rfl
    rw [hstep]
    cases hg : dget cur q.1 with
    | none =>
      have hk := dget_eq_none.mp hg
      simp only []
      rw [ih _ (hc.dset _ _) hn.2, dset_of_not_mem hk]
      have hqt : dget t q.1 = none := dget_eq_none.mpr hn.1
      have hne : ∀ p ∈ cur, q.1 ≠ p.1 := by
        intro p hp e; exact hk (e ▸ List.mem_map_of_mem (f := (·.1)) hp)
      have hnt : ∀ p ∈ t, q.1 ≠ p.1 := by
        intro p hp e; exact hn.1 (e ▸ List.mem_map_of_mem (f := (·.1)) hp)
      have h1 : cur.map (fun p => (p.1, mergeOpt f p.2 (dget t p.1))) =
          cur.map (fun p => (p.1, mergeOpt f p.2 (dget (q :: t) p.1))) := by
        apply List.map_congr_left
        intro p hp
        rw [dget_cons, if_neg (hne p hp)]
      have h2 : (t.filter fun p => !dhas (cur ++ [q]) p.1) = t.filter fun p => !dhas cur p.1 := by
        apply List.filter_congr
        intro p hp
        have : dhas (cur ++ [q]) p.1 = dhas cur p.1 := by
          simp only [dhas, dget_append, dget_cons, if_neg (hnt p hp), dget_nil, Option.or_none]
        rw [this]
      rw [List.map_append, h1]
      simp only [List.map_cons, List.map_nil, hqt, mergeOpt, List.append_assoc,
        List.filter_cons, h2]
      have : (!dhas cur q.1) = true := by simp [dhas, hg]
      simp [this]
    | some c =>
      have hk : q.1 ∈ dkeys cur := by rw [← dget_isSome, hg]; rfl
      simp only []
      rw [ih _ (hc.dset _ _) hn.2, dset_eq_map hc hk, List.map_map]
      have hqt : dget t q.1 = none := dget_eq_none.mpr hn.1
      have h1 : ∀ p ∈ cur, ((fun p : Str × α => (p.1, mergeOpt f p.2 (dget t p.1))) ∘
          fun p => if p.1 = q.1 then (q.1, f c q.2) else p) p =
          (p.1, mergeOpt f p.2 (dget (q :: t) p.1)) := by
        intro p hp
        simp only [Function.comp]
        by_cases e : p.1 = q.1
        · have : p.2 = c := by
            have := dget_of_mem hc (k := p.1) (v := p.2) hp
            rw [e, hg] at this; exact (Option.some.inj this).symm
          simp [e, hqt, mergeOpt, dget_cons, this]
        · rw [if_neg e, dget_cons, if_neg (Ne.symm e)]
      rw [List.map_congr_left h1]
      have h2 : ∀ k, dhas (cur.map fun p => if p.1 = q.1 then (q.1, f c q.2) else p) k = dhas cur k := by
        intro k
        rw [← dset_eq_map hc hk]
        rw [Bool.eq_iff_iff, dhas_iff, dhas_iff, dkeys_dset_of_mem hk]
      simp only [h2, List.filter_cons]
      have : (!dhas cur q.1) = false := by simp [dhas, hg]
      simp [this]

/-- The two passes agree with `out` on single entries. -/
structure Good (W : α → Prop) (merge : α → α → α)
    (fix : Option α → Option α → α → Except Err α) (out : Option α → Option α → α) : Prop where
  both : ∀ c r, W c → W r → fix (some c) (some r) (merge c r) = .ok (out (some c) (some r))
  curOnly : ∀ c, W c → fix (some c) none c = .ok (out (some c) none)
  refOnly : ∀ r, W r → fix none (some r) r = .ok (out none (some r))

def DictWF (W : α → Prop) (d : Dict Str α) : Prop := KeysNodup d ∧ ∀ p ∈ d, W p.2

theorem fixLevel_mergeLevel {W : α → Prop} {merge fix} {out : Option α → Option α → α}
    (g : Good W merge fix out) {cur ref : Dict Str α} (hc : DictWF W cur) (hr : DictWF W ref) :
    fixLevel fix cur ref (mergeLevel merge cur ref) = .ok (outLevel out cur ref) := by
  rw [mergeLevel_eq merge cur ref hc.1 hr.1]
  unfold fixLevel
  rw [dmapM_ok (g := fun k v => out (dget cur k) (dget ref k))]
  · congr 1
    unfold dmap outLevel
    rw [List.map_append, List.map_map]
    congr 1
    · apply List.map_congr_left
      intro p hp
      simp only [Function.comp]
      rw [dget_of_mem hc.1 (k := p.1) (v := p.2) hp]
    · apply List.map_congr_left
      intro p hp
      have hp' := List.mem_filter.mp hp
      simp only []
      rw [dget_of_mem hr.1 (k := p.1) (v := p.2) hp'.1]
      have : dget cur p.1 = none := by
        have := hp'.2
        simp only [dhas, Bool.not_eq_true', Option.isSome_eq_false_iff, Option.isNone_iff_eq_none] at this
        exact this
      rw [this]
  · intro p hp
    rcases List.mem_append.mp hp with h | h
    · obtain ⟨q, hq, rfl⟩ := List.mem_map.mp h
      have h1 := dget_of_mem hc.1 (k := q.1) (v := q.2) hq
      simp only [h1]
      cases h2 : dget ref q.1 with
      | none => exact g.curOnly _ (hc.2 _ hq)
      | some r => exact g.both _ _ (hc.2 _ hq) (hr.2 _ (mem_of_dget h2))
    · have hp' := List.mem_filter.mp h
      have h1 : dget cur p.1 = none := by
        have := hp'.2
        simp only [dhas, Bool.not_eq_true', Option.isSome_eq_false_iff, Option.isNone_iff_eq_none] at this
        exact this
      rw [h1, dget_of_mem hr.1 (k := p.1) (v := p.2) hp'.1]
      exact g.refOnly _ (hr.2 _ hp'.1)

theorem mergeLevel_nil_right (f : α → α → α) (d : Dict Str α) : mergeLevel f d [] = d := rfl

theorem mergeLevel_nil_left (f : α → α → α) (d : Dict Str α) (h : KeysNodup d) :
    mergeLevel f [] d = d := by
  rw [mergeLevel_eq f [] d KeysNodup.nil h]
  simp [dhas]

/-- Result for one symbol. -/
def outSym (c r : Option Sym) : Sym :=
  match c, r with
  | some c, r => { c with sizeDiff := c.size - orZero Sym.size r }
  | none, some r => { r with size := 0, sizeDiff := 0 - r.size }
  | none, none => { abb := [], size := 0, sizeDiff := 0 }

theorem good_sym : Good Sym.WF mergeSym fixSym outSym where
  both c r _ _ := by simp [fixSym, mergeSym, outSym, orZero]
  curOnly c _ := by simp [fixSym, outSym, orZero]
  refOnly r _ := by simp [fixSym, outSym]

/-- Result for one section, archive or object file. -/
def outNode (out : Option α → Option α → α) (c r : Option (Node α)) : Node α :=
  match c, r with
  | some c, r => { abb := c.abb, size := c.size, sizeDiff := c.size - orZero Node.size r,
                   kids := outLevel out c.kids (kidsOf r) }
  | none, some r => { abb := r.abb, size := 0, sizeDiff := 0 - r.size,
                      kids := outLevel out [] r.kids }
  | none, none => { abb := [], size := 0, sizeDiff := 0, kids := [] }

theorem good_node {W : α → Prop} {merge fix} {out : Option α → Option α → α}
    (g : Good W merge fix out) :
    Good (Node.WF W) (mergeNode merge) (fixNode fix) (outNode out) where
  both c r hc hr := by
    have := fixLevel_mergeLevel g (cur := c.kids) (ref := r.kids) hc hr
    simp only [fixNode, mergeNode, kidsOf, bind, Except.bind, this]
    simp [outNode, orZero, kidsOf]
  curOnly c hc := by
    have := fixLevel_mergeLevel g (cur := c.kids) (ref := []) hc ⟨KeysNodup.nil, by simp⟩
    rw [mergeLevel_nil_right] at this
    simp only [fixNode, kidsOf, bind, Except.bind, this]
    simp [outNode, orZero, kidsOf]
  refOnly r hr := by
    have := fixLevel_mergeLevel g (cur := []) (ref := r.kids) ⟨KeysNodup.nil, by simp⟩ hr
    rw [mergeLevel_nil_left _ _ hr.1] at this
    simp only [fixNode, kidsOf, bind, Except.bind, this]
    simp [outNode]

def outObj := outNode outSym
def outArch := outNode outObj
def outSec := outNode outArch

theorem good_sec : Good Sec.WF mergeSec fixSec outSec :=
  good_node (good_node (good_node good_sym))

/-- Result for one memory type. -/
def outMType (c r : Option MType) : MType :=
  match c, r with
  | some c, r =>
    { c with sizeDiff := c.size - orZero MType.size r, usedDiff := c.used - orZero MType.used r,
             sections := outLevel outSec c.sections (sectionsOf r) }
  | none, some r =>
    { r with size := 0, used := 0, sizeDiff := 0 - r.size, usedDiff := 0 - r.used,
             sections := outLevel outSec [] r.sections }
  | none, none => { size := 0, sizeDiff := 0, used := 0, usedDiff := 0, sections := [] }

theorem good_mtype : Good MType.WF mergeMType fixMType outMType where
  both c r hc hr := by
    have := fixLevel_mergeLevel good_sec (cur := c.sections) (ref := r.sections) hc hr
    simp only [fixMType, mergeMType, sectionsOf, bind, Except.bind, this]
    simp [outMType, orZero, sectionsOf]
  curOnly c hc := by
    have := fixLevel_mergeLevel good_sec (cur := c.sections) (ref := []) hc ⟨KeysNodup.nil, by simp⟩
    rw [mergeLevel_nil_right] at this
    simp only [fixMType, sectionsOf, bind, Except.bind, this]
    simp [outMType, orZero, sectionsOf]
  refOnly r hr := by
    have := fixLevel_mergeLevel good_sec (cur := []) (ref := r.sections) ⟨KeysNodup.nil, by simp⟩ hr
    rw [mergeLevel_nil_left _ _ hr.1] at this
    simp only [fixMType, sectionsOf, bind, Except.bind, this]
    simp [outMType]

/-- Explicit form of the result of `diff`. -/
def outMap (cur ref : MemMap) : MemMap :=
  { cur with
    targetDiff := ref.target
    projectPathDiff := ref.projectPath
    imageSizeDiff := cur.imageSize - ref.imageSize
    memoryTypes := outLevel outMType cur.memoryTypes ref.memoryTypes }

theorem diff_eq {cur ref : MemMap} (hc : cur.WF) (hr : ref.WF) :
    diff cur ref = .ok (outMap cur ref) := by
  have := fixLevel_mergeLevel good_mtype (cur := cur.memoryTypes) (ref := ref.memoryTypes) hc hr
  simp [diff, bind, Except.bind, this, outMap]

/-! ### Lookups in the explicit form -/

theorem dget_outLevel (out : Option α → Option α → α) (cur ref : Dict Str α)
    (hr : KeysNodup ref) (k : Str) :
    dget (outLevel out cur ref) k =
      match dget cur k, dget ref k with
      | none, none => none
      | c, r => some (out c r) := by
  unfold outLevel
  rw [dget_append]
  have h1 : dget (cur.map (fun p => (p.1, out (some p.2) (dget ref p.1)))) k =
      (dget cur k).map fun c => out (some c) (dget ref k) :=
    dget_dmap (fun k c => out (some c) (dget ref k)) cur k
  have h2 : dget ((ref.filter fun p => !dhas cur p.1).map (fun p => (p.1, out none (some p.2)))) k =
      ((dget ref k).filter fun _ => !dhas cur k).map fun r => out none (some r) := by
    have := dget_dmap (fun _ r => out none (some r)) (dfilter (fun k _ => !dhas cur k) ref) k
    rw [dget_dfilter hr] at this
    exact this
  rw [h1, h2]
  cases hc : dget cur k with
  | some c => simp
  | none =>
    cases hr' : dget ref k with
    | none => simp
    | some r => simp [dhas, hc, Option.filter]

/-- Result at a path present in at least one map. -/
def comb (out : Option α → Option α → α) (c r : Option α) : Option α :=
  match c, r with
  | none, none => none
  | c, r => some (out c r)

theorem dget_outLevel' (out : Option α → Option α → α) (cur ref : Dict Str α)
    (hr : KeysNodup ref) (k : Str) :
    dget (outLevel out cur ref) k = comb out (dget cur k) (dget ref k) := by
  rw [dget_outLevel out cur ref hr]; rfl

theorem comb_outNode (out : Option α → Option α → α) (c r : Option (Node α))
    (hr : ∀ x, r = some x → KeysNodup x.kids) (k : Str) :
    ((comb (outNode out) c r).bind fun x => dget x.kids k) =
      comb out (c.bind fun x => dget x.kids k) (r.bind fun x => dget x.kids k) := by
  cases c with
  | none =>
    cases r with
    | none => rfl
    | some r =>
      simp only [comb, Option.bind_some, outNode, Option.bind_none]
      rw [dget_outLevel' _ _ _ (hr r rfl)]; rfl
  | some c =>
    cases r with
    | none =>
      simp only [comb, Option.bind_some, outNode, Option.bind_none, kidsOf]
      rw [dget_outLevel' _ _ _ KeysNodup.nil]; rfl
    | some r =>
      simp only [comb, Option.bind_some, outNode, kidsOf]
      rw [dget_outLevel' _ _ _ (hr r rfl)]; rfl

theorem comb_outMType (c r : Option MType)
    (hr : ∀ x, r = some x → KeysNodup x.sections) (k : Str) :
    ((comb outMType c r).bind fun x => dget x.sections k) =
      comb outSec (c.bind fun x => dget x.sections k) (r.bind fun x => dget x.sections k) := by
  cases c with
  | none =>
    cases r with
    | none => rfl
    | some r =>
      simp only [comb, Option.bind_some, outMType, Option.bind_none]
      rw [dget_outLevel' _ _ _ (hr r rfl)]; rfl
  | some c =>
    cases r with
    | none =>
      simp only [comb, Option.bind_some, outMType, Option.bind_none, sectionsOf]
      rw [dget_outLevel' _ _ _ KeysNodup.nil]; rfl
    | some r =>
      simp only [comb, Option.bind_some, outMType, sectionsOf]
      rw [dget_outLevel' _ _ _ (hr r rfl)]; rfl

/-! ### Well-formedness along paths -/

theorem MemMap.WF.getType {m : MemMap} (h : m.WF) {t : Str} {x : MType}
    (hx : getType m t = some x) : x.WF := h.2 _ (mem_of_dget hx)

theorem MemMap.WF.getSec {m : MemMap} (h : m.WF) {t s : Str} {x : Sec}
    (hx : getSec m t s = some x) : Sec.WF x := by
  unfold EspSize.getSec at hx
  obtain ⟨y, hy, hx⟩ := Option.bind_eq_some_iff.mp hx
  exact (h.getType hy).2 _ (mem_of_dget hx)

theorem MemMap.WF.getArch {m : MemMap} (h : m.WF) {t s a : Str} {x : Arch}
    (hx : getArch m t s a = some x) : Arch.WF x := by
  unfold EspSize.getArch at hx
  obtain ⟨y, hy, hx⟩ := Option.bind_eq_some_iff.mp hx
  exact (h.getSec hy).2 _ (mem_of_dget hx)

theorem MemMap.WF.getObj {m : MemMap} (h : m.WF) {t s a o : Str} {x : Obj}
    (hx : getObj m t s a o = some x) : Obj.WF x := by
  unfold EspSize.getObj at hx
  obtain ⟨y, hy, hx⟩ := Option.bind_eq_some_iff.mp hx
  exact (h.getArch hy).2 _ (mem_of_dget hx)

theorem getType_outMap {c r : MemMap} (hr : r.WF) (t : Str) :
    getType (outMap c r) t = comb outMType (getType c t) (getType r t) :=
  dget_outLevel' _ _ _ hr.1 _

theorem getSec_outMap {c r : MemMap} (hr : r.WF) (t s : Str) :
    getSec (outMap c r) t s = comb outSec (getSec c t s) (getSec r t s) := by
  unfold getSec
  rw [getType_outMap hr]
  exact comb_outMType _ _ (fun x hx => (hr.getType hx).1) s

theorem getArch_outMap {c r : MemMap} (hr : r.WF) (t s a : Str) :
    getArch (outMap c r) t s a = comb outArch (getArch c t s a) (getArch r t s a) := by
  unfold getArch
  rw [getSec_outMap hr]
  exact comb_outNode _ _ _ (fun x hx => (hr.getSec hx).1) a

theorem getObj_outMap {c r : MemMap} (hr : r.WF) (t s a o : Str) :
    getObj (outMap c r) t s a o = comb outObj (getObj c t s a o) (getObj r t s a o) := by
  unfold getObj
  rw [getArch_outMap hr]
  exact comb_outNode _ _ _ (fun x hx => (hr.getArch hx).1) o

theorem getSym_outMap {c r : MemMap} (hr : r.WF) (t s a o y : Str) :
    getSym (outMap c r) t s a o y = comb outSym (getSym c t s a o y) (getSym r t s a o y) := by
  unfold getSym
  rw [getObj_outMap hr]
  exact comb_outNode _ _ _ (fun x hx => (hr.getObj hx).1) y

theorem dkeys_outLevel (out : Option α → Option α → α) (cur ref : Dict Str α) :
    dkeys (outLevel out cur ref) =
      dkeys cur ++ (dkeys ref).filter fun k => !(dkeys cur).contains k := by
  unfold outLevel dkeys
  rw [List.map_append, List.map_map, List.map_map, List.filter_map]
  congr 1
  congr 1
  apply List.filter_congr
  intro p _
  simp only [Function.comp]
  congr 1
  rw [Bool.eq_iff_iff, dhas_iff]
  simp [dkeys]

end EspSize
