import Verif.Proofs.UnifyDiff
import Verif.Spec.SummaryCells
/-! # Totals over a whole map after `diff` and `unify` -/
namespace EspSize
variable {α : Type}

/-! ### `diff` -/

/-- `F` of the difference is `A` of the current entry minus `B` of the reference entry; the functions may use the key. -/
structure DiffLaw (W : α → Prop) (out : Option α → Option α → α) (F A B : Str → α → Int) : Prop where
  both : ∀ k c r, W c → W r → F k (out (some c) (some r)) = A k c - B k r
  cur : ∀ k c, W c → F k (out (some c) none) = A k c
  ref : ∀ k r, W r → F k (out none (some r)) = - B k r

theorem sumBy_dget_swapK (H : Str → α → Int) {β : Type} (cur : Dict Str β) (ref : Dict Str α)
    (hc : KeysNodup cur) (hr : KeysNodup ref) :
    sumBy (fun p => orZero (H p.1) (dget ref p.1)) cur = sumBy (fun q => if q.1 ∈ dkeys cur then H q.1 q.2 else 0) ref := by
  induction ref with
  | nil =>
    rw [sumBy_zero]
    · rfl
    · intro x _; simp [dget, orZero]
  | cons q t ih =>
    have h := KeysNodup.cons_iff.mp hr
    have hq : dget t q.1 = none := dget_eq_none.mpr h.1
    have h1 : sumBy (fun p => orZero (H p.1) (dget (q :: t) p.1)) cur =
        sumBy (fun p => (if p.1 = q.1 then H q.1 q.2 else 0) + orZero (H p.1) (dget t p.1)) cur := by
      apply sumBy_congr
      intro p _
      rw [dget_cons]
      by_cases e : q.1 = p.1
      · rw [if_pos e, if_pos e.symm]
        rw [← e, hq]
        simp [orZero]
      · rw [if_neg e, if_neg (Ne.symm e)]; simp
    rw [h1, sumBy_add, ih h.2, sumBy_ite_key cur hc, sumBy_cons]
    congr 1
    by_cases h2 : q.1 ∈ dkeys cur <;> simp [h2]

theorem DiffLaw.sum {W : α → Prop} {out : Option α → Option α → α} {F A B : Str → α → Int} (h : DiffLaw W out F A B)
    {c r : Dict Str α} (hc : DictWF W c) (hr : DictWF W r) :
    sumBy (fun p => F p.1 p.2) (outLevel out c r) = sumBy (fun p => A p.1 p.2) c - sumBy (fun p => B p.1 p.2) r := by
  unfold outLevel
  rw [sumBy_append, sumBy_map, sumBy_map, sumBy_filter]
  have e1 : sumBy (fun p : Str × α => F p.1 (out (some p.2) (dget r p.1))) c =
      sumBy (fun p => A p.1 p.2) c - sumBy (fun p => orZero (B p.1) (dget r p.1)) c := by
    rw [← sumBy_sub]
    apply sumBy_congr
    intro p hp
    cases hg : dget r p.1 with
    | none => rw [h.cur _ _ (hc.2 p hp)]; simp [orZero]
    | some y => rw [h.both _ _ _ (hc.2 p hp) (hr.2 _ (mem_of_dget hg))]; simp [orZero]
  have e2 : sumBy (fun p : Str × α => if (!dhas c p.1) = true then F p.1 (out none (some p.2)) else 0) r =
      sumBy (fun q => if q.1 ∈ dkeys c then B q.1 q.2 else 0) r - sumBy (fun p => B p.1 p.2) r := by
    rw [← sumBy_sub]
    apply sumBy_congr
    intro p hp
    rw [h.ref _ _ (hr.2 p hp)]
    have hd : dhas c p.1 = true ↔ p.1 ∈ dkeys c := dhas_iff
    by_cases e : p.1 ∈ dkeys c
    · simp [e, hd.mpr e]
    · have : dhas c p.1 = false := by rw [← Bool.not_eq_true, hd]; exact e
      simp [e, this]
  simp only [] at *
  rw [e1, e2, sumBy_dget_swapK B c r hc.1 hr.1]
  omega

theorem DiffLaw.node {W : α → Prop} {out : Option α → Option α → α} {F A B : Str → Str → α → Int}
    (h : ∀ k, DiffLaw W out (F k) (A k) (B k)) :
    DiffLaw (Node.WF W) (outNode out) (fun k n => sumBy (fun p => F k p.1 p.2) n.kids)
      (fun k n => sumBy (fun p => A k p.1 p.2) n.kids) (fun k n => sumBy (fun p => B k p.1 p.2) n.kids) where
  both k c r hc hr := (h k).sum hc hr
  cur k c hc := by
    refine ((h k).sum (r := []) hc ⟨KeysNodup.nil, by simp⟩).trans ?_
    simp
  ref k r hr := by
    refine ((h k).sum (c := []) ⟨KeysNodup.nil, by simp⟩ hr).trans ?_
    simp

theorem DiffLaw.mtype {F A B : Str → Str → Sec → Int} (h : ∀ k, DiffLaw Sec.WF outSec (F k) (A k) (B k)) :
    DiffLaw MType.WF outMType (fun k n => sumBy (fun p => F k p.1 p.2) n.sections)
      (fun k n => sumBy (fun p => A k p.1 p.2) n.sections) (fun k n => sumBy (fun p => B k p.1 p.2) n.sections) where
  both k c r hc hr := (h k).sum hc hr
  cur k c hc := by
    refine ((h k).sum (r := []) hc ⟨KeysNodup.nil, by simp⟩).trans ?_
    simp
  ref k r hr := by
    refine ((h k).sum (c := []) ⟨KeysNodup.nil, by simp⟩ hr).trans ?_
    simp

theorem diffLaw_size (W : Node α → Prop) (out : Option α → Option α → α) (w : Str → Bool) :
    DiffLaw W (outNode out) (fun k n => if w k then n.size else 0) (fun k n => if w k then n.size else 0) (fun _ _ => 0) where
  both k c r _ _ := by simp [outNode]
  cur k c _ := by simp [outNode]
  ref k r _ := by simp [outNode]

theorem diffLaw_diff (W : Node α → Prop) (out : Option α → Option α → α) (w : Str → Bool) :
    DiffLaw W (outNode out) (fun k n => if w k then n.sizeDiff else 0) (fun k n => if w k then n.size else 0)
      (fun k n => if w k then n.size else 0) where
  both k c r _ _ := by by_cases h : w k <;> simp [outNode, orZero, h]
  cur k c _ := by simp [outNode, orZero]
  ref k r _ := by by_cases h : w k <;> simp [outNode, h]

theorem diffLaw_symSize (w : Str → Bool) :
    DiffLaw Sym.WF outSym (fun k n => if w k then n.size else 0) (fun k n => if w k then n.size else 0) (fun _ _ => 0) where
  both k c r _ _ := by simp [outSym]
  cur k c _ := by simp [outSym]
  ref k r _ := by simp [outSym]

theorem diffLaw_symDiff (w : Str → Bool) :
    DiffLaw Sym.WF outSym (fun k n => if w k then n.sizeDiff else 0) (fun k n => if w k then n.size else 0)
      (fun k n => if w k then n.size else 0) where
  both k c r _ _ := by by_cases h : w k <;> simp [outSym, orZero, h]
  cur k c _ := by simp [outSym, orZero]
  ref k r _ := by by_cases h : w k <;> simp [outSym, h]

/-- Totals of archives after `diff`. -/
theorem sumArchs_diff {cur ref : MemMap} (hc : cur.WF) (hr : ref.WF) {F A B : Str → Str → Str → Arch → Int}
    (h : ∀ t s, DiffLaw Arch.WF outArch (F t s) (A t s) (B t s)) :
    sumArchs (outMap cur ref) (fun t s a => F t s a.1 a.2) =
      sumArchs cur (fun t s a => A t s a.1 a.2) - sumArchs ref (fun t s a => B t s a.1 a.2) := by
  have h1 : ∀ t, DiffLaw Sec.WF outSec (fun s n => sumBy (fun q : Str × Arch => F t s q.1 q.2) n.kids)
      (fun s n => sumBy (fun q : Str × Arch => A t s q.1 q.2) n.kids)
      (fun s n => sumBy (fun q : Str × Arch => B t s q.1 q.2) n.kids) := fun t => DiffLaw.node (h t)
  exact (DiffLaw.mtype h1).sum hc hr

theorem sumArchs_diff_size {cur ref : MemMap} (hc : cur.WF) (hr : ref.WF) (w : Str → Str → Str → Bool) :
    sumArchs (outMap cur ref) (fun t s a => if w t s a.1 then a.2.size else 0) =
      sumArchs cur (fun t s a => if w t s a.1 then a.2.size else 0) := by
  refine (sumArchs_diff hc hr (F := fun t s a n => if w t s a then n.size else 0) (A := fun t s a n => if w t s a then n.size else 0)
    (B := fun _ _ _ _ => 0) fun t s => diffLaw_size _ _ (w t s)).trans ?_
  have : sumArchs ref (fun _ _ _ => 0) = 0 := by
    unfold sumArchs
    exact sumBy_zero fun _ _ => sumBy_zero fun _ _ => sumBy_zero fun _ _ => rfl
  rw [this]; omega

theorem sumArchs_diff_diff {cur ref : MemMap} (hc : cur.WF) (hr : ref.WF) (w : Str → Str → Str → Bool) :
    sumArchs (outMap cur ref) (fun t s a => if w t s a.1 then a.2.sizeDiff else 0) =
      sumArchs cur (fun t s a => if w t s a.1 then a.2.size else 0) - sumArchs ref (fun t s a => if w t s a.1 then a.2.size else 0) :=
  sumArchs_diff hc hr (F := fun t s a n => if w t s a then n.sizeDiff else 0) (A := fun t s a n => if w t s a then n.size else 0)
    (B := fun t s a n => if w t s a then n.size else 0) fun t s => diffLaw_diff _ _ (w t s)

theorem sumObjs_diff_size {cur ref : MemMap} (hc : cur.WF) (hr : ref.WF) (w : Str → Str → Str → Str → Bool) :
    sumObjs (outMap cur ref) (fun t s a o => if w t s a.1 o.1 then o.2.size else 0) =
      sumObjs cur (fun t s a o => if w t s a.1 o.1 then o.2.size else 0) := by
  have h : ∀ t s, DiffLaw Arch.WF outArch
      (fun a n => sumBy (fun o : Str × Obj => if w t s a o.1 then o.2.size else 0) n.kids)
      (fun a n => sumBy (fun o : Str × Obj => if w t s a o.1 then o.2.size else 0) n.kids)
      (fun _ n => sumBy (fun _ : Str × Obj => 0) n.kids) :=
    fun t s => DiffLaw.node fun a => diffLaw_size Obj.WF outSym (w t s a)
  refine (sumArchs_diff hc hr h).trans ?_
  have : sumArchs ref (fun _ _ a => sumBy (fun _ => 0) a.2.kids) = 0 := by
    unfold sumArchs
    exact sumBy_zero fun _ _ => sumBy_zero fun _ _ => sumBy_zero fun _ _ => sumBy_zero fun _ _ => rfl
  rw [this]; simp only [Int.sub_zero]; rfl

theorem sumObjs_diff_diff {cur ref : MemMap} (hc : cur.WF) (hr : ref.WF) (w : Str → Str → Str → Str → Bool) :
    sumObjs (outMap cur ref) (fun t s a o => if w t s a.1 o.1 then o.2.sizeDiff else 0) =
      sumObjs cur (fun t s a o => if w t s a.1 o.1 then o.2.size else 0) -
        sumObjs ref (fun t s a o => if w t s a.1 o.1 then o.2.size else 0) := by
  have h : ∀ t s, DiffLaw Arch.WF outArch
      (fun a n => sumBy (fun o : Str × Obj => if w t s a o.1 then o.2.sizeDiff else 0) n.kids)
      (fun a n => sumBy (fun o : Str × Obj => if w t s a o.1 then o.2.size else 0) n.kids)
      (fun a n => sumBy (fun o : Str × Obj => if w t s a o.1 then o.2.size else 0) n.kids) :=
    fun t s => DiffLaw.node fun a => diffLaw_diff Obj.WF outSym (w t s a)
  exact sumArchs_diff hc hr h

/-! ### `unify` -/

theorem sumBy_dsetK {κ : Type} [DecidableEq κ] (f : κ → α → Int) (d : Dict κ α) (k : κ) (v : α) :
    sumBy (fun p => f p.1 p.2) (dset d k v) =
      sumBy (fun p => f p.1 p.2) d - orZero (f k) (dget d k) + f k v := by
  induction d with
  | nil => simp [dset, sumBy, dget, orZero]
  | cons p t ih =>
    obtain ⟨k', v'⟩ := p
    by_cases h : k' = k
    · simp [dset, dget, sumBy, orZero, h]; omega
    · simp [dset, dget, sumBy, h, ih]; omega

/-- Unifying the entries of `l` into `u` adds `H`, with abbreviated names as keys, to the total of `G`. -/
def UniLaw (uK : Dict Str α → Dict Str α → Dict Str α) (G : Str → α → Int) (H : Str × α → Int) : Prop :=
  ∀ l u, sumBy (fun p => G p.1 p.2) (uK l u) = sumBy (fun p => G p.1 p.2) u + sumBy H l

theorem uniLaw_node {uK : Dict Str α → Dict Str α → Dict Str α} {G : Str → Node α → Int} {H : Str × Node α → Int}
    (h0 : ∀ p : Str × Node α, G p.2.abb (addNode uK none p.2) = H p)
    (h1 : ∀ (x : Node α) (p : Str × Node α), G p.2.abb (addNode uK (some x) p.2) = G p.2.abb x + H p) :
    UniLaw (unifyNodes uK) G H := by
  intro l u
  rw [unifyNodes_eq]
  induction l generalizing u with
  | nil => simp
  | cons p l ih =>
    rw [List.foldl_cons, ih, sumBy_dsetK G, sumBy_cons]
    cases hg : dget u p.2.abb with
    | none => rw [h0]; simp only [orZero]; omega
    | some x => rw [h1]; simp only [orZero]; omega

theorem uniLaw_kids {uK : Dict Str α → Dict Str α → Dict Str α} {G : Str → Str → α → Int} {H : Str → Str × α → Int}
    (h : ∀ k, UniLaw uK (G k) (H k)) :
    UniLaw (unifyNodes uK) (fun k n => sumBy (fun p => G k p.1 p.2) n.kids) (fun p => sumBy (H p.2.abb) p.2.kids) := by
  apply uniLaw_node
  · intro p
    refine (h p.2.abb p.2.kids []).trans ?_
    simp
  · intro x p
    exact h p.2.abb p.2.kids x.kids

theorem uniLaw_size (uK : Dict Str α → Dict Str α → Dict Str α) (w : Str → Bool) :
    UniLaw (unifyNodes uK) (fun k n => if w k then n.size else 0) (fun p => if w p.2.abb then p.2.size else 0) := by
  apply uniLaw_node
  · intro p; rfl
  · intro x p; by_cases h : w p.2.abb <;> simp [addNode, h]

theorem uniLaw_diff (uK : Dict Str α → Dict Str α → Dict Str α) (w : Str → Bool) :
    UniLaw (unifyNodes uK) (fun k n => if w k then n.sizeDiff else 0) (fun p => if w p.2.abb then p.2.sizeDiff else 0) := by
  apply uniLaw_node
  · intro p; rfl
  · intro x p; by_cases h : w p.2.abb <;> simp [addNode, h]

/-- Totals of archives after `unify`. -/
theorem sumArchs_unify (m : MemMap) {G : Str → Str → Str → Arch → Int} {H : Str → Str → Str × Arch → Int}
    (h : ∀ t s, UniLaw unifyArchs (G t s) (H t s)) :
    sumArchs (unify m) (fun t s a => G t s a.1 a.2) =
      sumBy (fun t => sumBy (fun s => sumBy (H t.1 s.2.abb) s.2.kids) t.2.sections) m.memoryTypes := by
  unfold sumArchs unify
  simp only [dmap, sumBy_map]
  apply sumBy_congr
  intro t _
  have := uniLaw_kids (uK := unifyArchs) (G := G t.1) (H := H t.1) (h t.1) t.2.sections []
  rw [sumBy_nil, Int.zero_add] at this
  exact this

theorem sumArchs_unify_size (m : MemMap) (w : Str → Bool) :
    sumArchs (unify m) (fun _ _ a => if w a.1 then a.2.size else 0) =
      sumArchs m (fun _ _ a => if w a.2.abb then a.2.size else 0) :=
  sumArchs_unify m (G := fun _ _ a n => if w a then n.size else 0) fun _ _ => uniLaw_size _ w

theorem sumArchs_unify_diff (m : MemMap) (w : Str → Bool) :
    sumArchs (unify m) (fun _ _ a => if w a.1 then a.2.sizeDiff else 0) =
      sumArchs m (fun _ _ a => if w a.2.abb then a.2.sizeDiff else 0) :=
  sumArchs_unify m (G := fun _ _ a n => if w a then n.sizeDiff else 0) fun _ _ => uniLaw_diff _ w

theorem sumObjs_unify_size (m : MemMap) (w : Str → Str → Bool) :
    sumObjs (unify m) (fun _ _ a o => if w a.1 o.1 then o.2.size else 0) =
      sumObjs m (fun _ _ a o => if w a.2.abb o.2.abb then o.2.size else 0) :=
  sumArchs_unify m (G := fun _ _ a n => sumBy (fun o : Str × Obj => if w a o.1 then o.2.size else 0) n.kids)
    fun _ _ => uniLaw_kids (uK := unifyObjs) (G := fun a o n => if w a o then n.size else 0) fun a => uniLaw_size _ (w a)

theorem sumObjs_unify_diff (m : MemMap) (w : Str → Str → Bool) :
    sumObjs (unify m) (fun _ _ a o => if w a.1 o.1 then o.2.sizeDiff else 0) =
      sumObjs m (fun _ _ a o => if w a.2.abb o.2.abb then o.2.sizeDiff else 0) :=
  sumArchs_unify m (G := fun _ _ a n => sumBy (fun o : Str × Obj => if w a o.1 then o.2.sizeDiff else 0) n.kids)
    fun _ _ => uniLaw_kids (uK := unifyObjs) (G := fun a o n => if w a o then n.sizeDiff else 0) fun a => uniLaw_diff _ (w a)

end EspSize
