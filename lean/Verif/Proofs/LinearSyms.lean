import Verif.Proofs.Linear
/-! # Totals of symbols over a whole map after `diff` and `unify` -/
namespace EspSize

theorem sumSyms_diff {cur ref : MemMap} (hc : cur.WF) (hr : ref.WF) {F A B : Str → Str → Str → Sym → Int}
    (h : ∀ a o, DiffLaw Sym.WF outSym (F a o) (A a o) (B a o)) :
    sumSyms (outMap cur ref) (fun _ _ a o y => F a.1 o.1 y.1 y.2) =
      sumSyms cur (fun _ _ a o y => A a.1 o.1 y.1 y.2) - sumSyms ref (fun _ _ a o y => B a.1 o.1 y.1 y.2) := by
  have h1 : ∀ a, DiffLaw Obj.WF outObj (fun o n => sumBy (fun y : Str × Sym => F a o y.1 y.2) n.kids)
      (fun o n => sumBy (fun y : Str × Sym => A a o y.1 y.2) n.kids) (fun o n => sumBy (fun y : Str × Sym => B a o y.1 y.2) n.kids) :=
    fun a => DiffLaw.node (h a)
  have h2 : DiffLaw Arch.WF outArch
      (fun a n => sumBy (fun o : Str × Obj => sumBy (fun y : Str × Sym => F a o.1 y.1 y.2) o.2.kids) n.kids)
      (fun a n => sumBy (fun o : Str × Obj => sumBy (fun y : Str × Sym => A a o.1 y.1 y.2) o.2.kids) n.kids)
      (fun a n => sumBy (fun o : Str × Obj => sumBy (fun y : Str × Sym => B a o.1 y.1 y.2) o.2.kids) n.kids) := DiffLaw.node h1
  exact sumArchs_diff hc hr fun _ _ => h2

theorem sumSyms_zero (m : MemMap) : sumSyms m (fun _ _ _ _ _ => 0) = 0 :=
  sumBy_zero fun _ _ => sumBy_zero fun _ _ => sumBy_zero fun _ _ => sumBy_zero fun _ _ => sumBy_zero fun _ _ => rfl

theorem sumSyms_diff_size {cur ref : MemMap} (hc : cur.WF) (hr : ref.WF) (w : Str → Str → Str → Bool) :
    sumSyms (outMap cur ref) (fun _ _ a o y => if w a.1 o.1 y.1 then y.2.size else 0) =
      sumSyms cur (fun _ _ a o y => if w a.1 o.1 y.1 then y.2.size else 0) := by
  refine (sumSyms_diff hc hr (F := fun a o y n => if w a o y then n.size else 0) (A := fun a o y n => if w a o y then n.size else 0)
    (B := fun _ _ _ _ => 0) fun a o => diffLaw_symSize (w a o)).trans ?_
  rw [sumSyms_zero]; omega

theorem sumSyms_diff_diff {cur ref : MemMap} (hc : cur.WF) (hr : ref.WF) (w : Str → Str → Str → Bool) :
    sumSyms (outMap cur ref) (fun _ _ a o y => if w a.1 o.1 y.1 then y.2.sizeDiff else 0) =
      sumSyms cur (fun _ _ a o y => if w a.1 o.1 y.1 then y.2.size else 0) -
        sumSyms ref (fun _ _ a o y => if w a.1 o.1 y.1 then y.2.size else 0) :=
  sumSyms_diff hc hr (F := fun a o y n => if w a o y then n.sizeDiff else 0) (A := fun a o y n => if w a o y then n.size else 0)
    (B := fun a o y n => if w a o y then n.size else 0) fun a o => diffLaw_symDiff (w a o)

theorem uniLaw_sym {G : Str → Sym → Int} {H : Str × Sym → Int} (h0 : ∀ p : Str × Sym, G p.2.abb (addSym none p.2) = H p)
    (h1 : ∀ (x : Sym) (p : Str × Sym), G p.2.abb (addSym (some x) p.2) = G p.2.abb x + H p) : UniLaw unifySyms G H := by
  intro l u
  rw [unifySyms_eq]
  induction l generalizing u with
  | nil => simp
  | cons p l ih =>
    rw [List.foldl_cons, ih, sumBy_dsetK G, sumBy_cons]
    cases hg : dget u p.2.abb with
    | none => rw [h0]; simp only [orZero]; omega
    | some x => rw [h1]; simp only [orZero]; omega

theorem sumSyms_unify (m : MemMap) {G : Str → Str → Str → Sym → Int} {H : Str → Str → Str × Sym → Int}
    (h : ∀ a o, UniLaw unifySyms (G a o) (H a o)) :
    sumSyms (unify m) (fun _ _ a o y => G a.1 o.1 y.1 y.2) = sumSyms m (fun _ _ a o y => H a.2.abb o.2.abb y) :=
  sumArchs_unify m (G := fun _ _ a n => sumBy (fun o : Str × Obj => sumBy (fun y : Str × Sym => G a o.1 y.1 y.2) o.2.kids) n.kids)
    fun _ _ => uniLaw_kids (uK := unifyObjs) (G := fun a o n => sumBy (fun y : Str × Sym => G a o y.1 y.2) n.kids)
      fun a => uniLaw_kids (uK := unifySyms) (G := G a) (H := H a) (h a)

theorem sumSyms_unify_size (m : MemMap) (w : Str → Str → Str → Bool) :
    sumSyms (unify m) (fun _ _ a o y => if w a.1 o.1 y.1 then y.2.size else 0) =
      sumSyms m (fun _ _ a o y => if w a.2.abb o.2.abb y.2.abb then y.2.size else 0) := by
  refine sumSyms_unify m (G := fun a o y n => if w a o y then n.size else 0)
    (H := fun a o y => if w a o y.2.abb then y.2.size else 0) fun a o => uniLaw_sym ?_ ?_
  · intro p; rfl
  · intro x p; by_cases h : w a o p.2.abb <;> simp [addSym, h]

theorem sumSyms_unify_diff (m : MemMap) (w : Str → Str → Str → Bool) :
    sumSyms (unify m) (fun _ _ a o y => if w a.1 o.1 y.1 then y.2.sizeDiff else 0) =
      sumSyms m (fun _ _ a o y => if w a.2.abb o.2.abb y.2.abb then y.2.sizeDiff else 0) := by
  refine sumSyms_unify m (G := fun a o y n => if w a o y then n.sizeDiff else 0)
    (H := fun a o y => if w a o y.2.abb then y.2.sizeDiff else 0) fun a o => uniLaw_sym ?_ ?_
  · intro p; rfl
  · intro x p; by_cases h : w a o p.2.abb <;> simp [addSym, h]

end EspSize
