import Verif.Model.Unify
import Verif.Spec.Unify
import Verif.Proofs.Dict
import Verif.Proofs.Diff
/-! # Lemmas about `unify` -/
namespace EspSize
variable {α : Type}

theorem sumBy_dset {κ : Type} [DecidableEq κ] (f : α → Int) (d : Dict κ α) (k : κ) (v : α) :
    sumBy (fun p => f p.2) (dset d k v) =
      sumBy (fun p => f p.2) d - orZero f (dget d k) + f v := by
  induction d with
  | nil => simp [dset, sumBy, dget, orZero]
  | cons p t ih =>
    obtain ⟨k', v'⟩ := p
    by_cases h : k' = k
    · simp [dset, dget, sumBy, orZero, h]; omega
    · simp [dset, dget, sumBy, h, ih]; omega

/-! ### Nodes -/

def addNode (uK : Dict Str α → Dict Str α → Dict Str α) (o : Option (Node α)) (n : Node α) : Node α :=
  match o with
  | none => { abb := n.abb, size := n.size, sizeDiff := n.sizeDiff, kids := uK n.kids [] }
  | some x => { x with size := x.size + n.size, sizeDiff := x.sizeDiff + n.sizeDiff,
                       kids := uK n.kids x.kids }

theorem unifyNodes_eq (uK : Dict Str α → Dict Str α → Dict Str α) (l u : Dict Str (Node α)) :
    unifyNodes uK l u = l.foldl (fun u p => dset u p.2.abb (addNode uK (dget u p.2.abb) p.2)) u := by
  unfold unifyNodes
  congr 1
  funext u p
  cases dget u p.2.abb <;> rfl

theorem unifyNodes_append (uK : Dict Str α → Dict Str α → Dict Str α) (a b u : Dict Str (Node α)) :
    unifyNodes uK b (unifyNodes uK a u) = unifyNodes uK (a ++ b) u := by
  simp [unifyNodes_eq, List.foldl_append]

theorem dget_unifyNodes (uK : Dict Str α → Dict Str α → Dict Str α) (l u : Dict Str (Node α)) (k : Str) :
    dget (unifyNodes uK l u) k =
      (named Node.abb k l).foldl (fun o n => some (addNode uK o n)) (dget u k) := by
  rw [unifyNodes_eq]
  induction l generalizing u with
  | nil => rfl
  | cons p l ih =>
    rw [List.foldl_cons, ih, dget_dset]
    by_cases h : p.2.abb = k
    · simp [named, h]
    · simp [named, h]

/-- Appending law of a level's `unify_items`. -/
def AppendLaw (uK : Dict Str α → Dict Str α → Dict Str α) : Prop :=
  (∀ a b u, uK b (uK a u) = uK (a ++ b) u) ∧ ∀ u, uK [] u = u

theorem appendLaw_nodes (uK : Dict Str α → Dict Str α → Dict Str α) : AppendLaw (unifyNodes uK) :=
  ⟨unifyNodes_append uK, fun _ => rfl⟩

def collapse (uK : Dict Str α → Dict Str α → Dict Str α) (k : Str) (g : List (Node α)) :
    Option (Node α) :=
  match g with
  | [] => none
  | _ => some { abb := k, size := sumBy Node.size g, sizeDiff := sumBy Node.sizeDiff g,
                kids := uK (g.flatMap Node.kids) [] }

theorem foldl_addNode_some {uK : Dict Str α → Dict Str α → Dict Str α} (hu : AppendLaw uK)
    (g : List (Node α)) (x : Node α) :
    g.foldl (fun o n => some (addNode uK o n)) (some x) =
      some { abb := x.abb, size := x.size + sumBy Node.size g,
             sizeDiff := x.sizeDiff + sumBy Node.sizeDiff g,
             kids := uK (g.flatMap Node.kids) x.kids } := by
  induction g generalizing x with
  | nil => simp [sumBy, hu.2]
  | cons n g ih =>
    rw [List.foldl_cons, ih]
    simp [addNode, sumBy, hu.1, Int.add_assoc]

theorem dget_unifyNodes_nil {uK : Dict Str α → Dict Str α → Dict Str α} (hu : AppendLaw uK)
    (l : Dict Str (Node α)) (k : Str) :
    dget (unifyNodes uK l []) k = collapse uK k (named Node.abb k l) := by
  rw [dget_unifyNodes]
  simp only [dget]
  have hk : ∀ n ∈ named Node.abb k l, n.abb = k := by
    intro n hn
    simp only [named, List.mem_map, List.mem_filter, decide_eq_true_eq] at hn
    obtain ⟨p, hp, rfl⟩ := hn
    exact hp.2
  cases hg : named Node.abb k l with
  | nil => rfl
  | cons n g =>
    rw [hg] at hk
    rw [List.foldl_cons, foldl_addNode_some hu]
    simp [collapse, addNode, sumBy, hu.1, hk n (by simp)]

theorem keysNodup_unifyNodes (uK : Dict Str α → Dict Str α → Dict Str α) (l u : Dict Str (Node α))
    (hu : KeysNodup u) : KeysNodup (unifyNodes uK l u) := by
  rw [unifyNodes_eq]
  induction l generalizing u with
  | nil => exact hu
  | cons p l ih => exact ih _ (hu.dset _ _)

/-! ### Symbols -/

def addSym (o : Option Sym) (n : Sym) : Sym :=
  match o with
  | none => { abb := n.abb, size := n.size, sizeDiff := n.sizeDiff, nullKid := true }
  | some x => { x with size := x.size + n.size, sizeDiff := x.sizeDiff + n.sizeDiff }

theorem unifySyms_eq (l u : Dict Str Sym) :
    unifySyms l u = l.foldl (fun u p => dset u p.2.abb (addSym (dget u p.2.abb) p.2)) u := by
  unfold unifySyms
  congr 1
  funext u p
  cases dget u p.2.abb <;> rfl

theorem appendLaw_syms : AppendLaw unifySyms := by
  constructor
  · intro a b u; simp [unifySyms_eq, List.foldl_append]
  · intro u; rfl

theorem dget_unifySyms (l u : Dict Str Sym) (k : Str) :
    dget (unifySyms l u) k =
      (named Sym.abb k l).foldl (fun o n => some (addSym o n)) (dget u k) := by
  rw [unifySyms_eq]
  induction l generalizing u with
  | nil => rfl
  | cons p l ih =>
    rw [List.foldl_cons, ih, dget_dset]
    by_cases h : p.2.abb = k
    · simp [named, h]
    · simp [named, h]

def collapseSym (k : Str) (g : List Sym) : Option Sym :=
  match g with
  | [] => none
  | _ => some { abb := k, size := sumBy Sym.size g, sizeDiff := sumBy Sym.sizeDiff g, nullKid := true }

theorem foldl_addSym_some (g : List Sym) (x : Sym) :
    g.foldl (fun o n => some (addSym o n)) (some x) =
      some { x with size := x.size + sumBy Sym.size g,
                    sizeDiff := x.sizeDiff + sumBy Sym.sizeDiff g } := by
  induction g generalizing x with
  | nil => simp [sumBy]
  | cons n g ih =>
    rw [List.foldl_cons, ih]
    simp [addSym, sumBy, Int.add_assoc]

theorem dget_unifySyms_nil (l : Dict Str Sym) (k : Str) :
    dget (unifySyms l []) k = collapseSym k (named Sym.abb k l) := by
  rw [dget_unifySyms]
  simp only [dget]
  have hk : ∀ n ∈ named Sym.abb k l, n.abb = k := by
    intro n hn
    simp only [named, List.mem_map, List.mem_filter, decide_eq_true_eq] at hn
    obtain ⟨p, hp, rfl⟩ := hn
    exact hp.2
  cases hg : named Sym.abb k l with
  | nil => rfl
  | cons n g =>
    rw [hg] at hk
    rw [List.foldl_cons, foldl_addSym_some]
    simp [collapseSym, addSym, sumBy, hk n (by simp)]

theorem keysNodup_unifySyms (l u : Dict Str Sym)
    (hu : KeysNodup u) : KeysNodup (unifySyms l u) := by
  rw [unifySyms_eq]
  induction l generalizing u with
  | nil => exact hu
  | cons p l ih => exact ih _ (hu.dset _ _)

/-! ### Path lookups in the unified map -/

theorem named_flatMap (abb : α → Str) {β : Type} (k : Str) (g : List β) (f : β → Dict Str α) :
    named abb k (g.flatMap f) = g.flatMap fun n => named abb k (f n) := by
  induction g with
  | nil => rfl
  | cons x g ih => simp only [List.flatMap_cons, ← ih]; simp [named]

theorem getType_unify (m : MemMap) (t : Str) :
    getType (unify m) t = (getType m t).map fun x => { x with sections := unifySecs x.sections [] } := by
  unfold getType unify
  rw [dget_dmap]

theorem getSec_unify (m : MemMap) (t s : Str) :
    getSec (unify m) t s = collapse unifyArchs s (chainSecs m t s) := by
  unfold getSec chainSecs
  rw [getType_unify]
  cases getType m t with
  | none => rfl
  | some x =>
    simp only [Option.map_some, Option.bind_some, unifySecs]
    exact dget_unifyNodes_nil (appendLaw_nodes _) _ _

theorem collapse_bind {uK : Dict Str α → Dict Str α → Dict Str α} {β : Type}
    (look : Dict Str α → Option β) (h : look (uK [] []) = none) (k : Str) (g : List (Node α)) :
    ((collapse uK k g).bind fun x => look x.kids) = look (uK (g.flatMap Node.kids) []) := by
  cases g with
  | nil => simp [collapse, h]
  | cons n g => rfl

theorem getArch_unify (m : MemMap) (t s a : Str) :
    getArch (unify m) t s a = collapse unifyObjs a (chainArchs m t s a) := by
  unfold getArch
  rw [getSec_unify, collapse_bind (fun d => dget d a) rfl, unifyArchs,
    dget_unifyNodes_nil (uK := unifyObjs) (appendLaw_nodes _), named_flatMap]
  rfl

theorem getObj_unify (m : MemMap) (t s a o : Str) :
    getObj (unify m) t s a o = collapse unifySyms o (chainObjs m t s a o) := by
  unfold getObj
  rw [getArch_unify, collapse_bind (fun d => dget d o) rfl, unifyObjs,
    dget_unifyNodes_nil appendLaw_syms, named_flatMap]
  rfl

theorem getSym_unify (m : MemMap) (t s a o y : Str) :
    getSym (unify m) t s a o y = collapseSym y (chainSyms m t s a o y) := by
  unfold getSym
  rw [getObj_unify, collapse_bind (fun d => dget d y) rfl, dget_unifySyms_nil, named_flatMap]
  rfl

theorem aggregate_collapse (uK : Dict Str α → Dict Str α → Dict Str α) (k : Str) (g : List (Node α)) :
    Aggregate Node.abb Node.size Node.sizeDiff k g (collapse uK k g) := by
  cases g with
  | nil => constructor <;> simp [collapse, orZero, sumBy]
  | cons n g => constructor <;> simp [collapse, orZero, sumBy]

theorem aggregate_collapseSym (k : Str) (g : List Sym) :
    Aggregate Sym.abb Sym.size Sym.sizeDiff k g (collapseSym k g) := by
  cases g with
  | nil => constructor <;> simp [collapseSym, orZero, sumBy]
  | cons n g => constructor <;> simp [collapseSym, orZero, sumBy]

/-! ### Totals -/

/-- A measure that is additive under merging of nodes. -/
theorem sumBy_unifyNodes {uK : Dict Str α → Dict Str α → Dict Str α} (F : Node α → Int)
    (h0 : ∀ n, F (addNode uK none n) = F n) (h1 : ∀ x n, F (addNode uK (some x) n) = F x + F n)
    (l u : Dict Str (Node α)) :
    sumBy (fun p => F p.2) (unifyNodes uK l u) =
      sumBy (fun p => F p.2) l + sumBy (fun p => F p.2) u := by
  rw [unifyNodes_eq]
  induction l generalizing u with
  | nil => simp [sumBy]
  | cons p l ih =>
    rw [List.foldl_cons, ih, sumBy_dset]
    cases dget u p.2.abb with
    | none => rw [h0]; simp [sumBy, orZero]; omega
    | some x => rw [h1]; simp [sumBy, orZero]; omega

theorem sumBy_unifySyms (F : Sym → Int)
    (h0 : ∀ n, F (addSym none n) = F n) (h1 : ∀ x n, F (addSym (some x) n) = F x + F n)
    (l u : Dict Str Sym) :
    sumBy (fun p => F p.2) (unifySyms l u) =
      sumBy (fun p => F p.2) l + sumBy (fun p => F p.2) u := by
  rw [unifySyms_eq]
  induction l generalizing u with
  | nil => simp [sumBy]
  | cons p l ih =>
    rw [List.foldl_cons, ih, sumBy_dset]
    cases dget u p.2.abb with
    | none => rw [h0]; simp [sumBy, orZero]; omega
    | some x => rw [h1]; simp [sumBy, orZero]; omega

theorem sumBy_unify_kids {uK : Dict Str α → Dict Str α → Dict Str α} (F : α → Int)
    (h : ∀ l u, sumBy (fun p => F p.2) (uK l u) =
      sumBy (fun p => F p.2) l + sumBy (fun p => F p.2) u)
    (l u : Dict Str (Node α)) :
    sumBy (fun p => totKids F p.2) (unifyNodes uK l u) =
      sumBy (fun p => totKids F p.2) l + sumBy (fun p => totKids F p.2) u := by
  apply sumBy_unifyNodes
  · intro n; simp [totKids, addNode, h, sumBy]
  · intro x n; simp [totKids, addNode, h, Int.add_comm]

theorem sumBy_size_unifyNodes {uK : Dict Str α → Dict Str α → Dict Str α} (l u : Dict Str (Node α)) :
    sumBy (fun p => p.2.size) (unifyNodes uK l u) =
      sumBy (fun p => p.2.size) l + sumBy (fun p => p.2.size) u :=
  sumBy_unifyNodes _ (fun _ => rfl) (fun _ _ => rfl) l u

theorem sumBy_sizeDiff_unifyNodes {uK : Dict Str α → Dict Str α → Dict Str α} (l u : Dict Str (Node α)) :
    sumBy (fun p => p.2.sizeDiff) (unifyNodes uK l u) =
      sumBy (fun p => p.2.sizeDiff) l + sumBy (fun p => p.2.sizeDiff) u :=
  sumBy_unifyNodes _ (fun _ => rfl) (fun _ _ => rfl) l u

/-! ### Unified shape and idempotence -/

theorem mem_unifyNodes {uK : Dict Str α → Dict Str α → Dict Str α} (hu : AppendLaw uK)
    {l : Dict Str (Node α)} {p : Str × Node α} (hp : p ∈ unifyNodes uK l []) :
    p.1 = p.2.abb ∧ ∃ l', p.2.kids = uK l' [] := by
  have h := dget_of_mem (keysNodup_unifyNodes uK l [] KeysNodup.nil) (k := p.1) (v := p.2) hp
  rw [dget_unifyNodes_nil hu] at h
  revert h
  cases named Node.abb p.1 l with
  | nil => intro h; cases h
  | cons n g =>
    intro h
    simp only [collapse, Option.some.injEq] at h
    rw [← h]
    exact ⟨rfl, _, rfl⟩

theorem mem_unifySyms {l : Dict Str Sym} {p : Str × Sym} (hp : p ∈ unifySyms l []) :
    p.1 = p.2.abb ∧ p.2.nullKid = true := by
  have h := dget_of_mem (keysNodup_unifySyms l [] KeysNodup.nil) (k := p.1) (v := p.2) hp
  rw [dget_unifySyms_nil] at h
  revert h
  cases named Sym.abb p.1 l with
  | nil => intro h; cases h
  | cons n g =>
    intro h
    simp only [collapseSym, Option.some.injEq] at h
    rw [← h]
    exact ⟨rfl, rfl⟩

theorem unifyNodes_fix {uK : Dict Str α → Dict Str α → Dict Str α} (l u : Dict Str (Node α))
    (hl : KeysNodup (u ++ l)) (h : ∀ p ∈ l, p.1 = p.2.abb ∧ uK p.2.kids [] = p.2.kids) :
    unifyNodes uK l u = u ++ l := by
  rw [unifyNodes_eq]
  induction l generalizing u with
  | nil => simp
  | cons p l ih =>
    rw [List.foldl_cons]
    have hp := h p (by simp)
    have hn : p.2.abb ∉ dkeys u := by
      rw [← hp.1]
      intro hmem
      unfold KeysNodup dkeys at hl
      rw [List.map_append, List.nodup_append] at hl
      exact hl.2.2 _ hmem _ (by simp) rfl
    have h1 : dget u p.2.abb = none := dget_eq_none.mpr hn
    rw [h1, dset_of_not_mem hn]
    have h2 : (p.2.abb, addNode uK none p.2) = p := by
      rcases p with ⟨k, a, s, sd, ks⟩
      simp only at hp
      simp [addNode, hp.1, hp.2]
    rw [h2, ih]
    · simp
    · simpa using hl
    · intro q hq; exact h q (by simp [hq])

theorem unifySyms_fix (l u : Dict Str Sym)
    (hl : KeysNodup (u ++ l)) (h : ∀ p ∈ l, p.1 = p.2.abb ∧ p.2.nullKid = true) :
    unifySyms l u = u ++ l := by
  rw [unifySyms_eq]
  induction l generalizing u with
  | nil => simp
  | cons p l ih =>
    rw [List.foldl_cons]
    have hp := h p (by simp)
    have hn : p.2.abb ∉ dkeys u := by
      rw [← hp.1]
      intro hmem
      unfold KeysNodup dkeys at hl
      rw [List.map_append, List.nodup_append] at hl
      exact hl.2.2 _ hmem _ (by simp) rfl
    have h1 : dget u p.2.abb = none := dget_eq_none.mpr hn
    rw [h1, dset_of_not_mem hn]
    have h2 : (p.2.abb, addSym none p.2) = p := by
      rcases p with ⟨k, a, s, sd, nk⟩
      simp only at hp
      simp [addSym, hp.1, hp.2]
    rw [h2, ih]
    · simp
    · simpa using hl
    · intro q hq; exact h q (by simp [hq])

/-- A level whose `unify_items` is idempotent. -/
def Idem (uK : Dict Str α → Dict Str α → Dict Str α) : Prop := ∀ l, uK (uK l []) [] = uK l []

theorem idem_syms : Idem unifySyms := by
  intro l
  have := unifySyms_fix (unifySyms l []) [] (by simpa using keysNodup_unifySyms l [] KeysNodup.nil)
    (fun p hp => mem_unifySyms hp)
  simpa using this

theorem idem_nodes {uK : Dict Str α → Dict Str α → Dict Str α} (hu : AppendLaw uK) (hi : Idem uK) :
    Idem (unifyNodes uK) := by
  intro l
  have := unifyNodes_fix (uK := uK) (unifyNodes uK l []) []
    (by simpa using keysNodup_unifyNodes uK l [] KeysNodup.nil) (by
      intro p hp
      obtain ⟨h1, l', h2⟩ := mem_unifyNodes hu hp
      refine ⟨h1, ?_⟩
      rw [h2, hi])
  simpa using this

end EspSize
