import Verif.Py.Sort
import Verif.Spec.Sort
/-! # `sortedBy` is a stable sort -/
namespace EspSize
variable {α β : Type}

theorem insertBy_perm (b : α → α → Bool) (x : α) (l : List α) : (insertBy b x l).Perm (x :: l) := by
  induction l with
  | nil => exact List.Perm.refl _
  | cons y t ih =>
    simp only [insertBy]
    split
    · exact List.Perm.refl _
    · exact (List.Perm.cons y ih).trans (List.Perm.swap x y t)

theorem isortBy_perm (b : α → α → Bool) (l : List α) : (isortBy b l).Perm l := by
  induction l with
  | nil => exact List.Perm.refl _
  | cons x t ih => exact (insertBy_perm b x _).trans (List.Perm.cons x ih)

theorem insertBy_sorted {b : α → α → Bool} (htot : ∀ x y, b x y = true ∨ b y x = true)
    (htr : ∀ x y z, b x y = true → b y z = true → b x z = true) (x : α) (l : List α)
    (h : l.Pairwise fun x y => b x y = true) : (insertBy b x l).Pairwise fun x y => b x y = true := by
  induction l with
  | nil => simp [insertBy]
  | cons y t ih =>
    simp only [insertBy]
    have hy := List.pairwise_cons.mp h
    split
    · rename_i hxy
      refine List.pairwise_cons.mpr ⟨?_, h⟩
      intro z hz
      rcases List.mem_cons.mp hz with rfl | hz
      · exact hxy
      · exact htr _ _ _ hxy (hy.1 z hz)
    · rename_i hxy
      refine List.pairwise_cons.mpr ⟨?_, ih hy.2⟩
      intro z hz
      rcases List.mem_cons.mp ((insertBy_perm b x t).mem_iff.mp hz) with rfl | hz
      · rcases htot z y with h1 | h1
        · exact absurd h1 hxy
        · exact h1
      · exact hy.1 z hz

theorem isortBy_sorted {b : α → α → Bool} (htot : ∀ x y, b x y = true ∨ b y x = true)
    (htr : ∀ x y z, b x y = true → b y z = true → b x z = true) (l : List α) :
    (isortBy b l).Pairwise fun x y => b x y = true := by
  induction l with
  | nil => simp [isortBy]
  | cons x t ih => exact insertBy_sorted htot htr x _ ih

theorem insertBy_filter {b : α → α → Bool} (p : α → Bool)
    (hp : ∀ x y, p x = true → p y = true → b x y = true) (x : α) (l : List α) :
    (insertBy b x l).filter p = (x :: l).filter p := by
  induction l with
  | nil => rfl
  | cons y t ih =>
    simp only [insertBy]
    split
    · rfl
    · rename_i hxy
      rw [List.filter_cons, ih]
      by_cases h1 : p x = true <;> by_cases h2 : p y = true
      · exact absurd (hp x y h1 h2) hxy
      all_goals simp [h1, h2]

theorem isortBy_filter {b : α → α → Bool} (p : α → Bool)
    (hp : ∀ x y, p x = true → p y = true → b x y = true) (l : List α) :
    (isortBy b l).filter p = l.filter p := by
  induction l with
  | nil => rfl
  | cons x t ih =>
    simp only [isortBy]
    rw [insertBy_filter p hp, List.filter_cons, List.filter_cons, ih]

theorem sortedBy_stable (key : α → Int) (rev : Bool) (l : List α) :
    StableSort key rev l (sortedBy key rev l) where
  perm := isortBy_perm _ _
  sorted := by
    have := isortBy_sorted (b := fun x y => if rev then decide (key y ≤ key x) else decide (key x ≤ key y))
      (by intro x y; cases rev <;> simp <;> omega)
      (by intro x y z; cases rev <;> simp <;> omega) l
    unfold sortedBy
    cases rev <;> simpa using this
  stable := by
    intro k
    apply isortBy_filter
    intro x y hx hy
    simp only [decide_eq_true_eq] at hx hy
    cases rev <;> simp [hx, hy]

theorem all2_map (R : α → β → Prop) (f : α → β) (l : List α) (h : ∀ x ∈ l, R x (f x)) :
    All2 R l (l.map f) := by
  induction l with
  | nil => trivial
  | cons x t ih => exact ⟨h x (by simp), ih fun y hy => h y (by simp [hy])⟩

end EspSize
