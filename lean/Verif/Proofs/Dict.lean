import Verif.Py.Dict
/-! # Lemmas about dictionaries -/
set_option linter.unusedSectionVars false
namespace EspSize

section
variable {κ α β : Type} [DecidableEq κ]

@[simp] theorem dget_nil (k : κ) : dget ([] : Dict κ α) k = none := rfl

theorem dget_cons (p : κ × α) (t : Dict κ α) (k : κ) :
    dget (p :: t) k = if p.1 = k then some p.2 else dget t k := rfl

@[simp] theorem dkeys_nil : dkeys ([] : Dict κ α) = [] := rfl
@[simp] theorem dkeys_cons (p : κ × α) (t : Dict κ α) : dkeys (p :: t) = p.1 :: dkeys t := rfl
@[simp] theorem dkeys_append (a b : Dict κ α) : dkeys (a ++ b) = dkeys a ++ dkeys b := by
  simp [dkeys]

theorem dget_eq_none {d : Dict κ α} {k : κ} : dget d k = none ↔ k ∉ dkeys d := by
  induction d with
  | nil => simp
  | cons p t ih =>
    simp only [dget_cons, dkeys_cons, List.mem_cons, not_or]
    split
    · rename_i h; simp [h]
    · rename_i h; simp [ih, Ne.symm h]

theorem dget_isSome {d : Dict κ α} {k : κ} : (dget d k).isSome = true ↔ k ∈ dkeys d := by
  rw [Option.isSome_iff_ne_none, ne_eq, dget_eq_none]; simp

theorem dhas_iff {d : Dict κ α} {k : κ} : dhas d k = true ↔ k ∈ dkeys d := dget_isSome

theorem mem_of_dget {d : Dict κ α} {k : κ} {v : α} (h : dget d k = some v) : (k, v) ∈ d := by
  induction d with
  | nil => simp at h
  | cons p t ih =>
    rw [dget_cons] at h
    split at h
    · rename_i hk; cases h; cases hk; simp
    · exact List.mem_cons_of_mem _ (ih h)

theorem dget_of_mem {d : Dict κ α} (hd : KeysNodup d) {k : κ} {v : α} (h : (k, v) ∈ d) :
    dget d k = some v := by
  induction d with
  | nil => simp at h
  | cons p t ih =>
    have hn : p.1 ∉ dkeys t ∧ KeysNodup t := by
      simpa [KeysNodup] using hd
    rw [dget_cons]
    rcases List.mem_cons.mp h with h | h
    · simp [← h]
    · have : p.1 ≠ k := by
        intro e; apply hn.1; rw [e]
        exact List.mem_map_of_mem (f := (·.1)) h
      simp [this, ih hn.2 h]

theorem dget_iff_mem {d : Dict κ α} (hd : KeysNodup d) {k : κ} {v : α} :
    dget d k = some v ↔ (k, v) ∈ d := ⟨mem_of_dget, dget_of_mem hd⟩

theorem KeysNodup.cons_iff {p : κ × α} {t : Dict κ α} :
    KeysNodup (p :: t) ↔ p.1 ∉ dkeys t ∧ KeysNodup t := by simp [KeysNodup]

theorem KeysNodup.nil : KeysNodup ([] : Dict κ α) := List.nodup_nil

theorem dget_append (a b : Dict κ α) (k : κ) :
    dget (a ++ b) k = (dget a k).or (dget b k) := by
  induction a with
  | nil => simp
  | cons p t ih =>
    simp only [List.cons_append, dget_cons]
    split <;> simp [ih]

theorem dget_dset (d : Dict κ α) (k : κ) (v : α) (k' : κ) :
    dget (dset d k v) k' = if k = k' then some v else dget d k' := by
  induction d with
  | nil => simp [dset, dget_cons]
  | cons p t ih =>
    simp only [dset]
    split
    · rename_i h; simp only [dget_cons]; split <;> simp_all
    · rename_i h
      simp only [dget_cons, ih]
      by_cases h1 : p.1 = k'
      · have : k ≠ k' := by intro e; exact h (h1.trans e.symm)
        simp [h1, this]
      · simp [h1]

@[simp] theorem dget_dset_self (d : Dict κ α) (k : κ) (v : α) : dget (dset d k v) k = some v := by
  simp [dget_dset]

theorem dget_dset_ne {d : Dict κ α} {k k' : κ} {v : α} (h : k ≠ k') :
    dget (dset d k v) k' = dget d k' := by simp [dget_dset, h]

theorem dset_of_not_mem {d : Dict κ α} {k : κ} {v : α} (h : k ∉ dkeys d) :
    dset d k v = d ++ [(k, v)] := by
  induction d with
  | nil => rfl
  | cons p t ih =>
    simp only [dkeys_cons, List.mem_cons, not_or] at h
    simp [dset, Ne.symm h.1, ih h.2]

theorem dkeys_dset_of_mem {d : Dict κ α} {k : κ} {v : α} (h : k ∈ dkeys d) :
    dkeys (dset d k v) = dkeys d := by
  induction d with
  | nil => simp at h
  | cons p t ih =>
    simp only [dset]
    split
    · rename_i e; simp [e]
    · rename_i e
      have : k ∈ dkeys t := by
        rcases List.mem_cons.mp h with h | h
        · exact absurd h.symm e
        · exact h
      simp [ih this]

theorem mem_dkeys_dset {d : Dict κ α} {k : κ} {v : α} {x : κ} :
    x ∈ dkeys (dset d k v) ↔ x = k ∨ x ∈ dkeys d := by
  rw [← dget_isSome, dget_dset]
  split
  · rename_i h; simp [h]
  · rename_i h; rw [dget_isSome]; simp [Ne.symm h]

theorem KeysNodup.dset {d : Dict κ α} (h : KeysNodup d) (k : κ) (v : α) :
    KeysNodup (dset d k v) := by
  by_cases hk : k ∈ dkeys d
  · unfold KeysNodup; rw [dkeys_dset_of_mem hk]; exact h
  · rw [dset_of_not_mem hk]
    unfold KeysNodup
    rw [dkeys_append, List.nodup_append]
    refine ⟨h, by simp, ?_⟩
    intro a ha b hb
    simp at hb
    subst hb; intro e; subst e; exact hk ha

/-- Replacing the value of a present key, at the list level. -/
theorem dset_eq_map {d : Dict κ α} (hd : KeysNodup d) {k : κ} {v : α} (h : k ∈ dkeys d) :
    dset d k v = d.map fun p => if p.1 = k then (k, v) else p := by
  induction d with
  | nil => simp at h
  | cons p t ih =>
    have hn := KeysNodup.cons_iff.mp hd
    simp only [dset]
    by_cases e : p.1 = k
    · simp only [e, if_true, List.map_cons, List.cons.injEq, true_and]
      have : ∀ q ∈ t, (if q.1 = k then (k, v) else q) = q := by
        intro q hq
        have : q.1 ≠ k := by
          intro e'; apply hn.1; rw [e, ← e']
          exact List.mem_map_of_mem (f := (·.1)) hq
        simp [this]
      have h2 : t.map (fun q => if q.1 = k then (k, v) else q) = t.map id :=
        List.map_congr_left this
      rw [h2]; simp
    · have ht : k ∈ dkeys t := by
        rcases List.mem_cons.mp h with h | h
        · exact absurd h.symm e
        · exact h
      simp [e, ih hn.2 ht]

/-! ### `dmap`, `dfilter` -/

@[simp] theorem dkeys_dmap (f : κ → α → β) (d : Dict κ α) : dkeys (dmap f d) = dkeys d := by
  simp [dkeys, dmap, Function.comp_def]

theorem dget_dmap (f : κ → α → β) (d : Dict κ α) (k : κ) :
    dget (dmap f d) k = (dget d k).map (f k) := by
  induction d with
  | nil => rfl
  | cons p t ih =>
    show dget ((p.1, f p.1 p.2) :: dmap f t) k = _
    simp only [dget_cons]
    split
    · rename_i h; simp [h]
    · exact ih

theorem KeysNodup.dmap {d : Dict κ α} (h : KeysNodup d) (f : κ → α → β) :
    KeysNodup (dmap f d) := by unfold KeysNodup; rw [dkeys_dmap]; exact h

theorem dkeys_dfilter_subset {d : Dict κ α} {p : κ → α → Bool} {k : κ}
    (h : k ∈ dkeys (dfilter p d)) : k ∈ dkeys d := by
  simp only [dkeys, dfilter, List.mem_map, List.mem_filter] at *
  obtain ⟨a, ⟨ha, _⟩, rfl⟩ := h
  exact ⟨a, ha, rfl⟩

theorem KeysNodup.dfilter {d : Dict κ α} (h : KeysNodup d) (p : κ → α → Bool) :
    KeysNodup (dfilter p d) := by
  unfold KeysNodup dkeys EspSize.dfilter
  exact List.Nodup.sublist (List.Sublist.map _ (List.filter_sublist)) h

theorem dget_dfilter {d : Dict κ α} (hd : KeysNodup d) (p : κ → α → Bool) (k : κ) :
    dget (dfilter p d) k = (dget d k).filter (p k) := by
  induction d with
  | nil => rfl
  | cons q t ih =>
    have hn := KeysNodup.cons_iff.mp hd
    simp only [dfilter, List.filter_cons]
    have ih' := ih hn.2
    unfold dfilter at ih'
    by_cases e : q.1 = k
    · have hk : dget t k = none := dget_eq_none.mpr (e ▸ hn.1)
      subst e
      split
      · rename_i h; simp [dget_cons, Option.filter, h]
      · rename_i h; rw [ih', hk]; simp [dget_cons, Option.filter, h]
    · split
      · simp [dget_cons, e, ih']
      · simp [dget_cons, e, ih']

/-! ### `dmapM` -/

theorem dmapM_ok {ε : Type} {f : κ → α → Except ε β} {g : κ → α → β} {d : Dict κ α}
    (h : ∀ p ∈ d, f p.1 p.2 = .ok (g p.1 p.2)) : dmapM f d = .ok (dmap g d) := by
  induction d with
  | nil => rfl
  | cons p t ih =>
    obtain ⟨k, v⟩ := p
    have h1 := h (k, v) (by simp)
    have h2 := ih fun q hq => h q (List.mem_cons_of_mem _ hq)
    simp only at h1
    simp only [dmapM, h1, h2]
    rfl

end

/-! ### Sums -/

section
variable {α β : Type}

@[simp] theorem sumBy_nil (f : α → Int) : sumBy f [] = 0 := rfl
@[simp] theorem sumBy_cons (f : α → Int) (x : α) (t : List α) :
    sumBy f (x :: t) = f x + sumBy f t := rfl

@[simp] theorem sumBy_append (f : α → Int) (a b : List α) :
    sumBy f (a ++ b) = sumBy f a + sumBy f b := by
  induction a with
  | nil => simp
  | cons x t ih => simp [ih]; omega

theorem sumBy_congr {f g : α → Int} {l : List α} (h : ∀ x ∈ l, f x = g x) :
    sumBy f l = sumBy g l := by
  induction l with
  | nil => rfl
  | cons x t ih =>
    simp [h x (by simp), ih fun y hy => h y (List.mem_cons_of_mem _ hy)]

theorem sumBy_map (f : β → Int) (g : α → β) (l : List α) :
    sumBy f (l.map g) = sumBy (fun x => f (g x)) l := by
  induction l with
  | nil => rfl
  | cons x t ih => simp [ih]

theorem sumBy_add (f g : α → Int) (l : List α) :
    sumBy (fun x => f x + g x) l = sumBy f l + sumBy g l := by
  induction l with
  | nil => rfl
  | cons x t ih => simp [ih]; omega

theorem sumBy_sub (f g : α → Int) (l : List α) :
    sumBy (fun x => f x - g x) l = sumBy f l - sumBy g l := by
  induction l with
  | nil => rfl
  | cons x t ih => simp [ih]; omega

theorem sumBy_neg (f : α → Int) (l : List α) :
    sumBy (fun x => - f x) l = - sumBy f l := by
  induction l with
  | nil => rfl
  | cons x t ih => simp [ih]; omega

theorem sumBy_zero {f : α → Int} {l : List α} (h : ∀ x ∈ l, f x = 0) : sumBy f l = 0 := by
  induction l with
  | nil => rfl
  | cons x t ih =>
    simp [h x (by simp), ih fun y hy => h y (List.mem_cons_of_mem _ hy)]

theorem sumBy_filter (f : α → Int) (p : α → Bool) (l : List α) :
    sumBy f (l.filter p) = sumBy (fun x => if p x then f x else 0) l := by
  induction l with
  | nil => rfl
  | cons x t ih =>
    simp only [List.filter_cons, sumBy_cons]
    split <;> simp [ih]

theorem sumBy_nonneg {f : α → Int} {l : List α} (h : ∀ x ∈ l, 0 ≤ f x) : 0 ≤ sumBy f l := by
  induction l with
  | nil => simp
  | cons x t ih =>
    have := h x (by simp)
    have := ih fun y hy => h y (List.mem_cons_of_mem _ hy)
    simp; omega

theorem sumBy_perm {f : α → Int} {a b : List α} (h : a.Perm b) : sumBy f a = sumBy f b := by
  induction h with
  | nil => rfl
  | cons x _ ih => simp [ih]
  | swap x y l => simp; omega
  | trans _ _ h1 h2 => exact h1.trans h2

theorem sumBy_flatMap (f : β → Int) (g : α → List β) (l : List α) :
    sumBy f (l.flatMap g) = sumBy (fun x => sumBy f (g x)) l := by
  induction l with
  | nil => rfl
  | cons x t ih => simp [ih]

theorem sumBy_le {f g : α → Int} {l : List α} (h : ∀ x ∈ l, f x ≤ g x) :
    sumBy f l ≤ sumBy g l := by
  induction l with
  | nil => simp
  | cons x t ih =>
    have := h x (by simp)
    have := ih fun y hy => h y (List.mem_cons_of_mem _ hy)
    simp; omega

end

end EspSize
