import Verif.Spec.Abspath
/-! # Parts of a path -/
namespace EspSize

theorem splitSlash_parts (p : Str) : Parts p (splitSlash p) := by
  induction p with
  | nil => exact .last (by simp)
  | cons c s ih =>
    unfold splitSlash
    by_cases hc : c = '/'
    · rw [if_pos hc, hc]
      exact .more (c := []) (by simp) ih
    · rw [if_neg hc]
      generalize splitSlash s = l at ih
      cases ih with
      | last h =>
        exact .last (by simp only [List.mem_cons, not_or]; exact ⟨fun e => hc e.symm, h⟩)
      | @more a s' cs h h' =>
        exact .more (c := c :: a) (by simp only [List.mem_cons, not_or]; exact ⟨fun e => hc e.symm, h⟩) h'

theorem first_cut {a b a' b' : Str} (h : a ++ '/' :: b = a' ++ '/' :: b') (ha : '/' ∉ a) (ha' : '/' ∉ a') :
    a = a' ∧ b = b' := by
  induction a generalizing a' with
  | nil =>
    cases a' with
    | nil => simpa using h
    | cons x a' =>
      simp only [List.nil_append, List.cons_append, List.cons.injEq] at h
      exact absurd (by rw [← h.1]; simp) ha'
  | cons y a ih =>
    cases a' with
    | nil =>
      simp only [List.nil_append, List.cons_append, List.cons.injEq] at h
      exact absurd (by rw [h.1]; simp) ha
    | cons x a' =>
      simp only [List.cons_append, List.cons.injEq] at h
      obtain ⟨i1, i2⟩ := ih h.2 (fun hm => ha (by simp [hm])) (fun hm => ha' (by simp [hm]))
      exact ⟨by rw [h.1, i1], i2⟩

theorem parts_unique {p : Str} {cs cs' : List Str} (h : Parts p cs) (h' : Parts p cs') : cs = cs' := by
  induction h generalizing cs' with
  | last h =>
    cases h' with
    | last => rfl
    | more h' => exact absurd (by simp) h
  | @more c s cs h hp ih =>
    generalize hq : c ++ '/' :: s = q at h'
    cases h' with
    | last h' => exact absurd (by rw [← hq]; simp) h'
    | more h' hp' =>
      obtain ⟨rfl, rfl⟩ := first_cut hq h h'
      rw [ih hp']

theorem parts_append {a b : Str} {as bs : List Str} (ha : Parts a as) (hb : Parts b bs) :
    Parts (a ++ '/' :: b) (as ++ bs) := by
  induction ha with
  | last h => exact .more h hb
  | more h _ ih =>
    rw [List.append_assoc, List.cons_append]
    exact .more h ih

theorem parts_noSlash {p : Str} {cs : List Str} (h : Parts p cs) : ∀ c ∈ cs, '/' ∉ c := by
  induction h with
  | last h => simpa using h
  | more h _ ih => simp only [List.forall_mem_cons]; exact ⟨h, ih⟩

end EspSize
