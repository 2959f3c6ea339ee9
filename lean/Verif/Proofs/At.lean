import Verif.Spec.Dwarf
import Verif.Props.ElfFile
/-! # Reading encoded data at an offset -/
namespace EspSize

theorem At.left {d a b : Bytes} {off : Nat} (h : At d off (a ++ b)) : At d off a := by
  obtain ⟨pre, post, h1, h2⟩ := h
  exact ⟨pre, b ++ post, by simp [h1], h2⟩

theorem At.right {d a b : Bytes} {off : Nat} (h : At d off (a ++ b)) : At d (off + a.length) b := by
  obtain ⟨pre, post, h1, h2⟩ := h
  exact ⟨pre ++ a, post, by simp [h1], by simp [h2]⟩

theorem At.append {d a b : Bytes} {off : Nat} (h1 : At d off a) (h2 : At d (off + a.length) b) : At d off (a ++ b) := by
  obtain ⟨p1, q1, e1, l1⟩ := h1
  obtain ⟨p2, q2, e2, l2⟩ := h2
  have : p2 = p1 ++ a := by
    have h : (p1 ++ a ++ q1).take (off + a.length) = (p2 ++ b ++ q2).take (off + a.length) := by rw [← e1, ← e2]
    rw [List.take_append_of_le_length (by simp [l1]), List.take_of_length_le (by simp [l1]), List.append_assoc,
      List.take_append_of_le_length (by omega), List.take_of_length_le (by omega)] at h
    exact h.symm
  exact ⟨p1, q2, by rw [e2, this]; simp, l1⟩

theorem At.le {d a : Bytes} {off : Nat} (h : At d off a) : off + a.length ≤ d.length := by
  obtain ⟨pre, post, h1, h2⟩ := h
  rw [h1]; simp; omega

theorem At.self (d : Bytes) : At d 0 d := ⟨[], [], by simp, rfl⟩

theorem At.slice {d a : Bytes} {off : Nat} (h : At d off a) : slice d off a.length = a := by
  obtain ⟨pre, post, h1, h2⟩ := h
  rw [h1, ← h2]; exact slice_append pre a post

theorem At.getBytes {d a : Bytes} {off : Nat} (h : At d off a) : getBytes a.length d off = (a, off + a.length) := by
  simp only [EspSize.getBytes, h.slice]

theorem At.getUint {o : Order} {d : Bytes} {n v off : Nat} (h : At d off (intBytes o n v)) (hv : v < 256 ^ n) : getUint o d n off = (v, off + n) := by
  obtain ⟨pre, post, h1, h2⟩ := h
  rw [h1, ← h2]; exact C47_uint o n v pre post hv

theorem At.uleb {d bs : Bytes} {n off : Nat} (h : At d off bs) (hu : Uleb n bs) : getUleb128 d off = .ok (n, off + bs.length) := by
  obtain ⟨pre, post, h1, h2⟩ := h
  rw [h1, ← h2]; exact C45_uleb_decode n bs pre post hu

theorem At.string {d s : Bytes} {off : Nat} (h : At d off (s ++ [0])) (hs : ∀ b ∈ s, b ≠ 0) : getString d off = .ok (s, off + (s ++ [0]).length) := by
  obtain ⟨pre, post, h1, h2⟩ := h
  have := (C48_lookup pre s post hs).2
  rw [h1, ← h2]
  simp only [List.length_append, List.length_cons, List.length_nil] at this ⊢
  rw [show pre ++ (s ++ [0]) ++ post = pre ++ s ++ 0 :: post by simp, this]
  rfl

theorem At.sleb {d bs : Bytes} {z : Int} {off : Nat} (h : At d off bs) (hs : Sleb z bs) :
    ∃ v, getSleb128 d off = .ok (v, off + bs.length) ∧ SlebRead z bs.length v := by
  obtain ⟨n, hu, hz⟩ := hs.uleb
  have h1 := h.uleb hu
  have hle := h.le
  have hp := hu.length_pos
  have h2 : ∃ m, byteBefore d off = .ok m := by
    cases off with
    | zero =>
      unfold byteBefore
      cases hl : d.getLast? with
      | none => rw [List.getLast?_eq_none_iff] at hl; subst hl; simp only [List.length_nil] at hle; omega
      | some b => exact ⟨_, rfl⟩
    | succ i =>
      simp only [byteBefore, byteAt]
      rw [List.getElem?_eq_getElem (by omega)]
      exact ⟨_, rfl⟩
  obtain ⟨m, h2⟩ := h2
  unfold getSleb128
  simp only [bind, Except.bind, h1, h2]
  have hk : off + bs.length - off = bs.length := by omega
  simp only [hk]
  unfold SlebRead
  split
  · refine ⟨_, rfl, ?_⟩
    rcases hz with hz | hz
    · exact .inl hz.2.symm
    · exact .inr (.inl ⟨hz.1, by omega⟩)
  · refine ⟨_, rfl, ?_⟩
    rcases hz with hz | hz
    · exact .inr (.inr ⟨hz.1, by omega⟩)
    · exact .inl hz.2.symm

end EspSize
