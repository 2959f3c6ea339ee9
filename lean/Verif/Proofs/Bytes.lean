import Verif.Spec.Elf
/-! # Lemmas on byte strings -/
namespace EspSize

theorem slice_append (pre bs post : Bytes) : slice (pre ++ bs ++ post) pre.length bs.length = bs := by
  simp [slice]

theorem slice_append' (pre bs post : Bytes) (off n : Nat) (ho : off = pre.length) (hn : n = bs.length) :
    slice (pre ++ (bs ++ post)) off n = bs := by
  subst ho hn; simp [slice]

theorem drop_pre (pre bs : Bytes) : (pre ++ bs).drop pre.length = bs := by simp

@[simp] theorem length_leBytes (n v : Nat) : (leBytes n v).length = n := by
  induction n generalizing v with
  | zero => rfl
  | succ n ih => simp [leBytes, ih]

@[simp] theorem length_intBytes (o : Order) (n v : Nat) : (intBytes o n v).length = n := by
  cases o <;> simp [intBytes]

theorem fromLE_leBytes (n v : Nat) (h : v < 256 ^ n) : fromLE (leBytes n v) = v := by
  induction n generalizing v with
  | zero => simp at h; simp [leBytes, fromLE, h]
  | succ n ih =>
    have h2 : v / 256 < 256 ^ n := by
      rw [Nat.pow_succ] at h
      exact Nat.div_lt_of_lt_mul (by rw [Nat.mul_comm]; exact h)
    simp only [leBytes, fromLE, ih _ h2, UInt8.toNat_ofNat']
    omega

theorem fromBytes_intBytes (o : Order) (n v : Nat) (h : v < 256 ^ n) : fromBytes o (intBytes o n v) = v := by
  cases o
  · exact fromLE_leBytes n v h
  · simp only [fromBytes, intBytes, List.reverse_reverse]; exact fromLE_leBytes n v h

theorem fromLE_lt (b : Bytes) : fromLE b < 256 ^ b.length := by
  induction b with
  | nil => simp [fromLE]
  | cons x t ih =>
    have := x.toNat_lt
    simp only [fromLE, List.length_cons, Nat.pow_succ]
    omega

theorem fromBytes_lt (o : Order) (b : Bytes) : fromBytes o b < 256 ^ b.length := by
  cases o
  · exact fromLE_lt b
  · have := fromLE_lt b.reverse; simpa [fromBytes] using this

/-! ### LEB128 -/

theorem and_7F (n : Nat) : n &&& 0x7F = n % 128 := Nat.and_two_pow_sub_one_eq_mod n 7

theorem and_80_lt {n : Nat} (h : n < 256) : (n &&& 0x80 = 0) ↔ n < 128 := by
  have : ∀ n, n < 256 → ((n &&& 0x80 = 0) ↔ n < 128) := by decide +kernel
  exact this n h

theorem and_40_lt {n : Nat} (h : n < 128) : (n &&& 0x40 = 0) ↔ n < 64 := by
  have : ∀ n, n < 128 → ((n &&& 0x40 = 0) ↔ n < 64) := by decide +kernel
  exact this n h

theorem or_shift (res x k : Nat) (h : res < 2 ^ k) : res ||| (x <<< k) = res + x * 2 ^ k := by
  rw [Nat.or_comm, ← Nat.shiftLeft_add_eq_or_of_lt h, Nat.shiftLeft_eq, Nat.add_comm]

theorem pow_7_succ (idx : Nat) : 2 ^ ((idx + 1) * 7) = 128 * 2 ^ (idx * 7) := by
  rw [Nat.add_mul, Nat.pow_add]; omega

theorem ulebLoop_enc {n : Nat} {bs : Bytes} (h : Uleb n bs) (post : Bytes) (res idx : Nat) (hr : res < 2 ^ (idx * 7)) :
    ulebLoop (bs ++ post) res idx = .ok (res + n * 2 ^ (idx * 7), idx + bs.length) := by
  induction h generalizing res idx with
  | last hb =>
    rename_i b
    simp only [List.cons_append, List.nil_append, ulebLoop, and_7F, (and_80_lt b.toNat_lt).mpr hb, if_true, Nat.mod_eq_of_lt hb,
      or_shift _ _ _ hr, List.length_cons, List.length_nil]
  | more hb h ih =>
    rename_i b n bs
    have h1 := b.toNat_lt
    have h2 : ¬ (b.toNat &&& 0x80 = 0) := by rw [and_80_lt h1]; omega
    have h3 : b.toNat % 128 = b.toNat - 128 := by omega
    have hlt : res + (b.toNat - 128) * 2 ^ (idx * 7) < 2 ^ ((idx + 1) * 7) := by
      rw [pow_7_succ]
      have : (b.toNat - 128) * 2 ^ (idx * 7) ≤ 127 * 2 ^ (idx * 7) := Nat.mul_le_mul_right _ (by omega)
      omega
    simp only [List.cons_append, ulebLoop, and_7F, h2, if_false, h3, or_shift _ _ _ hr]
    rw [ih _ _ hlt, pow_7_succ]
    congr 1
    refine Prod.ext ?_ (by simp only [List.length_cons]; omega)
    simp only
    rw [Nat.add_mul, Nat.add_assoc]
    congr 2
    rw [← Nat.mul_assoc, Nat.mul_comm n 128]

/-- The loop fails only by running off the end; otherwise it read an encoding. -/
theorem ulebLoop_inv (d : Bytes) (res idx : Nat) (hr : res < 2 ^ (idx * 7)) :
    (ulebLoop d res idx = .error .indexError ∧ ∀ b ∈ d, 128 ≤ b.toNat) ∨
    (∃ n bs post, d = bs ++ post ∧ Uleb n bs ∧ ulebLoop d res idx = .ok (res + n * 2 ^ (idx * 7), idx + bs.length)) := by
  have key : (∀ b ∈ d, 128 ≤ b.toNat) ∨ (∃ n bs post, d = bs ++ post ∧ Uleb n bs) := by
    clear hr
    induction d with
    | nil => exact Or.inl (fun b hb => by cases hb)
    | cons b t ih =>
      by_cases hb : b.toNat < 128
      · exact Or.inr ⟨_, [b], t, rfl, .last hb⟩
      · have hb' : 128 ≤ b.toNat := by omega
        rcases ih with h | ⟨n, bs, post, h1, h2⟩
        · left
          intro x hx
          rcases List.mem_cons.mp hx with rfl | hx
          · exact hb'
          · exact h x hx
        · exact Or.inr ⟨_, b :: bs, post, by rw [h1]; rfl, .more hb' h2⟩
  rcases key with h | ⟨n, bs, post, h1, h2⟩
  · left
    refine ⟨?_, h⟩
    clear hr
    induction d generalizing res idx with
    | nil => rfl
    | cons b t ih =>
      have h2 : ¬ (b.toNat &&& 0x80 = 0) := by rw [and_80_lt b.toNat_lt]; have := h b (by simp); omega
      simp only [ulebLoop, h2, if_false]
      exact ih _ _ fun x hx => h x (List.mem_cons_of_mem _ hx)
  · right
    refine ⟨n, bs, post, h1, h2, ?_⟩
    rw [h1]
    exact ulebLoop_enc h2 post res idx hr

theorem Uleb.length_pos {n : Nat} {bs : Bytes} (h : Uleb n bs) : 0 < bs.length := by
  cases h <;> simp

theorem Uleb.lt {n : Nat} {bs : Bytes} (h : Uleb n bs) : n < 2 ^ (bs.length * 7) := by
  induction h with
  | last hb => simpa using hb
  | more hb h ih =>
    rename_i b n bs
    have := b.toNat_lt
    simp only [List.length_cons, pow_7_succ]
    omega

/-- A signed encoding, read as an unsigned one. -/
theorem Sleb.uleb {z : Int} {bs : Bytes} (h : Sleb z bs) : ∃ n, Uleb n bs ∧
    ((0 ≤ z ∧ z = n) ∨ (z < 0 ∧ z = (n : Int) - (2 ^ (bs.length * 7) : Nat))) := by
  induction h with
  | pos hb => exact ⟨_, .last (by omega), Or.inl ⟨by omega, rfl⟩⟩
  | neg h1 h2 =>
    rename_i b
    refine ⟨_, .last h2, Or.inr ⟨by omega, ?_⟩⟩
    simp
  | more hb h ih =>
    rename_i b z bs
    obtain ⟨n, hu, hz⟩ := ih
    have hbt := b.toNat_lt
    refine ⟨_, .more hb hu, ?_⟩
    rcases hz with ⟨h1, h2⟩ | ⟨h1, h2⟩
    · left
      omega
    · right
      simp only [List.length_cons, pow_7_succ]
      omega

/-! ### Structures -/

theorem chunks_fields (o : Order) (fs : List (Nat × Nat)) (post : Bytes) :
    chunks (fs.map Prod.fst) (fieldBytes o fs ++ post) = fs.map fun f => intBytes o f.1 f.2 := by
  induction fs with
  | nil => rfl
  | cons f t ih =>
    have hl : (intBytes o f.1 f.2).length = f.1 := length_intBytes _ _ _
    simp only [fieldBytes, List.flatMap_cons, List.map_cons, chunks, List.append_assoc]
    rw [List.take_append_of_le_length (by omega), List.take_of_length_le (by omega), List.drop_append_of_le_length (by omega),
      List.drop_of_length_le (by omega), List.nil_append]
    congr 1

theorem length_fieldBytes (o : Order) (fs : List (Nat × Nat)) : (fieldBytes o fs).length = (fs.map Prod.fst).sum := by
  induction fs with
  | nil => rfl
  | cons f t ih =>
    simp only [fieldBytes, List.flatMap_cons, List.length_append, length_intBytes, List.map_cons, List.sum_cons]
    rw [← ih]; rfl

end EspSize
