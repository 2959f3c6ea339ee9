import Verif.Py.Float
/-! # Rounding to 53 bits: error and monotonicity -/
namespace EspSize

/-! ## Nearest integers -/

theorem floor_bounds (q : Rat) : (q.floor : Rat) ≤ q ∧ q < (q.floor : Rat) + 1 := by
  have h1 := Rat.floor_le q
  have h2 := Rat.lt_floor_add_one q
  rw [Rat.intCast_add] at h2
  exact ⟨h1, h2⟩

theorem roundEven_err (q : Rat) : q - 1 / 2 ≤ (roundEven q : Rat) ∧ (roundEven q : Rat) ≤ q + 1 / 2 := by
  obtain ⟨h1, h2⟩ := floor_bounds q
  unfold roundEven
  simp only
  split
  · constructor <;> grind
  · split
    · rw [Rat.intCast_add]; constructor <;> grind
    · split
      · constructor <;> grind
      · rw [Rat.intCast_add]; constructor <;> grind

theorem roundEven_int (n : Int) : roundEven (n : Rat) = n := by
  unfold roundEven
  simp only [Rat.floor_intCast, Rat.sub_self]
  rw [if_pos (by decide +kernel)]

theorem roundEven_mono {a b : Rat} (h : a ≤ b) : roundEven a ≤ roundEven b := by
  have hf := Rat.floor_monotone h
  obtain ⟨h1, h2⟩ := floor_bounds a
  obtain ⟨h3, h4⟩ := floor_bounds b
  by_cases he : a.floor = b.floor
  · unfold roundEven
    simp only [he]
    rw [he] at h1 h2
    repeat' split
    all_goals first | omega | (exfalso; grind)
  · have : a.floor + 1 ≤ b.floor := by omega
    have hl : roundEven a ≤ a.floor + 1 := by unfold roundEven; simp only; repeat' split
                                              all_goals omega
    have hr : b.floor ≤ roundEven b := by unfold roundEven; simp only; repeat' split
                                          all_goals omega
    omega

theorem roundEven_neg (q : Rat) : roundEven (-q) = -roundEven q := by
  obtain ⟨h1, h2⟩ := floor_bounds q
  by_cases hq : (q.floor : Rat) = q
  · have e : -q = ((-q.floor : Int) : Rat) := by rw [Rat.intCast_neg, hq]
    rw [e, roundEven_int, ← hq, roundEven_int, hq]
  · have hf : (-q).floor = -q.floor - 1 := by
      apply Int.le_antisymm
      · have : (-q).floor < -q.floor := by
          rw [Rat.floor_lt_iff, Rat.intCast_neg]
          grind
        omega
      · rw [Rat.le_floor_iff, Rat.intCast_sub, Rat.intCast_neg]
        have : ((1 : Int) : Rat) = 1 := rfl
        grind
    unfold roundEven
    simp only
    rw [hf, Rat.intCast_sub, Rat.intCast_neg]
    have h1' : ((1 : Int) : Rat) = 1 := rfl
    rw [h1']
    repeat' split
    all_goals first | omega | (exfalso; grind)

/-! ## Powers of two -/

theorem p2_pos (e : Int) : 0 < p2 e := Rat.zpow_pos (by decide +kernel)

theorem p2_add (a b : Int) : p2 (a + b) = p2 a * p2 b := Rat.zpow_add (by decide +kernel) a b

theorem p2_zero : p2 0 = 1 := Rat.zpow_zero 2

theorem p2_one : p2 1 = 2 := Rat.zpow_one 2

theorem p2_succ (e : Int) : p2 (e + 1) = 2 * p2 e := by rw [p2_add, p2_one, Rat.mul_comm]

theorem p2_nat (n : Nat) : p2 n = ((2 ^ n : Nat) : Rat) := by
  unfold p2
  rw [Rat.zpow_natCast]
  induction n with
  | zero => simp
  | succ n ih => rw [Rat.pow_succ, ih, Nat.pow_succ, Rat.natCast_mul]; rfl

theorem one_le_p2 (n : Nat) : 1 ≤ p2 n := by
  induction n with
  | zero => rw [show ((0 : Nat) : Int) = 0 from rfl, p2_zero]; exact Rat.le_refl
  | succ n ih => rw [Int.natCast_succ, p2_succ]; grind

theorem p2_mono {a b : Int} (h : a ≤ b) : p2 a ≤ p2 b := by
  obtain ⟨n, rfl⟩ : ∃ n : Nat, b = a + n := ⟨(b - a).toNat, by omega⟩
  rw [p2_add]
  have := Rat.mul_le_mul_of_nonneg_left (one_le_p2 n) (Rat.le_of_lt (p2_pos a))
  rwa [Rat.mul_one] at this

theorem p2_inv (a : Int) : p2 a * p2 (-a) = 1 := by rw [← p2_add, Int.add_right_neg, p2_zero]

/-! ## The exponent -/

theorem den_pos' (q : Rat) : 0 < (q.den : Rat) := Rat.natCast_pos.mpr (Nat.pos_of_ne_zero q.den_nz)

theorem mag_mul_den (q : Rat) : mag q * (q.den : Rat) = (q.num.natAbs : Rat) := by
  have hd := den_pos' q
  have hq : q * (q.den : Rat) = (q.num : Rat) := by
    conv => lhs; arg 1; rw [← Rat.mkRat_self q, Rat.mkRat_eq_div]
    exact Rat.div_mul_cancel (Rat.ne_of_gt hd)
  unfold mag
  split
  · rename_i h
    have hn : q.num < 0 := by
      apply Int.not_le.mp
      intro h0
      exact Rat.not_le.mpr h (Rat.num_nonneg.mp h0)
    rw [Rat.neg_mul, hq, ← Rat.intCast_neg, ← Rat.intCast_natCast]
    congr 1
    omega
  · rename_i h
    have hn : 0 ≤ q.num := Rat.num_nonneg.mpr (Rat.not_lt.mp h)
    rw [hq, ← Rat.intCast_natCast]
    congr 1
    omega

theorem mag_pos {q : Rat} (h : q ≠ 0) : 0 < mag q := by
  unfold mag; split <;> grind

theorem mag_nonneg (q : Rat) : 0 ≤ mag q := by
  unfold mag; split <;> grind

theorem expo_spec {q : Rat} (h : q ≠ 0) : p2 (expo q) ≤ mag q ∧ mag q < 2 * p2 (expo q) := by
  have hd := den_pos' q
  have hm := mag_mul_den q
  have hn0 : q.num.natAbs ≠ 0 := by
    intro h0
    exact h (Rat.num_eq_zero.mp (by omega))
  have n1 : p2 (q.num.natAbs.log2 : Int) ≤ (q.num.natAbs : Rat) := by
    rw [p2_nat]; exact Rat.natCast_le_natCast.mpr (Nat.log2_self_le hn0)
  have n2 : (q.num.natAbs : Rat) < p2 ((q.num.natAbs.log2 : Int) + 1) := by
    rw [← Int.natCast_succ, p2_nat]; exact Rat.natCast_lt_natCast.mpr Nat.lt_log2_self
  have d1 : p2 (q.den.log2 : Int) ≤ (q.den : Rat) := by
    rw [p2_nat]; exact Rat.natCast_le_natCast.mpr (Nat.log2_self_le q.den_nz)
  have d2 : (q.den : Rat) < p2 ((q.den.log2 : Int) + 1) := by
    rw [← Int.natCast_succ, p2_nat]; exact Rat.natCast_lt_natCast.mpr Nat.lt_log2_self
  have k1 : p2 ((q.num.natAbs.log2 : Int) - q.den.log2 - 1) ≤ mag q := by
    apply Rat.le_of_mul_le_mul_right _ hd
    rw [hm]
    have := Rat.mul_le_mul_of_nonneg_left (Rat.le_of_lt d2) (Rat.le_of_lt (p2_pos ((q.num.natAbs.log2 : Int) - q.den.log2 - 1)))
    rw [← p2_add, show (q.num.natAbs.log2 : Int) - q.den.log2 - 1 + ((q.den.log2 : Int) + 1) = q.num.natAbs.log2 by omega] at this
    exact Rat.le_trans this n1
  have k2 : mag q < p2 ((q.num.natAbs.log2 : Int) - q.den.log2 + 1) := by
    apply Rat.lt_of_mul_lt_mul_right _ (Rat.le_of_lt hd)
    rw [hm]
    have := Rat.mul_le_mul_of_nonneg_left d1 (Rat.le_of_lt (p2_pos ((q.num.natAbs.log2 : Int) - q.den.log2 + 1)))
    rw [← p2_add, show (q.num.natAbs.log2 : Int) - q.den.log2 + 1 + q.den.log2 = q.num.natAbs.log2 + 1 by omega] at this
    grind
  unfold expo
  simp only
  split
  · rename_i h1
    exact ⟨h1, by rw [← p2_succ]; exact k2⟩
  · rename_i h1
    refine ⟨k1, ?_⟩
    rw [← p2_succ, Int.sub_add_cancel]
    exact Rat.not_le.mp h1

theorem expo_unique {q : Rat} {e : Int} (h1 : p2 e ≤ mag q) (h2 : mag q < 2 * p2 e) : expo q = e := by
  have hq : q ≠ 0 := by
    intro h0
    subst h0
    have := p2_pos e
    have : mag 0 = 0 := by decide +kernel
    grind
  obtain ⟨g1, g2⟩ := expo_spec hq
  rw [← p2_succ] at h2 g2
  rcases Int.lt_trichotomy (expo q) e with h | h | h
  · have := p2_mono (show expo q + 1 ≤ e by omega)
    grind
  · exact h
  · have := p2_mono (show e + 1 ≤ expo q by omega)
    grind

theorem expo_mono {a b : Rat} (ha : a ≠ 0) (h : mag a ≤ mag b) : expo a ≤ expo b := by
  have hb : b ≠ 0 := by
    intro h0
    subst h0
    have := mag_pos ha
    have : mag 0 = 0 := by decide +kernel
    grind
  obtain ⟨g1, _⟩ := expo_spec ha
  obtain ⟨_, g4⟩ := expo_spec hb
  rw [← p2_succ] at g4
  apply Int.not_lt.mp
  intro hlt
  have := p2_mono (show expo b + 1 ≤ expo a by omega)
  grind

/-! ## Rounding to 53 bits -/

/-- The relative error is at most `2 ** -53`. -/
theorem rnd53_err (q : Rat) : q - mag q * p2 (-53) ≤ rnd53 q ∧ rnd53 q ≤ q + mag q * p2 (-53) := by
  by_cases hq : q = 0
  · subst hq
    decide +kernel
  · unfold rnd53
    rw [if_neg hq]
    obtain ⟨e1, _⟩ := expo_spec hq
    obtain ⟨r1, r2⟩ := roundEven_err (q * p2 (52 - expo q))
    have hp := p2_pos (expo q - 52)
    have hi : q * p2 (52 - expo q) * p2 (expo q - 52) = q := by
      rw [Rat.mul_assoc, ← p2_add, show 52 - expo q + (expo q - 52) = 0 by omega, p2_zero, Rat.mul_one]
    have m1 := Rat.mul_le_mul_of_nonneg_right r1 (Rat.le_of_lt hp)
    have m2 := Rat.mul_le_mul_of_nonneg_right r2 (Rat.le_of_lt hp)
    have hh : (1 / 2 : Rat) * p2 (expo q - 52) = p2 (expo q) * p2 (-53) := by
      rw [← p2_add, show expo q - 52 = (expo q + -53) + 1 by omega, p2_succ]
      grind
    have m3 := Rat.mul_le_mul_of_nonneg_right e1 (Rat.le_of_lt (p2_pos (-53)))
    constructor <;> grind

theorem rnd53_zero : rnd53 0 = 0 := by decide +kernel

theorem mag_neg (q : Rat) : mag (-q) = mag q := by
  unfold mag
  split <;> split <;> grind

theorem expo_neg (q : Rat) : expo (-q) = expo q := by
  by_cases hq : q = 0
  · subst hq; rfl
  · obtain ⟨h1, h2⟩ := expo_spec hq
    rw [← mag_neg] at h1 h2
    exact expo_unique h1 h2

theorem rnd53_neg (q : Rat) : rnd53 (-q) = -rnd53 q := by
  by_cases hq : q = 0
  · subst hq; decide +kernel
  · have : -q ≠ 0 := by grind
    unfold rnd53
    rw [if_neg hq, if_neg this, expo_neg, Rat.neg_mul, roundEven_neg, Rat.intCast_neg, Rat.neg_mul]

/-- Integers with at most 53 bits, and their products with powers of two, are floats. -/
theorem rnd53_exact (n e : Int) (h : n.natAbs < 2 ^ 53) : rnd53 ((n : Rat) * p2 e) = (n : Rat) * p2 e := by
  by_cases hn : n = 0
  · subst hn; rw [Rat.intCast_zero, Rat.zero_mul, rnd53_zero]
  · have he := p2_pos e
    have hq : (n : Rat) * p2 e ≠ 0 := by
      intro h0
      rcases Rat.mul_eq_zero.mp h0 with h1 | h1
      · exact hn (by exact_mod_cast h1)
      · grind
    obtain ⟨e1, _⟩ := expo_spec hq
    have hb : expo ((n : Rat) * p2 e) ≤ 52 + e := by
      apply Int.not_lt.mp
      intro hlt
      have m := p2_mono (show ((53 : Nat) : Int) + e ≤ expo ((n : Rat) * p2 e) by omega)
      rw [p2_add, p2_nat] at m
      have hm : mag ((n : Rat) * p2 e) = (n.natAbs : Rat) * p2 e := by
        unfold mag
        rcases Int.lt_or_le n 0 with h0 | h0
        · have hc : ((n.natAbs : Nat) : Rat) = -(n : Rat) := by
            rw [← Rat.intCast_natCast, ← Rat.intCast_neg]; congr 1; omega
          have : (n : Rat) < 0 := Rat.intCast_neg_iff.mpr h0
          rw [if_pos ((Rat.mul_neg_iff_of_pos_right he).mpr this), hc, Rat.neg_mul]
        · have hc : ((n.natAbs : Nat) : Rat) = (n : Rat) := by
            rw [← Rat.intCast_natCast]; congr 1; omega
          have : 0 ≤ (n : Rat) := Rat.intCast_nonneg.mpr h0
          rw [if_neg (Rat.not_lt.mpr (Rat.mul_nonneg this (Rat.le_of_lt he))), hc]
      rw [hm] at e1
      have := Rat.mul_lt_mul_of_pos_right (Rat.natCast_lt_natCast.mpr h) he
      grind
    obtain ⟨m, hm⟩ : ∃ m : Nat, 52 - expo ((n : Rat) * p2 e) = -e + m := ⟨(52 - expo ((n : Rat) * p2 e) + e).toNat, by omega⟩
    have hi : (n : Rat) * p2 e * p2 (52 - expo ((n : Rat) * p2 e)) = ((n * (2 ^ m : Nat) : Int) : Rat) := by
      rw [hm, p2_add, p2_nat, Rat.intCast_mul, Rat.intCast_natCast]
      have := p2_inv e
      grind
    have hback : expo ((n : Rat) * p2 e) - 52 = e + -(m : Int) := by omega
    unfold rnd53
    rw [if_neg hq, hi, roundEven_int, Rat.intCast_mul, Rat.intCast_natCast, hback, p2_add, ← p2_nat]
    have := p2_inv (m : Int)
    grind

theorem rnd53_small (n : Int) (h : n.natAbs < 2 ^ 53) : rnd53 (n : Rat) = n := by
  have := rnd53_exact n 0 h
  rwa [p2_zero, Rat.mul_one] at this

/-- Rounding of a positive number stays within the powers of two around it. -/
theorem rnd53_range {q : Rat} (h : 0 < q) : p2 (expo q) ≤ rnd53 q ∧ rnd53 q ≤ p2 (expo q + 1) := by
  have hq : q ≠ 0 := by grind
  have hm : mag q = q := by unfold mag; rw [if_neg (by grind)]
  obtain ⟨e1, e2⟩ := expo_spec hq
  rw [hm] at e1 e2
  have hp := p2_pos (52 - expo q)
  have hr := p2_pos (expo q - 52)
  unfold rnd53
  rw [if_neg hq]
  constructor
  · have h1 : ((2 ^ 52 : Nat) : Rat) ≤ q * p2 (52 - expo q) := by
      have := Rat.mul_le_mul_of_nonneg_right e1 (Rat.le_of_lt hp)
      rwa [← p2_add, show expo q + (52 - expo q) = ((52 : Nat) : Int) by omega, p2_nat] at this
    have h2 := roundEven_mono (a := (((2 ^ 52 : Nat) : Int) : Rat)) (by rw [Rat.intCast_natCast]; exact h1)
    rw [roundEven_int] at h2
    have h3 := Rat.mul_le_mul_of_nonneg_right (Rat.intCast_le_intCast.mpr h2) (Rat.le_of_lt hr)
    rwa [Rat.intCast_natCast, ← p2_nat, ← p2_add, show ((52 : Nat) : Int) + (expo q - 52) = expo q by omega] at h3
  · have h1 : q * p2 (52 - expo q) ≤ ((2 ^ 53 : Nat) : Rat) := by
      have := Rat.mul_le_mul_of_nonneg_right (Rat.le_of_lt e2) (Rat.le_of_lt hp)
      rwa [← p2_succ, ← p2_add, show expo q + 1 + (52 - expo q) = ((53 : Nat) : Int) by omega, p2_nat] at this
    have h2 := roundEven_mono (b := (((2 ^ 53 : Nat) : Int) : Rat)) (by rw [Rat.intCast_natCast]; exact h1)
    rw [roundEven_int] at h2
    have h3 := Rat.mul_le_mul_of_nonneg_right (Rat.intCast_le_intCast.mpr h2) (Rat.le_of_lt hr)
    rwa [Rat.intCast_natCast, ← p2_nat, ← p2_add, show ((53 : Nat) : Int) + (expo q - 52) = expo q + 1 by omega] at h3

theorem rnd53_mono_pos {a b : Rat} (ha : 0 < a) (h : a ≤ b) : rnd53 a ≤ rnd53 b := by
  have hb : 0 < b := by grind
  have ha0 : a ≠ 0 := by grind
  have hb0 : b ≠ 0 := by grind
  have hma : mag a = a := by unfold mag; rw [if_neg (by grind)]
  have hmb : mag b = b := by unfold mag; rw [if_neg (by grind)]
  have he := expo_mono (b := b) ha0 (by rw [hma, hmb]; exact h)
  by_cases hee : expo a = expo b
  · unfold rnd53
    rw [if_neg ha0, if_neg hb0, hee]
    apply Rat.mul_le_mul_of_nonneg_right _ (Rat.le_of_lt (p2_pos _))
    exact Rat.intCast_le_intCast.mpr (roundEven_mono (Rat.mul_le_mul_of_nonneg_right h (Rat.le_of_lt (p2_pos _))))
  · have h1 := (rnd53_range ha).2
    have h2 := (rnd53_range hb).1
    have h3 := p2_mono (show expo a + 1 ≤ expo b by omega)
    grind

theorem rnd53_nonneg {q : Rat} (h : 0 ≤ q) : 0 ≤ rnd53 q := by
  by_cases hq : q = 0
  · subst hq; decide +kernel
  · have := (rnd53_range (q := q) (by grind)).1
    have := p2_pos (expo q)
    grind

/-- Rounding keeps the order. -/
theorem rnd53_mono {a b : Rat} (h : a ≤ b) : rnd53 a ≤ rnd53 b := by
  by_cases ha : 0 < a
  · exact rnd53_mono_pos ha h
  · by_cases hb : b < 0
    · have := rnd53_mono_pos (a := -b) (b := -a) (by grind) (by grind)
      rw [rnd53_neg, rnd53_neg] at this
      grind
    · have h1 := rnd53_nonneg (q := -a) (by grind)
      have h2 := rnd53_nonneg (q := b) (by grind)
      rw [rnd53_neg] at h1
      grind

end EspSize
