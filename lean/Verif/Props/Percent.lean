import Verif.Spec.Percent
import Verif.Proofs.Round
import Verif.Props.MapRun
import Verif.Props.TreeFmt
import Verif.Proofs.Fmt
/-! # C91: percentages -/
namespace EspSize

/-- The floats of Python. -/
def pyFloat : FloatOps := ⟨rnd53, round2, show2, plus2, pad2⟩

/-! ### The text of hundredths -/

theorem intStr_nat (n : Nat) : intStr (n : Int) = digitsOf n := intStr_natCast n

theorem centiStr_decimal (n : Nat) : DecimalText (centiStr n) ((n : Rat) / 100) := by
  unfold centiStr
  split
  · rename_i h
    rw [intStr_nat, intStr_nat]
    have e : (n : Rat) / 100 = ((n / 100 : Nat) : Rat) + ((n / 10 % 10 : Nat) : Rat) / 10 := by
      have : n = 100 * (n / 100) + 10 * (n / 10 % 10) := by omega
      have h2 : (n : Rat) = 100 * ((n / 100 : Nat) : Rat) + 10 * ((n / 10 % 10 : Nat) : Rat) := by
        conv => lhs; rw [this]
        rw [Rat.natCast_add, Rat.natCast_mul, Rat.natCast_mul]; rfl
      grind
    rw [e]
    exact .one _ _ (by omega)
  · rename_i h
    rw [intStr_nat, intStr_nat, intStr_nat]
    have e : (n : Rat) / 100 = ((n / 100 : Nat) : Rat) + ((n / 10 % 10 : Nat) : Rat) / 10 + ((n % 10 : Nat) : Rat) / 100 := by
      have : n = 100 * (n / 100) + 10 * (n / 10 % 10) + n % 10 := by omega
      have h2 : (n : Rat) = 100 * ((n / 100 : Nat) : Rat) + 10 * ((n / 10 % 10 : Nat) : Rat) + ((n % 10 : Nat) : Rat) := by
        conv => lhs; rw [this]
        rw [Rat.natCast_add, Rat.natCast_add, Rat.natCast_mul, Rat.natCast_mul]; rfl
      grind
    rw [e]
    exact .two _ _ _ (by omega) (by omega) h

theorem digitsOf_inj {a b : Nat} (h : digitsOf a = digitsOf b) : a = b := by
  rw [← intStr_nat, ← intStr_nat] at h
  have := intStr_injective h
  omega

theorem digitsOf_digit {n : Nat} {c : Char} (h : c ∈ digitsOf n) : c.isDigit = true := Nat.isDigit_of_mem_toDigits (by omega) (by omega) h

theorem digitsOf_len : ∀ m : Nat, m < 10 → (digitsOf m).length = 1 := by decide

theorem cut_unique {c : Char} : ∀ {a a' b b' : Str}, c ∉ a → c ∉ a' → a ++ c :: b = a' ++ c :: b' → a = a' ∧ b = b'
  | [], [], _, _, _, _, h => ⟨rfl, (List.cons.inj h).2⟩
  | [], x :: a', _, _, _, h', h => absurd (by rw [(List.cons.inj h).1]; simp) h'
  | x :: a, [], _, _, h', _, h => absurd (by rw [(List.cons.inj h).1]; simp) h'
  | x :: a, y :: a', b, b', h1, h2, h => by
    obtain ⟨e1, e2⟩ := List.cons.inj h
    obtain ⟨e3, e4⟩ := cut_unique (fun hc => h1 (List.mem_cons_of_mem _ hc)) (fun hc => h2 (List.mem_cons_of_mem _ hc)) e2
    exact ⟨by rw [e1, e3], e4⟩

theorem digitsOf_point (n : Nat) : '.' ∉ digitsOf n := fun h => absurd (digitsOf_digit h) (by decide)

theorem not_minus {n : Nat} {s t : Str} (h : digitsOf n ++ '.' :: s = '-' :: t) : False := by
  cases e : digitsOf n with
  | nil => rw [e] at h; exact absurd (List.cons.inj h).1 (by decide)
  | cons c l =>
    rw [e] at h
    have : c ∈ digitsOf n := by rw [e]; simp
    rw [(List.cons.inj h).1] at this
    exact absurd (digitsOf_digit this) (by decide)

/-- A text denotes one number. -/
theorem DecimalText.unique {s s' : Str} {v v' : Rat} (h : DecimalText s v) (h' : DecimalText s' v') (e : s = s') : v = v' := by
  induction h generalizing s' v' with
  | one n m hm =>
    cases h' with
    | one n' m' hm' =>
      obtain ⟨e1, e2⟩ := cut_unique (digitsOf_point _) (digitsOf_point _) e
      rw [digitsOf_inj e1, digitsOf_inj e2]
    | two n' m' k' hm' hk' _ =>
      obtain ⟨_, e2⟩ := cut_unique (digitsOf_point _) (digitsOf_point _) e
      have := congrArg List.length e2
      rw [List.length_append, digitsOf_len m hm, digitsOf_len m' hm', digitsOf_len k' hk'] at this
      omega
    | neg _ _ => exact (not_minus e).elim
  | two n m k hm hk _ =>
    cases h' with
    | one n' m' hm' =>
      obtain ⟨_, e2⟩ := cut_unique (digitsOf_point _) (digitsOf_point _) e
      have := congrArg List.length e2
      rw [List.length_append, digitsOf_len m hm, digitsOf_len m' hm', digitsOf_len k hk] at this
      omega
    | two n' m' k' hm' hk' _ =>
      obtain ⟨e1, e2⟩ := cut_unique (digitsOf_point _) (digitsOf_point _) e
      obtain ⟨e3, e4⟩ := List.append_inj e2 (by rw [digitsOf_len m hm, digitsOf_len m' hm'])
      rw [digitsOf_inj e1, digitsOf_inj e3, digitsOf_inj e4]
    | neg _ _ => exact (not_minus e).elim
  | neg h0 _ ih =>
    cases h' with
    | one n' m' hm' => exact (not_minus e.symm).elim
    | two n' m' k' hm' hk' _ => exact (not_minus e.symm).elim
    | neg h1 _ => rw [ih h1 (List.cons.inj e).2]

theorem centi_neg (x : Rat) : centi (-x) = -centi x := by
  unfold centi
  rw [Rat.neg_mul, roundEven_neg]

theorem centi_mono {a b : Rat} (h : a ≤ b) : centi a ≤ centi b :=
  roundEven_mono (Rat.mul_le_mul_of_nonneg_right h (by decide +kernel))

theorem centi_zero : centi 0 = 0 := by decide +kernel

theorem centi_nonneg {x : Rat} (h : 0 ≤ x) : 0 ≤ centi x := by
  have := centi_mono h
  rwa [centi_zero] at this

theorem show2_decimal (x : Rat) : DecimalText (show2 x) ((centi x : Rat) / 100) := by
  unfold show2
  split
  · rename_i h
    have hc : centi x ≤ 0 := by
      have := centi_mono (Rat.le_of_lt h)
      rwa [centi_zero] at this
    have e : (centi x : Rat) / 100 = -(((centi x).natAbs : Rat) / 100) := by
      have : (centi x : Rat) = -((centi x).natAbs : Rat) := by
        rw [← Rat.intCast_natCast, ← Rat.intCast_neg]; congr 1; omega
      rw [this]; grind
    rw [e]
    refine .neg (centiStr_decimal _) ?_
    have := Rat.natCast_nonneg (a := (centi x).natAbs)
    grind
  · rename_i h
    have hc : 0 ≤ centi x := centi_nonneg (Rat.not_lt.mp h)
    have e : (centi x : Rat) = ((centi x).natAbs : Rat) := by
      rw [← Rat.intCast_natCast]; congr 1; omega
    rw [e]
    exact centiStr_decimal _

theorem centi_near (x : Rat) : Near (1 / 200) ((centi x : Rat) / 100) x := by
  unfold Near centi
  obtain ⟨h1, h2⟩ := roundEven_err (x * 100)
  constructor <;> grind

/-! ### The error of the computation -/

theorem mag_le {a b : Rat} (h1 : -b ≤ a) (h2 : a ≤ b) : mag a ≤ b := by
  unfold mag; split <;> grind

theorem mag_bounds (a : Rat) : -mag a ≤ a ∧ a ≤ mag a := by
  unfold mag; split <;> grind

theorem absRat_mag (q : Rat) : absRat q = mag q := by
  unfold absRat mag; split <;> split <;> grind

theorem eps_le : p2 (-53) ≤ 1 / 4 := by decide +kernel

/-- Division and product, each rounded. -/
theorem rnd_share (x : Rat) : Near (mag x * 100 * (3 * p2 (-53))) (rnd53 (rnd53 x * 100)) (x * 100) := by
  obtain ⟨a1, a2⟩ := rnd53_err x
  obtain ⟨b1, b2⟩ := rnd53_err (rnd53 x * 100)
  obtain ⟨x1, x2⟩ := mag_bounds x
  have he := p2_pos (-53)
  have he4 := eps_le
  have hm := mag_nonneg x
  have hM : 0 ≤ mag x * p2 (-53) := Rat.mul_nonneg hm (Rat.le_of_lt he)
  have ha : mag (rnd53 x * 100) ≤ (mag x + mag x * p2 (-53)) * 100 := by apply mag_le <;> grind
  have hb := Rat.mul_le_mul_of_nonneg_right ha (Rat.le_of_lt he)
  have hs := Rat.mul_le_mul_of_nonneg_left he4 hM
  constructor <;> grind

theorem percent_near (u t : Int) : Near (mag (share u t) * (3 * p2 (-53))) (percent pyFloat u t) (share u t) := by
  unfold percent share
  split
  · have : mag 0 = 0 := by decide +kernel
    rw [this]
    constructor <;> grind
  · have h := rnd_share ((u : Rat) / (t : Rat))
    have e : mag ((u : Rat) / (t : Rat) * 100) = mag ((u : Rat) / (t : Rat)) * 100 := by
      unfold mag
      split <;> split <;> grind
    rw [e]
    exact h

theorem near_trans {a b x y z : Rat} (h1 : Near a x y) (h2 : Near b y z) : Near (a + b) x z := by
  unfold Near at *
  grind

theorem near_le {a b x y : Rat} (h : Near a x y) (hab : a ≤ b) : Near b x y := by
  unfold Near at *
  grind

/-- **C91** the percentage shown is right up to half of its last digit, and a tiny relative error. -/
theorem C91_percent (u t : Int) : ∃ v, DecimalText (pyFloat.show2 (percent pyFloat u t)) v ∧
    Near (1 / 200 + absRat (share u t) / 2 ^ 51) v (share u t) := by
  refine ⟨_, show2_decimal _, ?_⟩
  refine near_le (near_trans (centi_near _) (percent_near u t)) ?_
  rw [absRat_mag]
  have hm := mag_nonneg (share u t)
  have : 3 * p2 (-53) ≤ 1 / 2 ^ 51 := by decide +kernel
  have := Rat.mul_le_mul_of_nonneg_left this hm
  grind

theorem percentChange_near (u d t e : Int) :
    Near ((mag (share u t) + mag (share (u - d) (t - e))) * (7 * p2 (-53))) (percentChange pyFloat u d t e) (share u t - share (u - d) (t - e)) := by
  have hn := percent_near u t
  have hm1 := mag_nonneg (share u t)
  have hm2 := mag_nonneg (share (u - d) (t - e))
  have he := p2_pos (-53)
  have he4 := eps_le
  have h1 := Rat.mul_nonneg hm1 (Rat.le_of_lt he)
  have h2 := Rat.mul_nonneg hm2 (Rat.le_of_lt he)
  unfold percentChange
  split
  · rename_i h0
    have : share (u - d) (t - e) = 0 := by unfold share; rw [if_pos h0]
    rw [this]
    have : mag 0 = 0 := by decide +kernel
    rw [this]
    unfold Near at *
    grind
  · have ho := percent_near (u - d) (t - e)
    show Near _ (rnd53 (percent pyFloat u t - percent pyFloat (u - d) (t - e))) _
    obtain ⟨r1, r2⟩ := rnd53_err (percent pyFloat u t - percent pyFloat (u - d) (t - e))
    have hs := mag_bounds (share u t)
    have hs' := mag_bounds (share (u - d) (t - e))
    have hd : mag (percent pyFloat u t - percent pyFloat (u - d) (t - e)) ≤
        (mag (share u t) + mag (share (u - d) (t - e))) * (1 + 3 * p2 (-53)) := by
      unfold Near at hn ho
      apply mag_le <;> grind
    have hd' := Rat.mul_le_mul_of_nonneg_right hd (Rat.le_of_lt he)
    have h3 := Rat.mul_le_mul_of_nonneg_left he4 h1
    have h4 := Rat.mul_le_mul_of_nonneg_left he4 h2
    unfold Near at *
    constructor <;> grind

/-! ### Changes -/

theorem rnd53_sign (q : Rat) : (rnd53 q = 0 ↔ q = 0) ∧ (0 < rnd53 q ↔ 0 < q) := by
  have hp : ∀ q, 0 < q → 0 < rnd53 q := by
    intro q h
    have := (rnd53_range h).1
    have := p2_pos (expo q)
    grind
  have hn : q < 0 → rnd53 q < 0 := by
    intro h
    have := hp (-q) (by grind)
    rw [rnd53_neg] at this
    grind
  have hz : q = 0 → rnd53 q = 0 := by
    intro h; subst h; exact rnd53_zero
  have hp' := hp q
  constructor <;> constructor <;> grind

theorem changeColour_rnd (b : Bool) (q : Rat) : changeColour b (rnd53 q) = changeColour b q := by
  obtain ⟨h1, h2⟩ := rnd53_sign q
  unfold changeColour
  simp only [h1, h2]

theorem padLeft_blanks (w : Nat) (s : Str) : ∃ k, padLeft w s = List.replicate k ' ' ++ s := ⟨_, rfl⟩

theorem changeText_shown (x : Rat) :
    ChangeText (if pyFloat.round2 x = 0 then pyFloat.pad2 x else pyFloat.plus2 x) ((centi x : Rat) / 100) := by
  have hs := show2_decimal x
  show ChangeText (if rnd53 ((centi x : Rat) / 100) = 0 then pad2 x else plus2 x) _
  have hz := (rnd53_sign ((centi x : Rat) / 100)).1
  by_cases h0 : (centi x : Rat) / 100 = 0
  · rw [if_pos (hz.mpr h0)]
    obtain ⟨k, hk⟩ := padLeft_blanks 6 (show2 x)
    refine ⟨k, show2 x, ?_, hs⟩
    rw [if_neg (by rw [h0]; decide +kernel)]
    exact hk
  · rw [if_neg (fun h => h0 (hz.mp h))]
    unfold plus2
    by_cases hx : x < 0
    · have hc : (centi x : Rat) ≤ 0 := by
        have := centi_mono (Rat.le_of_lt hx)
        rw [centi_zero] at this
        exact Rat.intCast_nonpos.mpr this
      rw [if_pos hx]
      obtain ⟨k, hk⟩ := padLeft_blanks 6 (show2 x)
      refine ⟨k, show2 x, ?_, hs⟩
      rw [if_neg (by grind)]
      exact hk
    · have hc : 0 ≤ (centi x : Rat) := Rat.intCast_nonneg.mpr (centi_nonneg (Rat.not_lt.mp hx))
      rw [if_neg hx]
      obtain ⟨k, hk⟩ := padLeft_blanks 6 ('+' :: show2 x)
      refine ⟨k, show2 x, ?_, hs⟩
      rw [if_pos (by grind)]
      exact hk

/-- **C91** a cell with a percentage, with its change. -/
theorem C91_cell (diff : Bool) (u d t e : Int) :
    ShowsShare diff u d t e (percentCell pyFloat diff (percent pyFloat u t) (percentChange pyFloat u d t e)) := by
  obtain ⟨v, h1, h2⟩ := C91_percent u t
  refine ⟨_, v, _, rfl, h1, h2, ?_⟩
  cases diff with
  | false => rfl
  | true =>
    simp only [if_true]
    refine ⟨_, (centi (percentChange pyFloat u d t e) : Rat) / 100, ?_, changeText_shown _, ?_⟩
    · show inStyle (changeColour true (rnd53 _)) _ = _
      rw [changeColour_rnd]
    · refine near_le (near_trans (centi_near _) (percentChange_near u d t e)) ?_
      rw [absRat_mag, absRat_mag]
      have h3 : 7 * p2 (-53) ≤ 1 / 2 ^ 50 := by decide +kernel
      have h4 : 0 ≤ mag (share u t) + mag (share (u - d) (t - e)) := Rat.add_nonneg (mag_nonneg _) (mag_nonneg _)
      have := Rat.mul_le_mul_of_nonneg_left h3 h4
      grind

/-! ### Order -/

theorem centi_percent_mono {u u' t : Int} (ht : 0 < t) (h : u ≤ u') : centi (percent pyFloat u t) ≤ centi (percent pyFloat u' t) := by
  have ht' : (0 : Rat) < (t : Rat) := Rat.intCast_pos.mpr ht
  unfold percent
  rw [if_neg (by omega), if_neg (by omega)]
  apply centi_mono
  apply rnd53_mono
  apply Rat.mul_le_mul_of_nonneg_right _ (by decide +kernel)
  apply rnd53_mono
  have hu : (u : Rat) ≤ (u' : Rat) := Rat.intCast_le_intCast.mpr h
  rw [Rat.div_def, Rat.div_def]
  exact Rat.mul_le_mul_of_nonneg_right hu (Rat.le_of_lt (Rat.inv_pos.mpr ht'))

theorem percent_full {t : Int} (h : t ≠ 0) : percent pyFloat t t = 100 := by
  have ht : (t : Rat) ≠ 0 := fun h0 => h (by exact_mod_cast h0)
  unfold percent
  rw [if_neg h]
  have : (t : Rat) / (t : Rat) = ((1 : Int) : Rat) := by rw [Rat.div_def, Rat.mul_inv_cancel _ ht]; rfl
  rw [this]
  decide +kernel

theorem percent_none (t : Int) : percent pyFloat 0 t = 0 := by
  unfold percent
  split
  · rfl
  · have : ((0 : Int) : Rat) / (t : Rat) = 0 := by rw [Rat.intCast_zero, Rat.div_def, Rat.zero_mul]
    rw [this]
    decide +kernel

theorem shown_value {x v : Rat} (h : DecimalText (pyFloat.show2 x) v) : v = (centi x : Rat) / 100 := DecimalText.unique h (show2_decimal x) rfl

/-- **C91** more bytes never show a smaller percentage. -/
theorem C91_monotone {u u' t : Int} (ht : 0 < t) (h : u ≤ u') {v v' : Rat} (hv : DecimalText (pyFloat.show2 (percent pyFloat u t)) v)
    (hv' : DecimalText (pyFloat.show2 (percent pyFloat u' t)) v') : v ≤ v' := by
  rw [shown_value hv, shown_value hv']
  have := Rat.intCast_le_intCast.mpr (centi_percent_mono ht h)
  grind

/-- **C91** a memory type that is full shows `100.0`, an empty one `0.0`, others something between. -/
theorem C91_range {u t : Int} (ht : 0 < t) (h0 : 0 ≤ u) (h1 : u ≤ t) :
    pyFloat.show2 (percent pyFloat 0 t) = str "0.0" ∧ pyFloat.show2 (percent pyFloat t t) = str "100.0" ∧
    ∀ v, DecimalText (pyFloat.show2 (percent pyFloat u t)) v → 0 ≤ v ∧ v ≤ 100 := by
  have a := centi_percent_mono ht h0
  have b := centi_percent_mono ht h1
  rw [percent_none] at a
  rw [percent_full (by omega)] at b
  rw [percent_none, percent_full (by omega)]
  have e1 : centi 0 = 0 := by decide +kernel
  have e2 : centi 100 = 10000 := by decide +kernel
  rw [e1] at a
  rw [e2] at b
  refine ⟨by decide +kernel, by decide +kernel, fun v hv => ?_⟩
  rw [shown_value hv]
  have a' := Rat.intCast_le_intCast.mpr a
  have b' := Rat.intCast_le_intCast.mpr b
  have c0 : ((0 : Int) : Rat) = 0 := rfl
  have c1 : ((10000 : Int) : Rat) = 10000 := rfl
  grind

/-! ### What the percentages do not tell -/

/-- **C91** `100.0` does not mean that nothing remains, `0.0` not that nothing is used. -/
theorem C91_not_full : pyFloat.show2 (percent pyFloat 327675 327680) = str "100.0" ∧
    pyFloat.show2 (percent pyFloat 16 4194304) = str "0.0" := by decide +kernel

/-- **C91** a change that is rounded to zero keeps its sign. -/
theorem C91_minus_zero : pyFloat.pad2 (percentChange pyFloat 1000 (-16) 4194304 0) = str "  -0.0" := by decide +kernel

/-- **C91** (with C40) sorted by percentage in descending order, 50.1 % may come before 50.59 %. -/
theorem C91_not_sorted : ∃ args : Args, args.sortReverse = true ∧ Selects (str "Memory Type/Section") sumColTitles args.sort 1 ∧
    ∃ a b, (getSummaryTable pyFloat exHalves args).toOption.map (fun t => t.rows.map fun r => r[2]?) = some [some a, some b] ∧
      a = str "50.1" ∧ b = str "50.59" :=
  ⟨{ sort := str "2" }, rfl, ⟨by decide, Or.inl ⟨2, by decide, by decide⟩⟩, _, _, by decide +kernel, rfl, rfl⟩

/-! ### Whole runs -/

theorem centiStr_plain (n : Nat) : ∀ c ∈ centiStr n, c ≠ '[' ∧ c ≠ '\\' := by
  unfold centiStr
  intro c hc
  split at hc
  · rcases List.mem_append.mp hc with h | h
    · exact intStr_neutral _ c h
    · rcases List.mem_cons.mp h with rfl | h
      · decide
      · exact intStr_neutral _ c h
  · rcases List.mem_append.mp hc with h | h
    · exact intStr_neutral _ c h
    · rcases List.mem_cons.mp h with rfl | h
      · decide
      · rcases List.mem_append.mp h with h | h
        · exact intStr_neutral _ c h
        · exact intStr_neutral _ c h

theorem show2_plain (x : Rat) : ∀ c ∈ show2 x, c ≠ '[' ∧ c ≠ '\\' := by
  unfold show2
  intro c hc
  split at hc
  · rcases List.mem_cons.mp hc with rfl | h
    · decide
    · exact centiStr_plain _ c h
  · exact centiStr_plain _ c hc

theorem padLeft_plain {w : Nat} {s : Str} (h : ∀ c ∈ s, c ≠ '[' ∧ c ≠ '\\') : ∀ c ∈ padLeft w s, c ≠ '[' ∧ c ≠ '\\' := by
  unfold padLeft
  intro c hc
  rcases List.mem_append.mp hc with h1 | h1
  · rw [List.eq_of_mem_replicate h1]; decide
  · exact h c h1

theorem pyFloat_plain : pyFloat.Plain where
  show2 := show2_plain
  plus2 := fun x => by
    show ∀ c ∈ plus2 x, _
    unfold plus2
    apply padLeft_plain
    split
    · exact show2_plain x
    · intro c hc
      rcases List.mem_cons.mp hc with rfl | h
      · decide
      · exact show2_plain x c h
  pad2 := fun x => padLeft_plain (show2_plain x)

theorem rowShows_second {name : Str} {a b : List (Char × Option Str)} {cs : List (List (Char × Option Str))} {row : List Str}
    (h : RowShows name (a :: b :: cs) row) : ∃ c, row[2]? = some c ∧ styled c = b := by
  obtain ⟨c, l, rfl, _, hl⟩ := h
  match l, hl with
  | x :: y :: l, hl =>
    simp only [List.map_cons, List.cons.injEq] at hl
    exact ⟨y, rfl, hl.2.1⟩

theorem SummaryRows.shares {args : Args} {k : MemMap} {tab : Table} (h : SummaryRows pyFloat args k tab) : SummaryShares args k tab := by
  obtain ⟨i, ts, blocks, _, rfl, hts, hb⟩ := h
  refine ⟨ts, blocks, hts.1, rfl, All2.imp hb ?_⟩
  rintro t _ b ⟨r, rs, ss, rfl, hr, hss, hrs⟩
  refine ⟨r, rs, ss, rfl, hss.1, ?_, All2.imp hrs ?_⟩
  · intro hne
    unfold typeCells at hr
    rw [if_neg hne] at hr
    obtain ⟨c, h1, h2⟩ := rowShows_second hr
    exact ⟨c, h1, h2 ▸ C91_cell _ _ _ _ _⟩
  · intro s _ row hrow hne
    unfold sectionCells at hrow
    rw [if_neg hne] at hrow
    obtain ⟨c, h1, h2⟩ := rowShows_second hrow
    exact ⟨c, h1, h2 ▸ C91_cell _ _ _ _ _⟩

/-- **C91** the percentages of the summary of a run. -/
theorem C91_run (R : RunIn) (hF : R.F = pyFloat) (input : Str) (args : Args) (rep : Report) {l : GetIn} (hr : Readable R args input l)
    (hdiff : truthy args.diff = false) (hf : args.format = str "table" ∨ args.format = str "text" ∨ args.format = str "csv")
    (hno : NoListing args) (h : makeReport R input args = some (.ok rep)) :
    ∃ b d k tab, BuildOf R args l b ∧ MapOf args b none d ∧ TrimmedTo args d k ∧ (rep = .table tab ∨ rep = .csv (csvLines tab)) ∧
      SummaryShares args k tab := by
  obtain ⟨b, d, h1, h2, h3⟩ := C85_map_plain R (hF ▸ pyFloat_plain) input args rep hr hdiff h
  rw [hF] at h3
  rcases or_assoc.mpr hf with hf | hf
  · obtain ⟨k, tab, h4, h5, h6⟩ := h3.table hf hno
    exact ⟨b, d, k, tab, h1, h2, h4, .inl h5, h6.shares⟩
  · obtain ⟨k, tab, h4, h5, h6⟩ := h3.csv hf hno
    exact ⟨b, d, k, tab, h1, h2, h4, .inr h5, h6.shares⟩

/-- **C91** the percentages of the summary of a run with `--diff`, and their changes. -/
theorem C91_run_diff (R : RunIn) (hF : R.F = pyFloat) (input reference : Str) (args : Args) (rep : Report) {l l' : GetIn}
    (hr : Readable R args input l) (hr' : Readable R args reference l') (hdiff : args.diff = some reference) (hne : reference ≠ [])
    (hf : args.format = str "table" ∨ args.format = str "text" ∨ args.format = str "csv")
    (hno : NoListing args) (h : makeReport R input args = some (.ok rep)) :
    ∃ b b' d k tab, BuildOf R args l b ∧ BuildOf R args l' b' ∧ MapOf args b (some b') d ∧ TrimmedTo args d k ∧
      (rep = .table tab ∨ rep = .csv (csvLines tab)) ∧ SummaryShares args k tab := by
  obtain ⟨b, b', d, h1, h1', h2, h3⟩ :=
    C85_map_diff R (hF ▸ pyFloat_plain) input reference args rep hr hr' hdiff hne hno.2.2.2 h
  rw [hF] at h3
  rcases or_assoc.mpr hf with hf | hf
  · obtain ⟨k, tab, h4, h5, h6⟩ := h3.table hf hno
    exact ⟨b, b', d, k, tab, h1, h1', h2, h4, .inl h5, h6.shares⟩
  · obtain ⟨k, tab, h4, h5, h6⟩ := h3.csv hf hno
    exact ⟨b, b', d, k, tab, h1, h1', h2, h4, .inr h5, h6.shares⟩

/-- The hypotheses of the theorems can be fulfilled; the summary has percentages. -/
example : (∃ l, Readable { exRun exTwoWorld with F := pyFloat } { format := str "text" } (str "/b/x.map") l) ∧
    exTable (makeReport { exRun exTwoWorld with F := pyFloat } (str "/b/x.map") { format := str "text" }) =
      some [[str "Memory Type/Section", str "Used \\[bytes]", str "Used \\[%]", str "Remain \\[bytes]", str "Total \\[bytes]"],
        [str "IRAM", str "36", str "14.06", str "220", str "256"], [str "   .text", str "32", str "12.5", [], []],
        [str "   .data", str "4", str "1.56", [], []]] :=
  ⟨readable_of (by decide +kernel), by decide +kernel⟩

example : exTable (makeReport { exRun exTwoWorld with F := pyFloat } (str "/b/x.map")
      { format := str "text", diff := some (str "/o/x.map"), showUnchanged := true, unify := true }) =
    some [[str "Memory Type/Section", str "Used \\[bytes]", str "Used \\[%]", str "Remain \\[bytes]", str "Total \\[bytes]"],
      [str "IRAM", str "36[red]    +12[/red]", str "14.06[red]  +4.69[/red]", str "220[red]    -12[/red]", str "256      0"],
      [str "   .text", str "32[red]     +8[/red]", str "12.5[red]  +3.12[/red]", [], []],
      [str "   .data", str "4[red]     +4[/red]", str "1.56[red]  +1.56[/red]", [], []]] := by decide +kernel

end EspSize
