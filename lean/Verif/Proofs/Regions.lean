import Verif.Spec.Regions
/-! # Lemmas on region splitting -/
namespace EspSize

theorem findType_some {types : Dict Str MemTypeInfo} {o : Int} {t : MemTypeInfo} {base : Int}
    (h : findType types o = some (t, base)) :
    ∃ k, (k, t) ∈ types ∧ IsBase t base ∧ InWindow t base o := by
  induction types with
  | nil => cases h
  | cons p ts ih =>
    obtain ⟨k, u⟩ := p
    unfold findType at h
    split at h
    · rename_i h1
      cases h
      exact ⟨k, by simp, .inl rfl, h1⟩
    · split at h
      · rename_i h1
        cases h
        exact ⟨k, by simp, .inr ⟨h1.1, rfl⟩, h1.2⟩
      · obtain ⟨k', hk, hb⟩ := ih h
        exact ⟨k', by simp [hk], hb⟩

theorem findType_none {types : Dict Str MemTypeInfo} {o : Int} :
    findType types o = none ↔ ¬ CoveredAddr types o := by
  induction types with
  | nil => simp [findType, CoveredAddr]
  | cons p ts ih =>
    obtain ⟨k, u⟩ := p
    unfold findType
    split
    · rename_i h1
      simp only [reduceCtorEq, false_iff]
      exact fun hn => hn ⟨k, u, u.primary, by simp, .inl rfl, h1⟩
    · rename_i h1
      split
      · rename_i h2
        simp only [reduceCtorEq, false_iff]
        exact fun hn => hn ⟨k, u, u.secondary, by simp, .inr ⟨h2.1, rfl⟩, h2.2⟩
      · rename_i h2
        rw [ih]
        apply not_congr
        constructor
        · rintro ⟨k', t, b, hm, hb⟩
          exact ⟨k', t, b, by simp [hm], hb⟩
        · rintro ⟨k', t, b, hm, hb, hw⟩
          rcases List.mem_cons.mp hm with he | hm
          · cases he
            rcases hb with rfl | ⟨hs, rfl⟩
            · exact absurd hw h1
            · exact absurd ⟨hs, hw⟩ h2
          · exact ⟨k', t, b, hm, hb, hw⟩

theorem splitLoop_mono {types : Dict Str MemTypeInfo} {r : Region} {n : Nat} {s : SplitSt}
    {x : List SReg × Bool} (h : splitLoop types r n s = some x) (k : Nat) :
    splitLoop types r (n + k) s = some x := by
  induction n generalizing s with
  | zero => cases h
  | succ n ih =>
    rw [Nat.succ_add]
    unfold splitLoop at h ⊢
    split at h
    · rename_i s' he
      exact ih h
    · exact h
    · exact h

theorem splitLoop_det {types : Dict Str MemTypeInfo} {r : Region} {n n' : Nat} {s : SplitSt}
    {x x' : List SReg × Bool} (h : splitLoop types r n s = some x)
    (h' : splitLoop types r n' s = some x') : x = x' := by
  have h1 := splitLoop_mono h n'
  have h2 := splitLoop_mono h' n
  rw [Nat.add_comm] at h2
  rw [h1] at h2
  exact Option.some.inj h2

/-- In the state `s` the loop never ends. -/
theorem splitLoop_stuck {types : Dict Str MemTypeInfo} {r : Region} {s : SplitSt}
    (hg : ¬ CoveredAddr types s.origin) (hl : s.length ≠ 0)
    (hp : ∃ p ∈ s.acc, s.origin + s.length = p.origin + p.length) (n : Nat) :
    splitLoop types r n s = none := by
  induction n generalizing s with
  | zero => rfl
  | succ n ih =>
    unfold splitLoop splitBody
    rw [findType_none.mpr hg]
    simp only []
    cases hf : s.acc.find? (fun p => s.origin + s.length = p.origin + p.length) with
    | none =>
      obtain ⟨p, hp, he⟩ := hp
      have := List.find?_eq_none.mp hf p hp
      simp [he] at this
    | some p =>
      simp only [if_neg hl]
      refine ih hg hl ?_
      obtain ⟨p, hp, he⟩ := hp
      exact ⟨p, by simp [hp], he⟩

/-- What the loop computes on a region of positive remaining length. -/
theorem splitLoop_spec (types : Dict Str MemTypeInfo) (r : Region) (k : Nat) :
    ∀ (s : SplitSt), 0 < s.length → s.length.toNat ≤ k →
    (∃ ps, splitLoop types r k s = some (s.acc ++ ps, false) ∧
        (∀ p ∈ ps, PieceOk types r p) ∧ Tiles s.origin (s.origin + s.length) ps ∧
        ∀ x, s.origin ≤ x → x < s.origin + s.length → CoveredAddr types x) ∨
    (∃ ps g, FirstGap types s.origin (s.origin + s.length) g ∧
        (∀ p ∈ ps, PieceOk types r p) ∧ Tiles s.origin g ps ∧
        (if ∃ p ∈ s.acc, s.origin + s.length = p.origin + p.length then
          ∀ n, splitLoop types r n s = none
        else ∃ n, splitLoop types r n s = some (s.acc ++ ps, true))) := by
  induction k with
  | zero => intro s h1 h2; omega
  | succ k ih =>
    intro s hpos hk
    cases hf : findType types s.origin with
    | none =>
      right
      have hg := findType_none.mp hf
      refine ⟨[], s.origin, ⟨Int.le_refl _, by omega, hg, fun x h1 h2 => by omega⟩,
        by simp, rfl, ?_⟩
      split
      · rename_i hp
        exact splitLoop_stuck hg (by omega) hp
      · rename_i hp
        refine ⟨1, ?_⟩
        unfold splitLoop splitBody
        rw [hf]
        simp only []
        have : s.acc.find? (fun p => decide (s.origin + s.length = p.origin + p.length)) = none := by
          rw [List.find?_eq_none]
          intro p hm he
          exact hp ⟨p, hm, by simpa using he⟩
        rw [this]; simp
    | some tb =>
      obtain ⟨t, base⟩ := tb
      obtain ⟨key, hmem, hbase, hw⟩ := findType_some hf
      obtain ⟨w1, w2⟩ := hw
      let used := min s.length (t.length - (s.origin - base))
      have hu : used = min s.length (t.length - (s.origin - base)) := rfl
      have hu1 : 0 < used := by omega
      have hu2 : used ≤ s.length := by omega
      have hu3 : s.origin + used ≤ base + t.length := by omega
      let p : SReg := { name := r.name, origin := s.origin, length := used, attrs := r.attrs, type := t }
      have hpOk : PieceOk types r p := ⟨rfl, rfl, hu1, key, base, hmem, hbase, w1, hu3⟩
      have hcov : ∀ x, s.origin ≤ x → x < s.origin + used → CoveredAddr types x :=
        fun x h1 h2 => ⟨key, t, base, hmem, hbase, by omega, by omega⟩
      have hbody : splitBody types r s = if s.length - used = 0 then .done (s.acc ++ [p]) else
          .next { origin := s.origin + used, length := s.length - used, acc := s.acc ++ [p] } := by
        unfold splitBody; rw [hf]
      by_cases hz : s.length - used = 0
      · left
        refine ⟨[p], ?_, by simpa using hpOk, ⟨rfl, ?_⟩, ?_⟩
        · unfold splitLoop
          rw [hbody, if_pos hz]
        · show s.origin + used = s.origin + s.length
          omega
        · intro x h1 h2; exact hcov x h1 (by omega)
      · let s' : SplitSt := { origin := s.origin + used, length := s.length - used, acc := s.acc ++ [p] }
        have hstep : ∀ n, splitLoop types r (n + 1) s = splitLoop types r n s' := by
          intro n
          conv => lhs; unfold splitLoop
          rw [hbody, if_neg hz]
        have hend : s'.origin + s'.length = s.origin + s.length := by
          show s.origin + used + (s.length - used) = _
          omega
        have hs'l : s'.length = s.length - used := rfl
        have hs'o : s'.origin = s.origin + used := rfl
        rcases ih s' (by omega) (by omega) with ⟨ps, h1, h2, h3, h4⟩ | ⟨ps, g, h1, h2, h3, h4⟩
        · left
          refine ⟨p :: ps, ?_, ?_, ⟨rfl, ?_⟩, ?_⟩
          · rw [hstep, h1]; simp [s']
          · intro q hq
            rcases List.mem_cons.mp hq with rfl | hq
            · exact hpOk
            · exact h2 q hq
          · rw [hend] at h3; exact h3
          · intro x hx1 hx2
            by_cases hx : x < s.origin + used
            · exact hcov x hx1 hx
            · exact h4 x (by omega) (by omega)
        · right
          obtain ⟨g1, g2, g3, g4⟩ := h1
          refine ⟨p :: ps, g, ⟨by omega, by omega, g3, ?_⟩, ?_, ⟨rfl, h3⟩, ?_⟩
          · intro x hx1 hx2
            by_cases hx : x < s.origin + used
            · exact hcov x hx1 hx
            · exact g4 x (by omega) hx2
          · intro q hq
            rcases List.mem_cons.mp hq with rfl | hq
            · exact hpOk
            · exact h2 q hq
          · have hiff : (∃ q ∈ s'.acc, s'.origin + s'.length = q.origin + q.length) ↔
                ∃ q ∈ s.acc, s.origin + s.length = q.origin + q.length := by
              rw [hend]
              constructor
              · rintro ⟨q, hq, he⟩
                rcases List.mem_append.mp hq with hq | hq
                · exact ⟨q, hq, he⟩
                · have : q = p := by simpa using hq
                  subst this
                  have : s.origin + s.length = s.origin + used := he
                  omega
              · rintro ⟨q, hq, he⟩
                exact ⟨q, by simp [s', hq], he⟩
            by_cases hp : ∃ q ∈ s.acc, s.origin + s.length = q.origin + q.length
            · rw [if_pos (hiff.mpr hp)] at h4
              rw [if_pos hp]
              intro n
              cases n with
              | zero => rfl
              | succ n => rw [hstep]; exact h4 n
            · rw [if_neg (fun h => hp (hiff.mp h))] at h4
              rw [if_neg hp]
              obtain ⟨n, hn⟩ := h4
              refine ⟨n + 1, ?_⟩
              rw [hstep, hn]; simp [s']

end EspSize
