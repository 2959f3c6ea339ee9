import Verif.Model.ElfNames
import Verif.Spec.ElfNames
import Verif.Proofs.Dict
import Verif.Proofs.Fmt
/-! # C99: names of constants -/
namespace EspSize

/-- The last entry counts. -/
theorem dget_dictOf (m : List (Nat × String)) (n : Nat) : dget (nameDict m) n = (m.reverse.find? fun p => Nat.beq p.1 n).map fun p => str p.2 := by
  have key : ∀ r : List (Nat × String), dget (nameDict r.reverse) n = (r.find? fun p => Nat.beq p.1 n).map fun p => str p.2 := by
    intro r
    induction r with
    | nil => rfl
    | cons p t ih =>
      have e : nameDict (p :: t).reverse = dset (nameDict t.reverse) p.1 (str p.2) := by simp [nameDict]
      rw [e, List.find?_cons]
      by_cases h : p.1 = n
      · subst h
        simp
      · rw [dget_dset_ne h, ih]
        have : Nat.beq p.1 n = false := Bool.eq_false_iff.mpr fun he => h (Nat.eq_of_beq_eq_true he)
        rw [this]
  rw [← key, List.reverse_reverse]

theorem dget_dictOf_none {m : List (Nat × String)} {n : Nat} (h : ∀ p ∈ m, p.1 ≠ n) : dget (nameDict m) n = none := by
  have key : ∀ (l : List (Nat × String)) (d : Dict Nat Str), dget d n = none → (∀ p ∈ l, p.1 ≠ n) →
      dget (l.foldl (fun d p => dset d p.1 (str p.2)) d) n = none := by
    intro l
    induction l with
    | nil => exact fun d hd _ => hd
    | cons p t ih =>
      intro d hd hl
      refine ih _ ?_ fun q hq => hl q (List.mem_cons_of_mem _ hq)
      rw [dget_dset_ne (hl p (by simp))]
      exact hd
  exact key m [] rfl h

theorem constName_none {pre : Str} {consts : List (String × Nat)} {n : Nat} (h : ∀ c ∈ consts, c.2 ≠ n) : constName pre consts n = none := by
  have : (consts.filter fun c => Nat.beq c.2 n) = [] := List.filter_eq_nil_iff.mpr fun c hc he => h c hc (Nat.eq_of_beq_eq_true he)
  unfold constName
  rw [this]
  rfl

/-- A table and the constants agree at all codes if they agree at the codes of the table, outside of `ex`, and all constants have an
entry. -/
theorem names_agree {m : List (Nat × String)} {pre : Str} {consts : List (String × Nat)} {ex : List Nat}
    (h1 : ∀ p ∈ m, p.1 ∉ ex → ((m.reverse.find? fun q => Nat.beq q.1 p.1).map fun q => str q.2) = constName pre consts p.1) (h2 : ∀ c ∈ consts, ∃ p ∈ m, p.1 = c.2) (n : Nat) (hn : n ∉ ex) :
    dget (nameDict m) n = constName pre consts n := by
  by_cases h : ∃ p ∈ m, p.1 = n
  · obtain ⟨p, hp, rfl⟩ := h
    rw [dget_dictOf]
    exact h1 p hp hn
  · rw [dget_dictOf_none fun p hp he => h ⟨p, hp, he⟩, constName_none]
    intro c hc he
    obtain ⟨p, hp, hq⟩ := h2 c hc
    exact h ⟨p, hp, hq.trans he⟩

theorem shown_agree {m : List (Nat × String)} {pre : Str} {consts : List (String × Nat)} {n : Nat}
    (h : dget (nameDict m) n = constName pre consts n) : nameOrUnknown m n = nameShown pre consts n := by
  unfold nameOrUnknown nameShown
  rw [h]
  cases constName pre consts n <;> rfl

/-- **C99** tags. -/
theorem C99_tags (n : Nat) : nameOrUnknown tagMap n = nameShown (str "DW_TAG_") tagConsts n :=
  shown_agree (names_agree (ex := []) (by decide +kernel) (by decide +kernel) n (by simp))

/-- **C99** attributes. -/
theorem C99_attributes (n : Nat) : nameOrUnknown atMap n = nameShown (str "DW_AT_") atConsts n :=
  shown_agree (names_agree (ex := []) (by decide +kernel) (by decide +kernel) n (by simp))

/-- **C99** forms. -/
theorem C99_forms (n : Nat) : nameOrUnknown formMap n = nameShown (str "DW_FORM_") formConsts n :=
  shown_agree (names_agree (ex := []) (by decide +kernel) (by decide +kernel) n (by simp))

/-- **C99** (without two codes) types of sections. -/
theorem C99_sections_partial (n : Nat) (h : n ∉ [0x6ffffffa, 0x6fffffff]) : nameOrUnknown shtMap n = nameShown [] shtConsts n :=
  shown_agree (names_agree (by decide +kernel) (by decide +kernel) n h)

/-- **C99** (violated) a section with the versions of symbols, and the other meanings of two codes. -/
theorem C99_sections_wrong : nameOrUnknown shtMap 0x6fffffff = str "HIOS" ∧ nameShown [] shtConsts 0x6fffffff = str "GNU_versym/HISUNW/HIOS" ∧
    nameOrUnknown shtMap 0x6ffffffa = str "SUNW_move" ∧ nameShown [] shtConsts 0x6ffffffa = str "LOSUNW/SUNW_move" := by decide +kernel

/-- What is shown of the type, binding or visibility of a symbol. -/
theorem error_agree {m : List (Nat × String)} {pre : Str} {consts : List (String × Nat)} {n : Nat}
    (h : dget (nameDict m) n = constName pre consts n) :
    nameOrError m n = match constName pre consts n with | some s => .ok s | none => .error .keyError := by
  unfold nameOrError
  rw [h]
  rfl

/-- **C99** types of symbols; those without a name raise `KeyError`. -/
theorem C99_symbol_types (n : Nat) : nameOrError sttMap n = match constName [] sttConsts n with | some s => .ok s | none => .error .keyError :=
  error_agree (names_agree (ex := []) (by decide +kernel) (by decide +kernel) n (by simp))

/-- **C99** (without one code) bindings of symbols. -/
theorem C99_bindings_partial (n : Nat) (h : n ≠ 10) : nameOrError stbMap n = match constName [] stbConsts n with | some s => .ok s | none => .error .keyError :=
  error_agree (names_agree (ex := [10]) (by decide +kernel) (by decide +kernel) n (by simpa using h))

/-- **C99** (violated) a unique symbol has the binding `LOOS` only. -/
theorem C99_bindings_wrong : nameOrError stbMap 10 = .ok (str "LOOS") ∧ constName [] stbConsts 10 = some (str "LOOS/GNU_UNIQUE") := by decide +kernel

theorem sym_bind (s : RawSym) : s.bind = s.info / 16 := by
  unfold RawSym.bind
  rw [Nat.shiftRight_eq_div_pow]

theorem sym_visibility (s : RawSym) : s.visibility = s.other % 4 := Nat.and_two_pow_sub_one_eq_mod s.other 2

/-- **C99** the visibility of a symbol is the last two bits of its byte, and always has a name. -/
theorem C99_visibility (s : RawSym) : s.visibility = s.other % 4 ∧
    ∃ t, nameOrError stvMap (s.other % 4) = .ok t ∧ constName [] stvConsts (s.other % 4) = some t := by
  refine ⟨sym_visibility s, ?_⟩
  have h : s.other % 4 < 4 := Nat.mod_lt _ (by decide)
  generalize s.other % 4 = v at h
  have : v = 0 ∨ v = 1 ∨ v = 2 ∨ v = 3 := by omega
  rcases this with rfl | rfl | rfl | rfl
  · exact ⟨str "DEFAULT", by decide +kernel, by decide +kernel⟩
  · exact ⟨str "INTERNAL", by decide +kernel, by decide +kernel⟩
  · exact ⟨str "HIDDEN", by decide +kernel, by decide +kernel⟩
  · exact ⟨str "PROTECTED", by decide +kernel, by decide +kernel⟩

/-- **C99** (violated) there are symbols whose type or binding cannot be shown. -/
theorem C99_symbols_raise : ∀ n ∈ [8, 9, 11, 14], nameOrError sttMap n = .error .keyError := by decide +kernel

theorem dget_dictOf_some {m : List (Nat × String)} {n : Nat} {s : Str} (h : dget (nameDict m) n = some s) : ∃ p ∈ m, p.1 = n ∧ str p.2 = s := by
  have key : ∀ (l : List (Nat × String)) (d : Dict Nat Str), dget (l.foldl (fun d p => dset d p.1 (str p.2)) d) n = some s →
      dget d n = some s ∨ ∃ p ∈ l, p.1 = n ∧ str p.2 = s := by
    intro l
    induction l with
    | nil => exact fun d hd => .inl hd
    | cons p t ih =>
      intro d hd
      rcases ih _ hd with h | ⟨q, hq, h⟩
      · by_cases he : p.1 = n
        · subst he
          rw [dget_dset_self] at h
          exact .inr ⟨p, by simp, rfl, Option.some.inj h⟩
        · rw [dget_dset_ne he] at h
          exact .inl h
      · exact .inr ⟨q, List.mem_cons_of_mem _ hq, h⟩
  rcases key m [] h with h | h
  · cases h
  · exact h

/-- Different codes are shown differently, if the names are different and none begins as that of an unknown code. -/
theorem unknown_injective {m : List (Nat × String)} (h1 : ∀ p ∈ m, ∀ q ∈ m, str p.2 = str q.2 → p.1 = q.1)
    (h2 : ∀ p ∈ m, ¬ (str "UNKNOWN ") <+: str p.2) {a b : Nat} (h : nameOrUnknown m a = nameOrUnknown m b) : a = b := by
  unfold nameOrUnknown at h
  cases ha : dget (nameDict m) a with
  | some s =>
    obtain ⟨p, hp, rfl, hs⟩ := dget_dictOf_some ha
    rw [ha] at h
    cases hb : dget (nameDict m) b with
    | some t =>
      obtain ⟨q, hq, rfl, ht⟩ := dget_dictOf_some hb
      rw [hb] at h
      exact h1 p hp q hq (hs.trans (h.trans ht.symm))
    | none =>
      rw [hb] at h
      exact absurd ⟨_, (hs.trans h).symm⟩ (h2 p hp)
  | none =>
    rw [ha] at h
    cases hb : dget (nameDict m) b with
    | some t =>
      obtain ⟨q, hq, rfl, ht⟩ := dget_dictOf_some hb
      rw [hb] at h
      exact absurd ⟨_, h.trans ht.symm⟩ (h2 q hq)
    | none =>
      rw [hb] at h
      have h := List.append_cancel_left h
      have e := pyInt10_intStr (a : Int)
      rw [h, pyInt10_intStr] at e
      exact (Int.ofNat.inj (Option.some.inj e)).symm

/-- **C99** different forms and types of sections are shown differently. -/
theorem C99_different (m : List (Nat × String)) (hm : m = formMap ∨ m = shtMap) (a b : Nat)
    (h : nameOrUnknown m a = nameOrUnknown m b) : a = b := by
  rcases hm with rfl | rfl
  · exact unknown_injective (by decide +kernel) (by decide +kernel) h
  · exact unknown_injective (by decide +kernel) (by decide +kernel) h

example : nameOrUnknown tagMap 0x34 = str "DW_TAG_variable" := by decide +kernel
example : nameOrUnknown tagMap 0x50 = str "UNKNOWN 80" := by decide +kernel
example : nameShown (str "DW_AT_") atConsts 0x2001 = str "DW_AT_MIPS_fde/DW_AT_HP_unmodifiable" := by decide +kernel

end EspSize
