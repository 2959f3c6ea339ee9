import Verif.Spec.AttrText
import Verif.Props.DumpDwarf
/-! # C51: the text of an attribute -/
namespace EspSize

theorem hexLower_digit {n : Nat} (h : n < 16) : (str "0123456789abcdef")[n]? = some (hexLower n) := by
  have : ∀ n, n < 16 → (str "0123456789abcdef")[n]? = some (hexLower n) := by decide
  exact this n h

theorem blockText_hex (b : Bytes) : BlockText b (hexBytes b) := by
  induction b with
  | nil => exact rfl
  | cons x t ih =>
    refine ⟨hexLower (x.toNat / 16), hexLower (x.toNat % 16), hexBytes t, rfl, ?_, ?_, ih⟩
    · have := x.toNat_lt
      exact hexLower_digit (by omega)
    · exact hexLower_digit (by omega)

theorem signedHex_num (n : Int) : SignedHex n (hexNum n) := by
  by_cases h : n < 0
  · refine .inr ⟨h, hexNum (-n), ?_, ?_⟩
    · unfold hexNum
      rw [if_pos h, if_neg (by omega), Int.natAbs_neg]
      rfl
    · have := hexOf_num (-n).toNat
      rw [Int.toNat_of_nonneg (by omega)] at this
      exact this
  · refine .inl ⟨by omega, ?_⟩
    have := hexOf_num n.toNat
    rw [Int.toNat_of_nonneg (by omega)] at this
    exact this

/-- **C51** the text of an attribute is the text, or the address, that it evaluates to; if it cannot be evaluated, what is stored: a number in
hexadecimal, or the bytes of a block as pairs of hexadecimal digits.  There is one unless nothing is stored. -/
theorem C51_shown (e : ElfFile) (a : DAttr) (v : EVal) (h : e.evalAttr a.form a.value = .ok v) :
    (∀ s, (e.getAttrStr ⟨a, none, none⟩).1 = .ok s → ShownAs v a.value s) ∧
    ((∃ s, (e.getAttrStr ⟨a, none, none⟩).1 = .ok s) ↔ v ≠ .none_ ∨ a.value ≠ .none_) := by
  have ht : (e.getAttrStr ⟨a, none, none⟩).1 = attrText v a.value := by
    unfold ElfFile.getAttrStr ElfFile.getAttrEval
    simp only [h]
    cases attrText v a.value <;> rfl
  rw [ht]
  cases v with
  | str t =>
    refine ⟨fun s hs => ?_, fun _ => .inl (by intro h; cases h), fun _ => ⟨t, rfl⟩⟩
    cases hs
    exact .text
  | num n =>
    refine ⟨fun s hs => ?_, fun _ => .inl (by intro h; cases h), fun _ => ⟨_, rfl⟩⟩
    cases hs
    exact .address (hexOf_num n)
  | none_ =>
    cases a.value with
    | num n =>
      refine ⟨fun s hs => ?_, fun _ => .inr (by intro h; cases h), fun _ => ⟨_, rfl⟩⟩
      cases hs
      exact .number (signedHex_num n)
    | bytes b =>
      refine ⟨fun s hs => ?_, fun _ => .inr (by intro h; cases h), fun _ => ⟨_, rfl⟩⟩
      cases hs
      exact .block (blockText_hex b)
    | true_ =>
      refine ⟨fun s hs => ?_, fun _ => .inr (by intro h; cases h), fun _ => ⟨_, rfl⟩⟩
      have : s = str "0x1" := by
        have h1 : (hexNum 1) = str "0x1" := by decide
        rw [← h1]
        cases hs
        rfl
      rw [this]
      exact .flag
    | none_ =>
      refine ⟨fun s hs => (by cases hs), fun ⟨s, hs⟩ => (by cases hs), fun h => ?_⟩
      rcases h with h | h <;> exact absurd rfl h

/-- **C51** (violated) an attribute that was evaluated once and whose text was not made before has none any more: `KeyError`. -/
theorem C51_eval_then_text (e : ElfFile) (a : DAttr) (v : EVal) (h : e.evalAttr a.form a.value = .ok v) :
    (e.getAttrEval ⟨a, none, none⟩).1 = .ok v ∧ (e.getAttrStr (e.getAttrEval ⟨a, none, none⟩).2).1 = .error .keyError := by
  unfold ElfFile.getAttrStr ElfFile.getAttrEval
  simp only [h, and_self]

example (e : ElfFile) : e.evalAttr 0x0a (.bytes [0x3c, 7]) = .ok .none_ ∧ BlockText [0x3c, 7] (str "3c07") := by
  refine ⟨by simp [ElfFile.evalAttr], ?_⟩
  exact ⟨'3', 'c', _, rfl, by decide, by decide, '0', '7', _, rfl, by decide, by decide, rfl⟩

end EspSize
