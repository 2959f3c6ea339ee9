import Verif.Spec.JsonDump
import Verif.Proofs.Json
import Verif.Proofs.Dict
import Verif.Spec.Json
import Verif.Proofs.JsonSound
/-! # What `json.dumps` writes is JSON text -/
namespace EspSize

theorem hexDigit_char : ∀ d : Fin 16, HexDigit d.val (hexChar d) := by
  intro d
  by_cases h : d.val < 10
  · have : hexChar d = Char.ofNat (48 + d.val) := by unfold hexChar; rw [if_pos h]
    rw [this]
    exact .dec h
  · have : hexChar d = Char.ofNat (97 + (d.val - 10)) := by
      unfold hexChar
      rw [if_neg h, show 87 + d.val = 97 + (d.val - 10) by omega]
    rw [this, show d.val = 10 + (d.val - 10) by omega]
    simp only [show 10 + (d.val - 10) - 10 = d.val - 10 by omega]
    exact .low (by omega)

theorem hexDigit_mod (n : Nat) : HexDigit (n % 16) (hexChar (n % 16)) := hexDigit_char ⟨n % 16, Nat.mod_lt _ (by decide)⟩

theorem unitText_escape (n : Nat) (h : n < 0x10000) : UnitText n (uEscape n) := by
  have := UnitText.mk (hexDigit_mod (n / 4096)) (hexDigit_mod (n / 256)) (hexDigit_mod (n / 16)) (hexDigit_mod n)
  have e : n / 4096 % 16 * 16 ^ 3 + n / 256 % 16 * 16 ^ 2 + n / 16 % 16 * 16 + n % 16 = n := by omega
  rw [e] at this
  exact this

theorem charText_escape (c : Char) : CharText c (escapeChar c) := by
  unfold escapeChar
  split
  · rename_i h; rw [h]; exact .quote
  split
  · rename_i h; rw [h]; exact .backslash
  split
  · rename_i h; rw [h]; exact .n
  split
  · rename_i h; rw [h]; exact .r
  split
  · rename_i h; rw [h]; exact .t
  split
  · rename_i h; rw [show c = Char.ofNat 12 by rw [← h, Char.ofNat_toNat]]; exact .f
  split
  · rename_i h; rw [show c = Char.ofNat 8 by rw [← h, Char.ofNat_toNat]]; exact .b
  split
  · rename_i h1 h2 _ _ _ _ _ h; exact .plain (by omega) h1 h2
  split
  · rename_i h; exact .unit (unitText_escape _ h)
  · rename_i h
    have hc : c.toNat < 0x110000 := by
      have := c.valid
      have e : c.toNat = c.val.toNat := rfl
      rcases this with h | h
      · rw [e]; omega
      · rw [e]; exact h.2
    exact .pair (unitText_escape _ (by omega)) (unitText_escape _ (by omega)) (by omega) (by omega) (by omega) (by omega) (by omega)

theorem stringText_jsonStr (s : Str) : StringText s (jsonStr s) := by
  unfold jsonStr
  refine .mk (s := s.flatMap escapeChar) ?_
  induction s with
  | nil => exact .nil
  | cons c s ih => rw [List.flatMap_cons]; exact .cons (charText_escape c) ih

theorem digitChar_ofNat : ∀ k < 10, Nat.digitChar k = Char.ofNat (48 + k) := by decide

theorem toDigits_snoc {n : Nat} (h : 10 ≤ n) : Nat.toDigits 10 n = Nat.toDigits 10 (n / 10) ++ [Nat.digitChar (n % 10)] := by
  rw [Nat.toDigits_eq_if (by decide)]
  rw [if_neg (by omega)]

theorem digitsText_toDigits (n : Nat) : DigitsText n (Nat.toDigits 10 n) := by
  induction n using Nat.strongRecOn with
  | _ n ih =>
    by_cases h : n < 10
    · rw [Nat.toDigits_of_lt_base h, digitChar_ofNat n h]
      exact .one h
    · rw [toDigits_snoc (by omega), digitChar_ofNat _ (Nat.mod_lt _ (by decide))]
      have := DigitsText.snoc (ih (n / 10) (by omega)) (Nat.mod_lt n (by decide : 10 > 0))
      rw [show n / 10 * 10 + n % 10 = n by omega] at this
      exact this

theorem toDigits_zero (n : Nat) : Nat.toDigits 10 n = ['0'] ∨ ¬ ['0'] <+: Nat.toDigits 10 n := by
  induction n using Nat.strongRecOn with
  | _ n ih =>
    by_cases h : n < 10
    · rw [Nat.toDigits_of_lt_base h]
      have : ∀ k < 10, [Nat.digitChar k] = ['0'] ∨ ¬ ['0'] <+: [Nat.digitChar k] := by decide
      exact this n h
    · right
      rw [toDigits_snoc (by omega)]
      have hne : Nat.toDigits 10 (n / 10) ≠ [] := (digits_text (digitsText_toDigits _)).1
      rcases ih (n / 10) (by omega) with h0 | h0
      · exfalso
        have hv := (digits_text (digitsText_toDigits (n / 10))).2.2
        rw [h0] at hv
        have : digitsVal ['0'] = 0 := by decide
        omega
      · intro hp
        apply h0
        cases hd : Nat.toDigits 10 (n / 10) with
        | nil => exact absurd hd hne
        | cons a t =>
          rw [hd] at hp
          obtain ⟨r, hr⟩ := hp
          simp only [List.cons_append, List.nil_append, List.cons.injEq] at hr
          exact ⟨t, by rw [hr.1]; rfl⟩

theorem intText_int (i : Int) : JText (.value (.int i)) (intStr i) := by
  cases i with
  | ofNat n =>
    have e := intStr_natCast n
    show JText (.value (.int (n : Int))) (intStr (n : Int))
    rw [e]
    exact .nat ⟨digitsText_toDigits n, toDigits_zero n⟩
  | negSucc n =>
    show JText (.value (.int (-((n + 1 : Nat) : Int)))) (intStr (-((n + 1 : Nat) : Int)))
    rw [intStr_neg]
    exact .neg ⟨digitsText_toDigits _, toDigits_zero _⟩

theorem blank_nl (lvl : Nat) : JsonBlank (jsonNl lvl) := by
  intro c hc
  unfold jsonNl at hc
  rcases List.mem_cons.mp hc with h | h
  · exact .inr (.inr (.inl h))
  · exact .inl (List.mem_replicate.mp h).2

theorem jsonBlank_one : JsonBlank [' '] := by intro c hc; exact .inl (List.mem_singleton.mp hc)

theorem dictOf_snoc {α : Type} : ∀ (l : List (Str × α)) (d : Dict Str α), (dkeys d ++ l.map (·.1)).Nodup →
    l.foldl (fun d p => dset d p.1 p.2) d = d ++ l
  | [], d, _ => by simp
  | p :: l, d, h => by
    have hp : p.1 ∉ dkeys d := by
      intro hm
      rw [List.nodup_append] at h
      exact h.2.2 _ hm _ (by simp) rfl
    rw [List.foldl_cons, dset_of_not_mem hp, dictOf_snoc l (d ++ [(p.1, p.2)])]
    · simp
    · unfold dkeys at h ⊢
      simpa using h

theorem dictOf_nodup {α : Type} {l : List (Str × α)} (h : (l.map (·.1)).Nodup) : dictOf l = l := by
  unfold dictOf
  rw [dictOf_snoc l [] (by simpa [dkeys] using h)]
  rfl

theorem loadedMembers_keys (l : List (Str × Json)) : (loadedMembers l).map (·.1) = l.map (·.1) := by
  induction l with
  | nil => rw [loadedMembers]; rfl
  | cons p l ih => rw [loadedMembers, List.map_cons, List.map_cons, ih, loadedPair]

mutual
theorem dump_text (lvl : Nat) (v : Json) (hd : v.Distinct) : JText (.value v.loaded) (v.dump lvl) := by
  match v with
  | .int i => unfold Json.dump Json.loaded; exact intText_int i
  | .str s => unfold Json.dump Json.loaded; exact .str (stringText_jsonStr s)
  | .arr l =>
    unfold Json.Distinct at hd
    have := items_text (lvl + 1) l hd (jsonNl lvl) (blank_nl lvl)
    unfold Json.dump Json.loaded
    cases l with
    | nil => exact .arr0 jsonBlank_nil
    | cons x t =>
      simp only [List.isEmpty_cons, Bool.false_eq_true, if_false]
      exact .arr (this (by simp))
  | .obj l =>
    unfold Json.Distinct at hd
    have := members_text (lvl + 1) l hd.2 (jsonNl lvl) (blank_nl lvl)
    have hk := hd.1
    unfold Json.dump Json.loaded
    cases l with
    | nil => exact .obj0 jsonBlank_nil
    | cons x t =>
      simp only [List.isEmpty_cons, Bool.false_eq_true, if_false]
      have ho := JText.obj (this (by simp))
      rw [dictOf_nodup (by rw [loadedMembers_keys]; exact hk)] at ho
      exact ho
termination_by structural v
theorem items_text (lvl : Nat) (l : List Json) (hd : itemsDistinct l) (w : Str) (hw : JsonBlank w) (hne : l ≠ []) :
    JText (.items (loadedItems l)) (dumpItems lvl l ++ w) := by
  match l with
  | [] => exact absurd rfl hne
  | x :: t =>
    unfold itemsDistinct at hd
    have hx := dump_text lvl x hd.1
    have ht := items_text lvl t hd.2 w hw
    cases t with
    | nil =>
      rw [dumpItems, loadedItems, dumpItems, loadedItems]
      have := JText.item (blank_nl lvl) hx hw
      simpa using this
    | cons y t =>
      rw [dumpItems, loadedItems]
      have := JText.moreItems (blank_nl lvl) hx jsonBlank_nil (ht (by simp))
      simpa using this
termination_by structural l
theorem members_text (lvl : Nat) (l : List (Str × Json)) (hd : membersDistinct l) (w : Str) (hw : JsonBlank w) (hne : l ≠ []) :
    JText (.members (loadedMembers l)) (dumpMembers lvl l ++ w) := by
  match l with
  | [] => exact absurd rfl hne
  | x :: t =>
    unfold membersDistinct at hd
    have hx := pair_text lvl x hd.1
    have ht := members_text lvl t hd.2 w hw
    obtain ⟨k, s, v, h0, h1, h2⟩ := hx
    cases t with
    | nil =>
      rw [dumpMembers, loadedMembers, dumpMembers, loadedMembers, h0, h1]
      have := JText.member (blank_nl lvl) (stringText_jsonStr k) jsonBlank_nil jsonBlank_one h2 hw
      simpa using this
    | cons y t =>
      rw [dumpMembers, loadedMembers, h0, h1]
      have := JText.moreMembers (blank_nl lvl) (stringText_jsonStr k) jsonBlank_nil jsonBlank_one h2 jsonBlank_nil (ht (by simp))
      simpa using this
termination_by structural l
theorem pair_text (lvl : Nat) (p : Str × Json) (hd : pairDistinct p) : ∃ k s v, loadedPair p = (k, v) ∧ dumpMember lvl p = jsonStr k ++ ':' :: ' ' :: s ∧
    JText (.value v) s := by
  match p with
  | (k, x) => exact ⟨k, x.dump lvl, x.loaded, by rw [loadedPair], by rw [dumpMember], dump_text lvl x (by unfold pairDistinct at hd; exact hd)⟩
termination_by structural p
end

/-- `json.loads` reads what `json.dumps` wrote. -/
theorem dumps_text (v : Json) (hd : v.Distinct) {w : Str} (hw : JsonBlank w) : JsonText v.loaded (jsonDumps v ++ w) :=
  ⟨[], jsonDumps v, w, jsonBlank_nil, dump_text 0 v hd, hw, rfl⟩

end EspSize
