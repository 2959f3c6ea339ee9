import Verif.Proofs.JsonLoad
/-! # `json.loads` accepts nothing but JSON texts -/
namespace EspSize

theorem blank_split (s : Str) : ∃ w, JsonBlank w ∧ s = w ++ dropWs s := by
  refine ⟨s.takeWhile loadWs, fun c hc => ?_, (List.takeWhile_append_dropWhile ..).symm⟩
  have := List.all_eq_true.mp List.all_takeWhile c hc
  simpa [loadWs, or_assoc] using this

theorem loadHex_sound {c : Char} {k : Nat} (h : loadHex c = some k) : HexDigit k c := by
  have hc : c = Char.ofNat c.toNat := (Char.ofNat_toNat c).symm
  unfold loadHex at h
  split at h
  · rename_i hr
    have h1 : 48 ≤ c.toNat := hr.1
    have h2 : c.toNat ≤ 57 := hr.2
    cases h
    have := HexDigit.dec (k := c.toNat - 48) (by omega)
    rwa [show 48 + (c.toNat - 48) = c.toNat by omega, ← hc] at this
  · split at h
    · rename_i hr
      have h1 : 97 ≤ c.toNat := hr.1
      have h2 : c.toNat ≤ 102 := hr.2
      cases h
      have := HexDigit.low (k := c.toNat - 97) (by omega)
      rwa [show 97 + (c.toNat - 97) = c.toNat by omega, ← hc, show 10 + (c.toNat - 97) = c.toNat - 87 by omega] at this
    · split at h
      · rename_i hr
        have h1 : 65 ≤ c.toNat := hr.1
        have h2 : c.toNat ≤ 70 := hr.2
        cases h
        have := HexDigit.upp (k := c.toNat - 65) (by omega)
        rwa [show 65 + (c.toNat - 65) = c.toNat by omega, ← hc, show 10 + (c.toNat - 65) = c.toNat - 55 by omega] at this
      · cases h

theorem loadHex4_sound {s r : Str} {n : Nat} (h : loadHex4 s = some (n, r)) : ∃ t, s = t ++ r ∧ UnitText n ('\\' :: 'u' :: t) ∧ n < 0x10000 := by
  unfold loadHex4 at h
  split at h
  · rename_i a b c d t
    split at h
    · rename_i a' b' c' d' h1 h2 h3 h4
      cases h
      have g1 := loadHex_sound h1; have g2 := loadHex_sound h2; have g3 := loadHex_sound h3; have g4 := loadHex_sound h4
      have lt : ∀ {k c}, HexDigit k c → k < 16 := by intro k c h; cases h <;> omega
      have l1 := lt g1; have l2 := lt g2; have l3 := lt g3; have l4 := lt g4
      exact ⟨[a, b, c, d], rfl, UnitText.mk g1 g2 g3 g4, by omega⟩
    · cases h
  · cases h

theorem toNat_ofNat {n : Nat} (h : n < 0xD800 ∨ (0xDFFF < n ∧ n < 0x110000)) : (Char.ofNat n).toNat = n := by
  have hv : n.isValidChar := h
  unfold Char.ofNat
  rw [dif_pos hv]
  rfl

theorem loadUnicode_sound {s r : Str} {c : Char} (h : loadUnicode s = some (c, r)) : ∃ t, s = t ++ r ∧ CharText c ('\\' :: 'u' :: t) := by
  unfold loadUnicode at h
  split at h
  · rename_i n t hn
    obtain ⟨u, rfl, hu, hlt⟩ := loadHex4_sound hn
    split at h
    · rename_i hr
      unfold loadLow at h
      split at h
      · rename_i t
        split at h
        · rename_i lo r' hlo
          split at h
          · rename_i hr2
            simp only [Option.some.injEq, Prod.mk.injEq] at h
            obtain ⟨rfl, rfl⟩ := h
            obtain ⟨v, rfl, hv, _⟩ := loadHex4_sound hlo
            refine ⟨u ++ '\\' :: 'u' :: v, by simp, ?_⟩
            have := CharText.pair (c := Char.ofNat (0x10000 + ((n - 0xD800) * 1024 + (lo - 0xDC00)))) hu hv hr.1 (by omega) hr2.1 (by omega)
              (by rw [toNat_ofNat (by omega)]; omega)
            simpa using this
          · cases h
        · cases h
      · cases h
    · split at h
      · cases h
      · cases h
        refine ⟨u, rfl, .unit ?_⟩
        rw [toNat_ofNat (by omega)]
        exact hu
  · cases h

theorem backslashed_sound {e x : Char} (h : backslashed e = some x) : CharText x ['\\', e] := by
  unfold backslashed at h
  repeat' split at h
  all_goals first
    | cases h; done
    | (rename_i he; cases h; subst he; constructor)

theorem loadChar_sound {s r : Str} {c : Char} (h : loadChar s = some (c, r)) (hq : ∀ u, s ≠ '"' :: u) : ∃ t, s = t ++ r ∧ CharText c t := by
  unfold loadChar at h
  split at h
  · cases h
  · rename_i d t
    split at h
    · rename_i hd
      subst hd
      split at h
      · cases h
      · rename_i e u
        split at h
        · rename_i he
          subst he
          obtain ⟨v, rfl, hv⟩ := loadUnicode_sound h
          exact ⟨_, rfl, hv⟩
        · cases hb : backslashed e with
          | none => rw [hb] at h; cases h
          | some x =>
            rw [hb] at h
            cases h
            exact ⟨_, rfl, backslashed_sound hb⟩
    · rename_i hd
      split at h
      · cases h
      · rename_i hc
        cases h
        exact ⟨[c], rfl, .plain (by omega) (fun e => hq r (by rw [e])) hd⟩

theorem loadStr_sound {n : Nat} : ∀ {s x r : Str}, loadStr n s = some (x, r) → ∃ t, s = t ++ '"' :: r ∧ CharsText x t := by
  induction n with
  | zero => intro s x r h; cases h
  | succ n ih =>
    intro s x r h
    unfold loadStr at h
    split at h
    · cases h
      exact ⟨[], rfl, .nil⟩
    · rename_i hq
      split at h
      · cases h
      · rename_i c t hc
        split at h
        · cases h
        · rename_i cs r' hr
          cases h
          obtain ⟨u, rfl, hu⟩ := loadChar_sound hc hq
          obtain ⟨v, rfl, hv⟩ := ih hr
          exact ⟨u ++ v, by simp, .cons hu hv⟩

theorem digit_sound {c : Char} (h : asciiDigit c = true) : ∃ k < 10, c = Char.ofNat (48 + k) ∧ c.toNat - 48 = k := by
  simp only [asciiDigit, Bool.and_eq_true, decide_eq_true_eq] at h
  have h1 : 48 ≤ c.toNat := h.1
  have h2 : c.toNat ≤ 57 := h.2
  refine ⟨c.toNat - 48, by omega, ?_, rfl⟩
  rw [show 48 + (c.toNat - 48) = c.toNat by omega]
  exact (Char.ofNat_toNat c).symm

theorem digits_snoc {n : Nat} : ∀ {t s : Str}, (∀ c ∈ t, asciiDigit c = true) → DigitsText n s →
    DigitsText (t.foldl (fun n c => n * 10 + (c.toNat - 48)) n) (s ++ t) := by
  intro t
  induction t generalizing n with
  | nil => intro s _ h; simpa using h
  | cons c t ih =>
    intro s ht h
    obtain ⟨k, hk, hc, hv⟩ := digit_sound (ht c (by simp))
    have := ih (fun d hd => ht d (by simp [hd])) (DigitsText.snoc h hk)
    rw [List.foldl_cons, hv]
    rw [← hc, List.append_assoc] at this
    exact this

theorem digits_sound {s : Str} (hne : s ≠ []) (h : ∀ c ∈ s, asciiDigit c = true) : DigitsText (digitsVal s) s := by
  cases s with
  | nil => exact absurd rfl hne
  | cons c t =>
    obtain ⟨k, hk, hc, hv⟩ := digit_sound (h c (by simp))
    have := digits_snoc (t := t) (fun d hd => h d (by simp [hd])) (DigitsText.one hk)
    unfold digitsVal
    rw [List.foldl_cons, hv, Nat.zero_mul, Nat.zero_add]
    rw [← hc] at this
    exact this

theorem takeDigits_sound (s : Str) : ∀ c ∈ s.takeWhile asciiDigit, asciiDigit c = true := fun c hc =>
  List.all_eq_true.mp List.all_takeWhile c hc

theorem scanDigits_sound {s ds r : Str} (h : scanDigits s = some (ds, r)) : s = ds ++ r ∧ IntText (digitsVal ds) ds := by
  unfold scanDigits at h
  split at h
  · cases h
    exact ⟨rfl, digits_sound (by simp) (by decide), .inl rfl⟩
  · rename_i hz
    split at h
    · cases h
    · rename_i hne
      cases h
      refine ⟨(List.takeWhile_append_dropWhile ..).symm, digits_sound (fun e => hne e) (takeDigits_sound s), .inr ?_⟩
      rintro ⟨u, hu⟩
      cases s with
      | nil => simp at hu
      | cons c s =>
        rw [List.takeWhile_cons] at hu
        split at hu
        · exact hz s (by rw [← (List.cons.inj hu).1])
        · simp at hu

theorem scanFrac_sound (s : Str) : s = (scanFrac s).1 ++ (scanFrac s).2 ∧ ((scanFrac s).1 = [] ∨ FracText (scanFrac s).1) := by
  unfold scanFrac
  split
  · rename_i t
    split
    · exact ⟨rfl, .inl rfl⟩
    · rename_i hne
      exact ⟨by simp, .inr ⟨_, _, digits_sound (fun e => hne e) (takeDigits_sound t), rfl⟩⟩
  · exact ⟨rfl, .inl rfl⟩

theorem scanSign_sound (s : Str) : s = (scanSign s).1 ++ (scanSign s).2 ∧ ((scanSign s).1 = [] ∨ (scanSign s).1 = ['-'] ∨ (scanSign s).1 = ['+']) := by
  unfold scanSign
  split <;> simp

theorem scanExp_sound (s : Str) : s = (scanExp s).1 ++ (scanExp s).2 ∧ ((scanExp s).1 = [] ∨ ExpText (scanExp s).1) := by
  cases s with
  | nil => exact ⟨rfl, .inl rfl⟩
  | cons c t =>
    simp only [scanExp]
    split
    · rename_i hc
      split
      · exact ⟨rfl, .inl rfl⟩
      · rename_i hne
        obtain ⟨h1, h2⟩ := scanSign_sound t
        refine ⟨?_, .inr ⟨_, _, c, _, digits_sound (fun e => hne e) (takeDigits_sound _), hc, h2, rfl⟩⟩
        have : t = (scanSign t).1 ++ ((scanSign t).2.takeWhile asciiDigit ++ (scanSign t).2.dropWhile asciiDigit) := by
          rw [List.takeWhile_append_dropWhile]; exact h1
        simp only [List.cons_append, List.append_assoc]
        rw [← this]
    · exact ⟨rfl, .inl rfl⟩

theorem scanNumber_sound {neg : Bool} {s r : Str} {v : JVal} (h : scanNumber neg s = some (v, r)) :
    ∃ t, s = t ++ r ∧ JText (.value v) ((if neg then ['-'] else []) ++ t) := by
  unfold scanNumber at h
  split at h
  · cases h
  · rename_i ds r' hd
    obtain ⟨rfl, hi⟩ := scanDigits_sound hd
    obtain ⟨f1, f2⟩ := scanFrac_sound r'
    obtain ⟨e1, e2⟩ := scanExp_sound (scanFrac r').2
    simp only at h
    split at h
    · rename_i hfe
      rw [hfe.1] at f1
      rw [hfe.2] at e1
      cases h
      refine ⟨ds, ?_, ?_⟩
      · rw [List.nil_append] at f1 e1
        rw [← e1, ← f1]
      · cases neg with
        | true => exact .neg hi
        | false => exact .nat hi
    · rename_i hfe
      cases h
      refine ⟨ds ++ (scanFrac r').1 ++ (scanExp (scanFrac r').2).1, ?_, ?_⟩
      · rw [List.append_assoc, List.append_assoc, ← e1, ← f1]
      · have := JText.float (m := if neg then ['-'] else []) (by cases neg <;> simp) hi f2 e2 hfe
        simpa only [List.append_assoc] using this

theorem scanWord_sound {w s r : Str} {x v : JVal} (h : scanWord w x s = some (v, r)) : v = x ∧ s = w ++ r := by
  unfold scanWord at h
  split at h
  · rename_i hp
    cases h
    refine ⟨rfl, ?_⟩
    obtain ⟨t, rfl⟩ := (show w <+: s by simpa [startsWith] using hp)
    simp
  · cases h

theorem scanAtom_sound {s r : Str} {v : JVal} (h : scanAtom s = some (v, r)) : ∃ t, s = t ++ r ∧ JText (.value v) t := by
  unfold scanAtom at h
  split at h
  · obtain ⟨rfl, e⟩ := scanWord_sound h; exact ⟨_, e, .null⟩
  · obtain ⟨rfl, e⟩ := scanWord_sound h; exact ⟨_, e, .true_⟩
  · obtain ⟨rfl, e⟩ := scanWord_sound h; exact ⟨_, e, .false_⟩
  · obtain ⟨rfl, e⟩ := scanWord_sound h; exact ⟨_, e, .word (by simp)⟩
  · obtain ⟨rfl, e⟩ := scanWord_sound h; exact ⟨_, e, .word (by simp)⟩
  · split at h
    · rename_i hn
      cases h
      obtain ⟨t, rfl, ht⟩ := scanNumber_sound hn
      exact ⟨_, rfl, ht⟩
    · obtain ⟨rfl, e⟩ := scanWord_sound h; exact ⟨_, e, .word (by simp)⟩
  · obtain ⟨t, rfl, ht⟩ := scanNumber_sound h
    exact ⟨t, rfl, ht⟩

theorem jsonBlank_append {a b : Str} (ha : JsonBlank a) (hb : JsonBlank b) : JsonBlank (a ++ b) := fun c hc =>
  (List.mem_append.mp hc).elim (ha c) (hb c)

/-- Blanks before a text of items or members. -/
theorem jtext_blank {w : Str} (hw : JsonBlank w) {j : JNode} {s : Str} (h : JText j s) (hj : ∀ v, j ≠ .value v) : JText j (w ++ s) := by
  cases h with
  | item h1 h2 h3 => rw [← List.append_assoc, ← List.append_assoc]; exact .item (jsonBlank_append hw h1) h2 h3
  | moreItems h1 h2 h3 h4 =>
    have := JText.moreItems (jsonBlank_append hw h1) h2 h3 h4
    simpa using this
  | member h1 h2 h3 h4 h5 h6 =>
    have := JText.member (jsonBlank_append hw h1) h2 h3 h4 h5 h6
    simpa using this
  | moreMembers h1 h2 h3 h4 h5 h6 h7 =>
    have := JText.moreMembers (jsonBlank_append hw h1) h2 h3 h4 h5 h6 h7
    simpa using this
  | _ => exact absurd rfl (hj _)

theorem jsonBlank_nil : JsonBlank [] := fun _ hc => (nomatch hc)

theorem scan_sound (n : Nat) : (∀ {s r v}, scanOnce n s = some (v, r) → ∃ t, s = t ++ r ∧ JText (.value v) t) ∧
    (∀ {s r l}, scanItems n s = some (l, r) → ∃ t, s = t ++ ']' :: r ∧ JText (.items l) t) ∧
    (∀ {s r l}, scanPairs n s = some (l, r) → ∃ t, s = t ++ '}' :: r ∧ JText (.members l) t) := by
  induction n with
  | zero =>
    refine ⟨?_, ?_, ?_⟩ <;> intro s r v h
    · rw [scanOnce] at h; cases h
    · rw [scanItems] at h; cases h
    · rw [scanPairs] at h; cases h
  | succ n ih =>
    obtain ⟨ih1, ih2, ih3⟩ := ih
    refine ⟨?_, ?_, ?_⟩
    · intro s r v h
      unfold scanOnce at h
      split at h
      · rename_i t
        cases hl : loadStr n t with
        | none => rw [hl] at h; cases h
        | some p =>
          obtain ⟨x, r'⟩ := p
          rw [hl] at h
          cases h
          obtain ⟨u, rfl, hu⟩ := loadStr_sound hl
          exact ⟨'"' :: u ++ ['"'], by simp, .str ⟨hu⟩⟩
      · rename_i t
        obtain ⟨w, hw, ht⟩ := blank_split t
        split at h
        · rename_i r' hd
          cases h
          rw [hd] at ht
          exact ⟨'{' :: w ++ ['}'], by rw [ht]; simp, .obj0 hw⟩
        · cases hl : scanPairs n (dropWs t) with
          | none => rw [hl] at h; cases h
          | some p =>
            obtain ⟨x, r'⟩ := p
            rw [hl] at h
            cases h
            obtain ⟨u, hu, hj⟩ := ih3 hl
            rw [hu] at ht
            exact ⟨'{' :: (w ++ u) ++ ['}'], by rw [ht]; simp, .obj (jtext_blank hw hj (by simp))⟩
      · rename_i t
        obtain ⟨w, hw, ht⟩ := blank_split t
        split at h
        · rename_i r' hd
          cases h
          rw [hd] at ht
          exact ⟨'[' :: w ++ [']'], by rw [ht]; simp, .arr0 hw⟩
        · cases hl : scanItems n (dropWs t) with
          | none => rw [hl] at h; cases h
          | some p =>
            obtain ⟨x, r'⟩ := p
            rw [hl] at h
            cases h
            obtain ⟨u, hu, hj⟩ := ih2 hl
            rw [hu] at ht
            exact ⟨'[' :: (w ++ u) ++ [']'], by rw [ht]; simp, .arr (jtext_blank hw hj (by simp))⟩
      · exact scanAtom_sound h
    · intro s r l h
      unfold scanItems at h
      split at h
      · cases h
      · rename_i x t hx
        obtain ⟨u, rfl, hu⟩ := ih1 hx
        obtain ⟨w, hw, ht⟩ := blank_split t
        split at h
        · rename_i r' hd
          cases h
          rw [hd] at ht
          exact ⟨[] ++ u ++ w, by rw [ht]; simp, .item jsonBlank_nil hu hw⟩
        · rename_i r' hd
          rw [hd] at ht
          cases hl : scanItems n (dropWs r') with
          | none => rw [hl] at h; cases h
          | some p =>
            obtain ⟨y, r''⟩ := p
            rw [hl] at h
            cases h
            obtain ⟨u2, hu2, hj⟩ := ih2 hl
            obtain ⟨w2, hw2, ht2⟩ := blank_split r'
            rw [hu2] at ht2
            exact ⟨[] ++ u ++ w ++ ',' :: (w2 ++ u2), by rw [ht, ht2]; simp, .moreItems jsonBlank_nil hu hw (jtext_blank hw2 hj (by simp))⟩
        · cases h
    · intro s r l h
      unfold scanPairs at h
      split at h
      · rename_i t
        split at h
        · cases h
        · rename_i k t' hk
          obtain ⟨ks, rfl, hks⟩ := loadStr_sound hk
          obtain ⟨w2, hw2, ht2⟩ := blank_split t'
          split at h
          · rename_i t3 hd
            rw [hd] at ht2
            obtain ⟨w3, hw3, ht3⟩ := blank_split t3
            split at h
            · cases h
            · rename_i x t4 hx
              obtain ⟨u, hu', hu⟩ := ih1 hx
              rw [hu'] at ht3
              obtain ⟨w4, hw4, ht4⟩ := blank_split t4
              split at h
              · rename_i r' hd4
                cases h
                rw [hd4] at ht4
                exact ⟨[] ++ ('"' :: ks ++ ['"']) ++ w2 ++ ':' :: w3 ++ u ++ w4, by rw [ht2, ht3, ht4]; simp,
                  .member jsonBlank_nil ⟨hks⟩ hw2 hw3 hu hw4⟩
              · rename_i r' hd4
                rw [hd4] at ht4
                cases hl : scanPairs n (dropWs r') with
                | none => rw [hl] at h; cases h
                | some p =>
                  obtain ⟨y, r''⟩ := p
                  rw [hl] at h
                  cases h
                  obtain ⟨u2, hu2, hj⟩ := ih3 hl
                  obtain ⟨w5, hw5, ht5⟩ := blank_split r'
                  rw [hu2] at ht5
                  exact ⟨[] ++ ('"' :: ks ++ ['"']) ++ w2 ++ ':' :: w3 ++ u ++ w4 ++ ',' :: (w5 ++ u2), by rw [ht2, ht3, ht4, ht5]; simp,
                    .moreMembers jsonBlank_nil ⟨hks⟩ hw2 hw3 hu hw4 (jtext_blank hw5 hj (by simp))⟩
              · cases h
          · cases h
      · cases h

/-- `json.loads` returns a value exactly for the texts of the grammar. -/
theorem jsonLoads_iff {v : JVal} {s : Str} : jsonLoads s = some v ↔ JsonText v s := by
  refine ⟨fun h => ?_, jsonLoads_text⟩
  unfold jsonLoads at h
  split at h
  · rename_i x r hx
    split at h
    · rename_i hr
      cases h
      obtain ⟨t, ht, hj⟩ := (scan_sound _).1 hx
      obtain ⟨w, hw, hs⟩ := blank_split s
      obtain ⟨w', hw', hs'⟩ := blank_split r
      rw [hr, List.append_nil] at hs'
      subst hs'
      exact ⟨w, t, r, hw, hj, hw', by rw [List.append_assoc, ← ht]; exact hs⟩
    · cases h
  · cases h

end EspSize
