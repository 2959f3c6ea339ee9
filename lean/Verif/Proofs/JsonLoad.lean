import Verif.Spec.JsonText
/-! # The decoder reads every JSON text -/
namespace EspSize

theorem dropWs_blank {w : Str} (h : JsonBlank w) (t : Str) : dropWs (w ++ t) = dropWs t := by
  induction w with
  | nil => rfl
  | cons c w ih =>
    have hc : loadWs c = true := by
      rcases h c (by simp) with rfl | rfl | rfl | rfl <;> rfl
    have := ih fun d hd => h d (by simp [hd])
    simp only [dropWs, List.cons_append, List.dropWhile_cons, hc, if_true] at this ⊢
    exact this

theorem dropWs_head {c : Char} {t : Str} (h : loadWs c = false) : dropWs (c :: t) = c :: t := by
  simp [dropWs, h]

theorem loadHex_digit {k : Nat} {c : Char} (h : HexDigit k c) : loadHex c = some k := by
  cases h with
  | dec h => exact (by decide : ∀ k < 10, loadHex (Char.ofNat (48 + k)) = some k) _ h
  | low h => exact (by decide : ∀ k < 6, loadHex (Char.ofNat (97 + k)) = some (10 + k)) _ h
  | upp h => exact (by decide : ∀ k < 6, loadHex (Char.ofNat (65 + k)) = some (10 + k)) _ h

theorem loadHex4_unit {n : Nat} {s : Str} (h : UnitText n s) : ∃ r, s = '\\' :: 'u' :: r ∧ ∀ t, loadHex4 (r ++ t) = some (n, t) := by
  cases h with
  | mk ha hb hc hd =>
    refine ⟨_, rfl, fun t => ?_⟩
    simp only [List.cons_append, List.nil_append, loadHex4, loadHex_digit ha, loadHex_digit hb, loadHex_digit hc, loadHex_digit hd]

theorem loadChar_text {c : Char} {s : Str} (h : CharText c s) : (∃ d r, s = d :: r ∧ d ≠ '"') ∧ ∀ t, loadChar (s ++ t) = some (c, t) := by
  cases h with
  | plain h1 h2 h3 =>
    refine ⟨⟨_, _, rfl, h2⟩, fun t => ?_⟩
    simp only [List.cons_append, List.nil_append, loadChar, h3, if_false]
    rw [if_neg (by omega)]
  | quote => exact ⟨⟨_, _, rfl, by decide⟩, fun t => by simp [loadChar, backslashed]⟩
  | backslash => exact ⟨⟨_, _, rfl, by decide⟩, fun t => by simp [loadChar, backslashed]⟩
  | slash => exact ⟨⟨_, _, rfl, by decide⟩, fun t => by simp [loadChar, backslashed]⟩
  | b => exact ⟨⟨_, _, rfl, by decide⟩, fun t => by simp [loadChar, backslashed]⟩
  | f => exact ⟨⟨_, _, rfl, by decide⟩, fun t => by simp [loadChar, backslashed]⟩
  | n => exact ⟨⟨_, _, rfl, by decide⟩, fun t => by simp [loadChar, backslashed]⟩
  | r => exact ⟨⟨_, _, rfl, by decide⟩, fun t => by simp [loadChar, backslashed]⟩
  | t => exact ⟨⟨_, _, rfl, by decide⟩, fun t => by simp [loadChar, backslashed]⟩
  | unit h =>
    obtain ⟨r, rfl, hr⟩ := loadHex4_unit h
    refine ⟨⟨_, _, rfl, by decide⟩, fun t => ?_⟩
    have hv : c.toNat < 0xD800 ∨ 0xDFFF < c.toNat := by
      have := c.valid
      simp only [UInt32.isValidChar, Nat.isValidChar] at this
      simp only [Char.toNat]
      omega
    simp only [List.cons_append, loadChar, if_true, loadUnicode, hr]
    rw [if_neg (by omega), if_neg (by omega), Char.ofNat_toNat]
  | @pair _ hi lo s t h1 h2 h3 h4 h5 h6 h7 =>
    obtain ⟨r, rfl, hr⟩ := loadHex4_unit h1
    obtain ⟨q, rfl, hq⟩ := loadHex4_unit h2
    refine ⟨⟨_, _, rfl, by decide⟩, fun t => ?_⟩
    have e : 0x10000 + ((hi - 0xD800) * 1024 + (lo - 0xDC00)) = c.toNat := by omega
    simp only [List.cons_append, List.append_assoc, loadChar, if_true, loadUnicode, hr]
    rw [if_pos (by omega)]
    simp only [loadLow, hq]
    rw [if_pos (by omega), e, Char.ofNat_toNat]

theorem loadStr_text {x s : Str} (h : CharsText x s) : ∀ n t, s.length < n → loadStr n (s ++ '"' :: t) = some (x, t) := by
  induction h with
  | nil =>
    intro n t hn
    cases n with
    | zero => simp at hn
    | succ n => simp [loadStr]
  | @cons c cs s t hc _ ih =>
    intro n u hn
    obtain ⟨⟨d, r, rfl, hd⟩, hr⟩ := loadChar_text hc
    cases n with
    | zero => simp at hn
    | succ n =>
      have e : loadStr (n + 1) (d :: r ++ t ++ '"' :: u) = match loadChar (d :: r ++ (t ++ '"' :: u)) with
          | none => none
          | some (c, t) => match loadStr n t with
            | none => none
            | some (cs, r) => some (c :: cs, r) := by
        rw [List.append_assoc, List.cons_append, loadStr]
        · rfl
        · intro t ht
          injection ht with h1 _
          exact hd h1
      rw [e, hr]
      simp only
      rw [ih n u (by simp only [List.length_append, List.length_cons] at hn; omega)]

/-! ## Numbers -/

/-- A text that does not continue a number. -/
def NumEnd (t : Str) : Prop := ∀ c ∈ t.head?, asciiDigit c = false ∧ c ≠ '.' ∧ c ≠ 'e' ∧ c ≠ 'E'

theorem digit_char : ∀ k < 10, asciiDigit (Char.ofNat (48 + k)) = true ∧ (Char.ofNat (48 + k)).toNat - 48 = k := by decide

theorem digits_text {n : Nat} {s : Str} (h : DigitsText n s) : s ≠ [] ∧ (∀ c ∈ s, asciiDigit c = true) ∧ digitsVal s = n := by
  induction h with
  | one hk => exact ⟨by simp, by simpa using (digit_char _ hk).1, by simpa [digitsVal] using (digit_char _ hk).2⟩
  | @snoc n k s _ hk ih =>
    refine ⟨by simp, ?_, ?_⟩
    · intro c hc
      rcases List.mem_append.mp hc with hc | hc
      · exact ih.2.1 c hc
      · rw [List.mem_singleton.mp hc]; exact (digit_char _ hk).1
    · have := ih.2.2
      simp only [digitsVal, List.foldl_append, List.foldl_cons, List.foldl_nil] at this ⊢
      rw [this, (digit_char _ hk).2]

theorem takeDigits {s t : Str} (hs : ∀ c ∈ s, asciiDigit c = true) (ht : ∀ c ∈ t.head?, asciiDigit c = false) :
    (s ++ t).takeWhile asciiDigit = s ∧ (s ++ t).dropWhile asciiDigit = t := by
  induction s with
  | nil =>
    cases t with
    | nil => exact ⟨rfl, rfl⟩
    | cons c t =>
      have : asciiDigit c = false := ht c (by simp)
      simp [this]
  | cons d s ih =>
    have hd := hs d (by simp)
    have := ih fun c hc => hs c (by simp [hc])
    simp [hd, this]

theorem scanDigits_text {n : Nat} {s t : Str} (h : IntText n s) (ht : ∀ c ∈ t.head?, asciiDigit c = false) :
    scanDigits (s ++ t) = some (s, t) ∧ digitsVal s = n := by
  obtain ⟨hd, hz⟩ := h
  obtain ⟨hne, hall, hval⟩ := digits_text hd
  refine ⟨?_, hval⟩
  rcases hz with rfl | hz
  · rfl
  · obtain ⟨h1, h2⟩ := takeDigits hall ht
    cases s with
    | nil => exact absurd rfl hne
    | cons c s =>
      have hc : c ≠ '0' := fun e => hz ⟨s, by rw [e]; rfl⟩
      rw [List.cons_append, scanDigits]
      · rw [← List.cons_append, h1, h2]
      · intro t ht
        injection ht with e _
        exact hc e

theorem scanFrac_none {t : Str} (h : ∀ c ∈ t.head?, c ≠ '.') : scanFrac t = ([], t) := by
  cases t with
  | nil => rfl
  | cons c t =>
    rw [scanFrac]
    intro u hu
    injection hu with e _
    exact h c (by simp) e

theorem scanFrac_text {f t : Str} (h : FracText f) (ht : ∀ c ∈ t.head?, asciiDigit c = false) : scanFrac (f ++ t) = (f, t) := by
  obtain ⟨n, s, hd, rfl⟩ := h
  obtain ⟨hne, hall, _⟩ := digits_text hd
  obtain ⟨h1, h2⟩ := takeDigits hall ht
  simp only [List.cons_append, scanFrac, h1, h2]

theorem scanExp_none {t : Str} (h : ∀ c ∈ t.head?, c ≠ 'e' ∧ c ≠ 'E') : scanExp t = ([], t) := by
  cases t with
  | nil => rfl
  | cons c t =>
    have := h c (by simp)
    simp [scanExp, this.1, this.2]

theorem scanExp_text {e t : Str} (h : ExpText e) (ht : ∀ c ∈ t.head?, asciiDigit c = false) : scanExp (e ++ t) = (e, t) := by
  obtain ⟨n, s, x, sign, hd, hx, hs, rfl⟩ := h
  obtain ⟨hne, hall, _⟩ := digits_text hd
  obtain ⟨h1, h2⟩ := takeDigits hall ht
  have key : scanSign (sign ++ (s ++ t)) = (sign, s ++ t) := by
    rcases hs with rfl | rfl | rfl
    · cases s with
      | nil => exact absurd rfl hne
      | cons c s =>
        have hc := hall c (by simp)
        rw [List.nil_append, List.cons_append, scanSign]
        · intro u hu; injection hu with e _; rw [e] at hc; revert hc; decide
        · intro u hu; injection hu with e _; rw [e] at hc; revert hc; decide
    · rfl
    · rfl
  have e1 : x :: sign ++ s ++ t = x :: (sign ++ (s ++ t)) := by simp
  rw [e1]
  simp only [scanExp]
  rw [if_pos hx, key]
  simp only [h1, h2]

theorem numEnd_digit {t : Str} (h : NumEnd t) : ∀ c ∈ t.head?, asciiDigit c = false := fun c hc => (h c hc).1

theorem scanNumber_int {n : Nat} {s t : Str} (neg : Bool) (h : IntText n s) (ht : NumEnd t) :
    scanNumber neg (s ++ t) = some (.int (if neg then -(n : Int) else n), t) := by
  obtain ⟨h1, h2⟩ := scanDigits_text h (numEnd_digit ht)
  simp only [scanNumber, h1, scanFrac_none fun c hc => (ht c hc).2.1, scanExp_none fun c hc => (ht c hc).2.2, h2]
  rfl

theorem frac_head {f : Str} (h : FracText f) (t : Str) : (f ++ t).head? = some '.' := by
  obtain ⟨_, _, _, rfl⟩ := h; rfl

theorem exp_head {e : Str} (h : ExpText e) (t : Str) : ∃ c, (e ++ t).head? = some c ∧ (c = 'e' ∨ c = 'E') := by
  obtain ⟨_, _, c, _, _, hc, _, rfl⟩ := h; exact ⟨c, rfl, hc⟩

theorem scanNumber_float {n : Nat} {s f e t : Str} (neg : Bool) (h : IntText n s) (hf : f = [] ∨ FracText f) (he : e = [] ∨ ExpText e)
    (hne : ¬ (f = [] ∧ e = [])) (ht : NumEnd t) :
    scanNumber neg (s ++ (f ++ (e ++ t))) = some (.float ((if neg then ['-'] else []) ++ s ++ f ++ e), t) := by
  have he' : ∀ c ∈ (e ++ t).head?, asciiDigit c = false ∧ c ≠ '.' := by
    rcases he with rfl | he
    · exact fun c hc => ⟨(ht c hc).1, (ht c hc).2.1⟩
    · obtain ⟨d, h1, h2⟩ := exp_head he t
      intro c hc
      rw [h1] at hc
      cases hc
      rcases h2 with rfl | rfl <;> decide
  have hf' : ∀ c ∈ (f ++ (e ++ t)).head?, asciiDigit c = false := by
    rcases hf with rfl | hf
    · exact fun c hc => (he' c hc).1
    · intro c hc
      rw [frac_head hf] at hc
      cases hc
      decide
  have h1 := (scanDigits_text h hf').1
  have h2 : scanFrac (f ++ (e ++ t)) = (f, e ++ t) := by
    rcases hf with rfl | hf
    · exact scanFrac_none fun c hc => (he' c hc).2
    · exact scanFrac_text hf fun c hc => (he' c hc).1
  have h3 : scanExp (e ++ t) = (e, t) := by
    rcases he with rfl | he
    · exact scanExp_none fun c hc => (ht c hc).2.2
    · exact scanExp_text he (numEnd_digit ht)
  simp only [scanNumber, h1, h2, h3]
  rw [if_neg hne]

/-! ## Values -/

theorem scanOnce_atom {n : Nat} {c : Char} {t : Str} (h1 : c ≠ '"') (h2 : c ≠ '{') (h3 : c ≠ '[') :
    scanOnce (n + 1) (c :: t) = scanAtom (c :: t) := by
  rw [scanOnce]
  · intro u hu; injection hu with e _; exact h1 e
  · intro u hu; injection hu with e _; exact h2 e
  · intro u hu; injection hu with e _; exact h3 e

theorem digit_ne {c : Char} (h : asciiDigit c = true) (d : Char) (hd : asciiDigit d = false) : c ≠ d := by
  rintro rfl
  rw [h] at hd
  cases hd

theorem scanAtom_digit {c : Char} {t : Str} (h : asciiDigit c = true) : scanAtom (c :: t) = scanNumber false (c :: t) := by
  rw [scanAtom] <;> intro u hu <;> injection hu with e _ <;> exact digit_ne h _ (by decide) e

theorem int_head {n : Nat} {s : Str} (h : IntText n s) : ∃ c r, s = c :: r ∧ asciiDigit c = true := by
  obtain ⟨h1, h2, _⟩ := digits_text h.1
  cases s with
  | nil => exact absurd rfl h1
  | cons c r => exact ⟨c, r, rfl, h2 c (by simp)⟩

theorem scanOnce_digit {n : Nat} {c : Char} {t : Str} (h : asciiDigit c = true) : scanOnce (n + 1) (c :: t) = scanNumber false (c :: t) := by
  rw [scanOnce_atom (digit_ne h _ (by decide)) (digit_ne h _ (by decide)) (digit_ne h _ (by decide)), scanAtom_digit h]

/-- What is claimed of the reader for each kind of text. -/
def Reads : JNode → Str → Prop
  | .value v, s => (∃ c r, s = c :: r ∧ loadWs c = false ∧ c ≠ ']' ∧ c ≠ '}') ∧
      ∀ n t, s.length < n → NumEnd t → scanOnce n (s ++ t) = some (v, t)
  | .items l, s => ∀ n t, s.length + 1 < n → (∀ r, dropWs (s ++ ']' :: t) ≠ ']' :: r) ∧ scanItems n (dropWs (s ++ ']' :: t)) = some (l, t)
  | .members l, s => ∀ n t, s.length + 1 < n → (∀ r, dropWs (s ++ '}' :: t) ≠ '}' :: r) ∧ scanPairs n (dropWs (s ++ '}' :: t)) = some (l, t)

theorem numEnd_cons {c : Char} {t : Str} (h : asciiDigit c = false ∧ c ≠ '.' ∧ c ≠ 'e' ∧ c ≠ 'E') : NumEnd (c :: t) := by
  intro d hd
  cases hd
  exact h

theorem numEnd_blank {w t : Str} (hw : JsonBlank w) (ht : NumEnd t) : NumEnd (w ++ t) := by
  cases w with
  | nil => exact ht
  | cons c w => exact numEnd_cons (by rcases hw c (by simp) with rfl | rfl | rfl | rfl <;> decide)

theorem value_drop {v : JVal} {w s : Str} (hw : JsonBlank w) (h : Reads (.value v) s) (t : Str) : dropWs (w ++ (s ++ t)) = s ++ t := by
  obtain ⟨⟨c, r, rfl, hc, _⟩, _⟩ := h
  rw [dropWs_blank hw, List.cons_append, dropWs_head hc]

theorem string_text {k ks : Str} (h : StringText k ks) : ∃ s, ks = '"' :: (s ++ ['"']) ∧ CharsText k s := by
  cases h with
  | mk h => exact ⟨_, by simp, h⟩

/-- A key with its value: the step of the loop of objects. -/
theorem scanPairs_step {k : Str} {v : JVal} {w1 ks w2 w3 s w4 : Str} (h1 : JsonBlank w1) (hk : StringText k ks) (h2 : JsonBlank w2) (h3 : JsonBlank w3)
    (hv : Reads (.value v) s) (h4 : JsonBlank w4) {n : Nat} {t : Str} (hn : ks.length + s.length < n) (ht : NumEnd t) :
    (∀ r, dropWs (w1 ++ ks ++ w2 ++ ':' :: w3 ++ s ++ w4 ++ t) ≠ '}' :: r) ∧
    scanPairs n (dropWs (w1 ++ ks ++ w2 ++ ':' :: w3 ++ s ++ w4 ++ t)) = match dropWs t with
      | '}' :: r => some ([(k, v)], r)
      | ',' :: r => (scanPairs (n - 1) (dropWs r)).map fun p => ((k, v) :: p.1, p.2)
      | _ => none := by
  obtain ⟨b, rfl, hb⟩ := string_text hk
  have e : dropWs (w1 ++ '"' :: (b ++ ['"']) ++ w2 ++ ':' :: w3 ++ s ++ w4 ++ t) =
      '"' :: (b ++ '"' :: (w2 ++ ':' :: (w3 ++ (s ++ (w4 ++ t))))) := by
    simp only [List.append_assoc, List.cons_append]
    rw [dropWs_blank h1, dropWs_head (by decide)]
    simp
  rw [e]
  refine ⟨fun r hr => absurd (List.cons.inj hr).1 (by decide), ?_⟩
  cases n with
  | zero => omega
  | succ n =>
    simp only [List.length_cons, List.length_append, List.length_nil] at hn
    rw [scanPairs]
    simp only [loadStr_text hb n _ (by omega)]
    rw [dropWs_blank h2, dropWs_head (by decide)]
    simp only
    rw [value_drop h3 hv, hv.2 n _ (by omega) (numEnd_blank h4 ht)]
    simp only [dropWs_blank h4, Nat.add_sub_cancel]
    rfl

theorem scanItems_step {v : JVal} {w s w' : Str} (h1 : JsonBlank w) (hv : Reads (.value v) s) (h2 : JsonBlank w') {n : Nat} {t : Str}
    (hn : s.length + 1 < n) (ht : NumEnd t) :
    (∀ r, dropWs (w ++ s ++ w' ++ t) ≠ ']' :: r) ∧
    scanItems n (dropWs (w ++ s ++ w' ++ t)) = match dropWs t with
      | ']' :: r => some ([v], r)
      | ',' :: r => (scanItems (n - 1) (dropWs r)).map fun p => (v :: p.1, p.2)
      | _ => none := by
  have e : dropWs (w ++ s ++ w' ++ t) = s ++ (w' ++ t) := by
    simp only [List.append_assoc]
    exact value_drop h1 hv _
  rw [e]
  refine ⟨fun r hr => ?_, ?_⟩
  · obtain ⟨⟨c, r', rfl, _, hc, _⟩, _⟩ := hv
    exact hc (List.cons.inj hr).1
  · cases n with
    | zero => omega
    | succ n =>
      rw [scanItems, hv.2 n _ (by omega) (numEnd_blank h2 ht)]
      simp only [dropWs_blank h2, Nat.add_sub_cancel]
      rfl

theorem scanOnce_arr {n : Nat} {t : Str} (h : ∀ r, dropWs t ≠ ']' :: r) :
    scanOnce (n + 1) ('[' :: t) = (scanItems n (dropWs t)).map fun p => (.arr p.1, p.2) := by
  rw [scanOnce]
  split
  · rename_i r hr; exact absurd hr (h r)
  · rfl

theorem scanOnce_obj {n : Nat} {t : Str} (h : ∀ r, dropWs t ≠ '}' :: r) :
    scanOnce (n + 1) ('{' :: t) = (scanPairs n (dropWs t)).map fun p => (.obj (dictOf p.1), p.2) := by
  rw [scanOnce]
  split
  · rename_i r hr; exact absurd hr (h r)
  · rfl

/-- Every text of the grammar is read. -/
theorem reads {j : JNode} {s : Str} (h : JText j s) : Reads j s := by
  induction h with
  | null =>
    refine ⟨⟨_, _, rfl, by decide⟩, fun n t hn _ => ?_⟩
    cases n with
    | zero => simp at hn
    | succ n => simp [str, scanOnce, scanAtom, scanWord, startsWith]
  | true_ =>
    refine ⟨⟨_, _, rfl, by decide⟩, fun n t hn _ => ?_⟩
    cases n with
    | zero => simp at hn
    | succ n => simp [str, scanOnce, scanAtom, scanWord, startsWith]
  | false_ =>
    refine ⟨⟨_, _, rfl, by decide⟩, fun n t hn _ => ?_⟩
    cases n with
    | zero => simp at hn
    | succ n => simp [str, scanOnce, scanAtom, scanWord, startsWith]
  | word hw =>
    simp only [List.mem_cons, List.not_mem_nil, or_false] at hw
    rcases hw with rfl | rfl | rfl
    all_goals
      refine ⟨⟨_, _, rfl, by decide⟩, fun n t hn _ => ?_⟩
      cases n with
      | zero => simp at hn
      | succ n =>
        simp [str, scanOnce, scanAtom, scanWord, startsWith, scanNumber, scanDigits, show asciiDigit 'I' = false by decide]
  | nat h =>
    obtain ⟨c, r, rfl, hc⟩ := int_head h
    refine ⟨⟨_, _, rfl, ?_, digit_ne hc _ (by decide), digit_ne hc _ (by decide)⟩, fun n t hn ht => ?_⟩
    · simp only [loadWs, digit_ne hc ' ' (by decide), digit_ne hc '\t' (by decide), digit_ne hc '\n' (by decide), digit_ne hc '\r' (by decide), decide_false, Bool.or_false]
    · cases n with
      | zero => simp at hn
      | succ n => rw [List.cons_append, scanOnce_digit hc, ← List.cons_append, scanNumber_int false h ht]; rfl
  | neg h =>
    refine ⟨⟨_, _, rfl, by decide⟩, fun n t hn ht => ?_⟩
    cases n with
    | zero => simp at hn
    | succ n =>
      rw [List.cons_append, scanOnce_atom (by decide) (by decide) (by decide), scanAtom, scanNumber_int true h ht]
      rfl
  | @float n m s f e hm h hf he hne =>
    obtain ⟨c, r, rfl, hc⟩ := int_head h
    rcases hm with rfl | rfl
    · refine ⟨⟨_, _, rfl, ?_, digit_ne hc _ (by decide), digit_ne hc _ (by decide)⟩, fun n t hn ht => ?_⟩
      · simp only [loadWs, digit_ne hc ' ' (by decide), digit_ne hc '\t' (by decide), digit_ne hc '\n' (by decide), digit_ne hc '\r' (by decide), decide_false, Bool.or_false]
      · cases n with
        | zero => simp at hn
        | succ n =>
          have := scanNumber_float false h hf he hne ht
          simp only [List.nil_append, List.append_assoc, List.cons_append] at this ⊢
          rw [scanOnce_digit hc, this]
          rfl
    · refine ⟨⟨_, _, rfl, by decide⟩, fun n t hn ht => ?_⟩
      cases n with
      | zero => simp at hn
      | succ n =>
        have := scanNumber_float true h hf he hne ht
        simp only [List.nil_append, List.append_assoc, List.cons_append, if_true] at this ⊢
        rw [scanOnce_atom (by decide) (by decide) (by decide), scanAtom, this]
  | str h =>
    obtain ⟨b, rfl, hb⟩ := string_text h
    refine ⟨⟨_, _, rfl, by decide⟩, fun n t hn _ => ?_⟩
    cases n with
    | zero => simp at hn
    | succ n =>
      simp only [List.length_cons, List.length_append, List.length_nil] at hn
      simp only [List.cons_append, List.append_assoc, List.nil_append, scanOnce]
      rw [loadStr_text hb n t (by omega)]
      rfl
  | arr0 hw =>
    refine ⟨⟨_, _, rfl, by decide⟩, fun n t hn _ => ?_⟩
    cases n with
    | zero => simp at hn
    | succ n =>
      simp only [List.cons_append, List.append_assoc, List.nil_append, scanOnce]
      rw [dropWs_blank hw, dropWs_head (by decide)]
      rfl
  | @arr l s _ ih =>
    refine ⟨⟨_, _, rfl, by decide⟩, fun n t hn _ => ?_⟩
    cases n with
    | zero => simp at hn
    | succ n =>
      simp only [List.length_cons, List.length_append, List.length_nil] at hn
      obtain ⟨h1, h2⟩ := ih n t (by omega)
      simp only [List.cons_append, List.append_assoc, List.nil_append]
      rw [scanOnce_arr h1, h2]
      rfl
  | obj0 hw =>
    refine ⟨⟨_, _, rfl, by decide⟩, fun n t hn _ => ?_⟩
    cases n with
    | zero => simp at hn
    | succ n =>
      simp only [List.cons_append, List.append_assoc, List.nil_append, scanOnce]
      rw [dropWs_blank hw, dropWs_head (by decide)]
      rfl
  | @obj l s _ ih =>
    refine ⟨⟨_, _, rfl, by decide⟩, fun n t hn _ => ?_⟩
    cases n with
    | zero => simp at hn
    | succ n =>
      simp only [List.length_cons, List.length_append, List.length_nil] at hn
      obtain ⟨h1, h2⟩ := ih n t (by omega)
      simp only [List.cons_append, List.append_assoc, List.nil_append]
      rw [scanOnce_obj h1, h2]
      rfl
  | item h1 _ h2 ih =>
    intro n t hn
    simp only [List.length_append] at hn
    obtain ⟨a, b⟩ := scanItems_step h1 ih h2 (n := n) (t := ']' :: t) (by omega) (numEnd_cons (by decide))
    refine ⟨a, b.trans ?_⟩
    rw [dropWs_head (by decide)]
    rfl
  | @moreItems v l w s w' u h1 _ h2 _ ih ih2 =>
    intro n t hn
    simp only [List.length_append, List.length_cons] at hn
    obtain ⟨a, b⟩ := scanItems_step h1 ih h2 (n := n) (t := ',' :: (u ++ ']' :: t)) (by omega) (numEnd_cons (by decide))
    have e : w ++ s ++ w' ++ ',' :: u ++ ']' :: t = w ++ s ++ w' ++ ',' :: (u ++ ']' :: t) := by simp
    rw [e]
    refine ⟨a, b.trans ?_⟩
    rw [dropWs_head (by decide)]
    simp only
    have hs : 0 < s.length := by obtain ⟨⟨c, r, rfl, _⟩, _⟩ := ih; simp
    rw [(ih2 (n - 1) t (by omega)).2]
    rfl
  | @member k v w1 ks w2 w3 s w4 h1 hk h2 h3 _ h4 ih =>
    intro n t hn
    simp only [List.length_append, List.length_cons] at hn
    obtain ⟨a, b⟩ := scanPairs_step h1 hk h2 h3 ih h4 (n := n) (t := '}' :: t) (by omega) (numEnd_cons (by decide))
    refine ⟨a, b.trans ?_⟩
    rw [dropWs_head (by decide)]
    rfl
  | @moreMembers k v l w1 ks w2 w3 s w4 u h1 hk h2 h3 _ h4 _ ih ih2 =>
    intro n t hn
    simp only [List.length_append, List.length_cons] at hn
    obtain ⟨a, b⟩ := scanPairs_step h1 hk h2 h3 ih h4 (n := n) (t := ',' :: (u ++ '}' :: t)) (by omega) (numEnd_cons (by decide))
    have e : w1 ++ ks ++ w2 ++ ':' :: w3 ++ s ++ w4 ++ ',' :: u ++ '}' :: t = w1 ++ ks ++ w2 ++ ':' :: w3 ++ s ++ w4 ++ ',' :: (u ++ '}' :: t) := by
      simp
    rw [e]
    refine ⟨a, b.trans ?_⟩
    rw [dropWs_head (by decide)]
    simp only
    rw [(ih2 (n - 1) t (by omega)).2]
    rfl

/-- `json.loads` returns the value of every JSON text. -/
theorem jsonLoads_text {v : JVal} {s : Str} (h : JsonText v s) : jsonLoads s = some v := by
  obtain ⟨w, t, w', h1, h2, h3, rfl⟩ := h
  have hr := reads h2
  have e : dropWs (w ++ t ++ w') = t ++ w' := by rw [List.append_assoc]; exact value_drop h1 hr w'
  unfold jsonLoads
  have hw : NumEnd w' := by
    have := numEnd_blank h3 (t := []) (fun c hc => by cases hc)
    rwa [List.append_nil] at this
  rw [e, hr.2 _ w' (by simp only [List.length_append]; omega) hw]
  have : dropWs w' = [] := by
    have := dropWs_blank h3 []
    rwa [List.append_nil] at this
  simp only [this, if_true]

end EspSize
