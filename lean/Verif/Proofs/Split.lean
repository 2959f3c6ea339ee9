import Verif.Spec.Text
import Verif.Model.MapFile
/-! # Lemmas on splitting and numbers -/
namespace EspSize

theorem lstrip_blank_append {w : Str} (h : Blank w) (s : Str) : lstrip (w ++ s) = lstrip s := by
  induction w with
  | nil => rfl
  | cons c w ih =>
    have hc := h c (by simp)
    show List.dropWhile isSpace (c :: (w ++ s)) = _
    rw [List.dropWhile_cons_of_pos hc]
    exact ih fun x hx => h x (by simp [hx])

theorem lstrip_blank {w : Str} (h : Blank w) : lstrip w = [] := by
  have := lstrip_blank_append h []
  rw [List.append_nil] at this
  rw [this]; rfl

theorem lstrip_of_head {s : Str} {c : Char} (h : s.head? = some c) (hc : isSpace c = false) : lstrip s = s := by
  cases s with
  | nil => rfl
  | cons d s =>
    have : d = c := by simpa using h
    subst this
    unfold lstrip
    rw [List.dropWhile_cons_of_neg (by simp [hc])]

theorem Word.trimmed {t : Str} (h : Word t) : Trimmed t := by
  obtain ⟨h1, h2⟩ := h
  refine ⟨t.head h1, t.getLast h1, List.head?_eq_some_head h1, List.getLast?_eq_some_getLast h1, ?_, ?_⟩
  · exact h2 _ (List.head_mem h1)
  · exact h2 _ (List.getLast_mem h1)

theorem Trimmed.ne_nil {t : Str} (h : Trimmed t) : t ≠ [] := by
  rintro rfl
  obtain ⟨c, _, h, _⟩ := h
  cases h

theorem Trimmed.lstrip {t : Str} (h : Trimmed t) : lstrip t = t := by
  obtain ⟨c, d, h1, _, h3, _⟩ := h
  exact lstrip_of_head h1 h3

theorem lstrip_trimmed_append {t : Str} (h : Trimmed t) (s : Str) : lstrip (t ++ s) = t ++ s := by
  obtain ⟨c, d, h1, _, h3, _⟩ := h
  refine lstrip_of_head (c := c) ?_ h3
  cases t with
  | nil => cases h1
  | cons _ _ => simpa using h1

/-- Text between blanks. -/
theorem strip_trimmed {w w' t : Str} (hw : Blank w) (hw' : Blank w') (ht : Trimmed t) : strip (w ++ t ++ w') = t := by
  unfold strip
  rw [List.append_assoc, lstrip_blank_append hw, lstrip_trimmed_append ht, List.reverse_append]
  rw [lstrip_blank_append (fun c hc => hw' c (List.mem_reverse.mp hc))]
  obtain ⟨c, d, h1, h2, h3, h4⟩ := ht
  rw [lstrip_of_head (c := d) (by rw [List.head?_reverse]; exact h2) h4, List.reverse_reverse]

theorem strip_blank {w : Str} (hw : Blank w) : strip w = [] := by
  unfold strip
  rw [lstrip_blank hw]; rfl

theorem strip_word {t : Str} (h : Word t) : strip t = t := by
  have := strip_trimmed (w := []) (w' := []) (fun _ h => nomatch h) (fun _ h => nomatch h) h.trimmed
  simpa using this

theorem trimmed_append {a b : Str} (ha : Trimmed a) (hb : Trimmed b) (w : Str) : Trimmed (a ++ w ++ b) := by
  obtain ⟨c, d, h1, h2, h3, h4⟩ := ha
  obtain ⟨e, f, k1, k2, k3, k4⟩ := hb
  refine ⟨c, f, ?_, ?_, h3, k4⟩
  · cases a with
    | nil => cases h1
    | cons _ _ => simpa using h1
  · rw [List.getLast?_append, k2]; rfl

/-! ### `split` -/

theorem splitN_blank (n : Nat) {w : Str} (h : Blank w) : splitN n w = [] := by
  unfold splitN
  rw [lstrip_blank h]

theorem splitN_of_lstrip (n : Nat) {s t : Str} (h : lstrip s = t) (ht : t ≠ []) :
    splitN n s = match n with
      | 0 => [t]
      | n + 1 => t.takeWhile (fun c => !isSpace c) :: splitN n (t.dropWhile fun c => !isSpace c) := by
  conv => lhs; unfold splitN
  rw [h]
  cases t with
  | nil => exact absurd rfl ht
  | cons c t => rfl

theorem takeWhile_word {t : Str} (h : ∀ c ∈ t, isSpace c = false) (r : Str)
    (hr : r = [] ∨ ∃ c, r.head? = some c ∧ isSpace c = true) :
    (t ++ r).takeWhile (fun c => !isSpace c) = t ∧ (t ++ r).dropWhile (fun c => !isSpace c) = r := by
  induction t with
  | nil =>
    rcases hr with rfl | ⟨c, hc, hs⟩
    · exact ⟨rfl, rfl⟩
    · cases r with
      | nil => cases hc
      | cons d r =>
        have : d = c := by simpa using hc
        subst this
        simp [hs]
  | cons c t ih =>
    have hc := h c (by simp)
    obtain ⟨i1, i2⟩ := ih fun x hx => h x (by simp [hx])
    constructor
    · rw [List.cons_append, List.takeWhile_cons_of_pos (by simp [hc]), i1]
    · rw [List.cons_append, List.dropWhile_cons_of_pos (by simp [hc]), i2]

theorem gap_head {w : Str} (h : Gap w) (s : Str) : w ++ s = [] ∨ ∃ c, (w ++ s).head? = some c ∧ isSpace c = true := by
  right
  cases w with
  | nil => exact absurd rfl h.1
  | cons c w => exact ⟨c, rfl, h.2 c (by simp)⟩

/-- First word. -/
theorem splitN_word (n : Nat) {w t r : Str} (hw : Blank w) (ht : Word t)
    (hr : r = [] ∨ ∃ c, r.head? = some c ∧ isSpace c = true) :
    splitN (n + 1) (w ++ (t ++ r)) = t :: splitN n r := by
  have hl : lstrip (w ++ (t ++ r)) = t ++ r := by
    rw [lstrip_blank_append hw, lstrip_trimmed_append ht.trimmed]
  rw [splitN_of_lstrip _ hl (by have := ht.1; simp [this])]
  simp only []
  rw [(takeWhile_word ht.2 r hr).1, (takeWhile_word ht.2 r hr).2]

/-- The rest. -/
theorem splitN_rest {w p : Str} (hw : Blank w) (hp : Trimmed p) : splitN 0 (w ++ p) = [p] := by
  rw [splitN_of_lstrip 0 (t := p) (by rw [lstrip_blank_append hw, hp.lstrip]) hp.ne_nil]

theorem length_lstrip_le (s : Str) : (lstrip s).length ≤ s.length := by
  unfold lstrip; exact (List.dropWhile_suffix _).length_le

theorem splitN_ge (k : Nat) : ∀ (s : Str) (n m : Nat), s.length ≤ k → s.length ≤ n → s.length ≤ m → splitN n s = splitN m s := by
  induction k with
  | zero =>
    intro s n m h _ _
    have : s = [] := List.length_eq_zero_iff.mp (by omega)
    subst this
    have hb : Blank [] := fun _ h => by cases h
    rw [splitN_blank n hb, splitN_blank m hb]
  | succ k ih =>
    intro s n m h hn hm
    cases hl : lstrip s with
    | nil => unfold splitN; rw [hl]
    | cons c t =>
      rw [splitN_of_lstrip n hl (by simp), splitN_of_lstrip m hl (by simp)]
      have hlen := length_lstrip_le s
      rw [hl] at hlen
      have hc : isSpace c = false := by
        have := List.head?_dropWhile_not isSpace s
        unfold lstrip at hl
        rw [hl] at this
        simpa using this
      have hlt : ((c :: t).dropWhile fun c => !isSpace c).length ≤ t.length := by
        rw [List.dropWhile_cons_of_pos (by simp [hc])]
        exact (List.dropWhile_suffix _).length_le
      have h1 : 1 ≤ s.length := by simp only [List.length_cons] at hlen; omega
      obtain ⟨n', rfl⟩ : ∃ n', n = n' + 1 := ⟨n - 1, by omega⟩
      obtain ⟨m', rfl⟩ : ∃ m', m = m' + 1 := ⟨m - 1, by omega⟩
      simp only []
      congr 1
      simp only [List.length_cons] at hlen
      exact ih _ _ _ (by omega) (by omega) (by omega)

theorem split_eq (s : Str) (j : Nat) : split s = splitN (s.length + j) s :=
  splitN_ge s.length s _ _ (Nat.le_refl _) (Nat.le_refl _) (by omega)

theorem split_blank {w : Str} (h : Blank w) : split w = [] := splitN_blank _ h

theorem split_one {w t w' : Str} (hw : Blank w) (h : Word t) (hw' : Blank w') : split (w ++ (t ++ w')) = [t] := by
  rw [split_eq _ 1, splitN_word _ hw h, splitN_blank _ hw']
  cases w' with
  | nil => exact .inl rfl
  | cons c _ => exact .inr ⟨c, rfl, hw' c (by simp)⟩

theorem blank_head {w : Str} (hw : Blank w) : w = [] ∨ ∃ c, w.head? = some c ∧ isSpace c = true := by
  cases w with
  | nil => exact .inl rfl
  | cons c _ => exact .inr ⟨c, rfl, hw c (by simp)⟩

theorem split_two {w a g b w' : Str} (hw : Blank w) (ha : Word a) (hg : Gap g) (hb : Word b) (hw' : Blank w') :
    split (w ++ (a ++ (g ++ (b ++ w')))) = [a, b] := by
  rw [split_eq _ 2, splitN_word _ hw ha (gap_head hg _), splitN_word _ hg.2 hb (blank_head hw'), splitN_blank _ hw']

theorem split_three {w a g b g' c w' : Str} (hw : Blank w) (ha : Word a) (hg : Gap g) (hb : Word b) (hg' : Gap g')
    (hc : Word c) (hw' : Blank w') : split (w ++ (a ++ (g ++ (b ++ (g' ++ (c ++ w')))))) = [a, b, c] := by
  rw [split_eq _ 3, splitN_word _ hw ha (gap_head hg _), splitN_word _ hg.2 hb (gap_head hg' _),
    splitN_word _ hg'.2 hc (blank_head hw'), splitN_blank _ hw']

theorem split_four {w a g b g' c g'' d w' : Str} (hw : Blank w) (ha : Word a) (hg : Gap g) (hb : Word b) (hg' : Gap g')
    (hc : Word c) (hg'' : Gap g'') (hd : Word d) (hw' : Blank w') :
    split (w ++ (a ++ (g ++ (b ++ (g' ++ (c ++ (g'' ++ (d ++ w')))))))) = [a, b, c, d] := by
  rw [split_eq _ 4, splitN_word _ hw ha (gap_head hg _), splitN_word _ hg.2 hb (gap_head hg' _),
    splitN_word _ hg'.2 hc (gap_head hg'' _), splitN_word _ hg''.2 hd (blank_head hw'), splitN_blank _ hw']

/-! ### Numbers -/

theorem hexDigit_ok : ∀ d, d < 16 → digitVal (hexDigit d) = some d ∧ isSpace (hexDigit d) = false ∧ hexDigit d ≠ '_' := by
  have : ∀ d ∈ List.range 16, digitVal (hexDigit d) = some d ∧ isSpace (hexDigit d) = false ∧ hexDigit d ≠ '_' := by decide
  intro d hd
  exact this d (List.mem_range.mpr hd)

theorem parseDigits_hex (ds : List Nat) (hd : ∀ d ∈ ds, d < 16) (us : Bool) (acc : Nat) (h : us = false ∨ ds ≠ []) :
    parseDigits 16 us acc (ds.map hexDigit) = some (ds.foldl (fun a d => a * 16 + d) acc) := by
  induction ds generalizing us acc with
  | nil =>
    have : us = false := h.resolve_right (by simp)
    subst this; rfl
  | cons d ds ih =>
    obtain ⟨h1, _, h3⟩ := hexDigit_ok d (hd d (by simp))
    rw [List.map_cons, parseDigits, if_neg h3, h1]
    simp only []
    rw [if_pos (hd d (by simp)), ih (fun x hx => hd x (by simp [hx])) false _ (.inl rfl)]
    rfl

theorem HexOf.word {n : Int} {s : Str} (h : HexOf n s) : Word s := by
  obtain ⟨ds, _, hd, rfl, _⟩ := h
  refine ⟨by simp, ?_⟩
  intro c hc
  rcases List.mem_cons.mp hc with rfl | hc
  · decide
  · rcases List.mem_cons.mp hc with rfl | hc
    · decide
    · obtain ⟨d, hdm, rfl⟩ := List.mem_map.mp hc
      exact (hexDigit_ok d (hd d hdm)).2.1

theorem pyInt0_hex {n : Int} {s : Str} (h : HexOf n s) : pyInt0 s = some n := by
  have hw := h.word
  obtain ⟨ds, hne, hd, rfl, rfl⟩ := h
  unfold pyInt0
  rw [strip_word hw]
  have : parseNat0 ('0' :: 'x' :: ds.map hexDigit) = some (ds.foldl (fun a d => a * 16 + d) 0) := by
    unfold parseNat0
    simp only [true_or, if_true]
    unfold parsePrefixed
    cases ds with
    | nil => exact absurd rfl hne
    | cons d ds =>
      have h3 := (hexDigit_ok d (hd d (by simp))).2.2
      have := parseDigits_hex (d :: ds) hd true 0 (.inr hne)
      split
      · rename_i t heq
        rw [List.map_cons] at heq
        exact absurd (List.cons.inj heq).1 h3
      · exact this
  show (parseNat0 ('0' :: 'x' :: ds.map hexDigit)).map _ = _
  rw [this]
  rfl

theorem int0_hex {n : Int} {s : Str} (h : HexOf n s) : int0 s = .ok n := by
  unfold int0; rw [pyInt0_hex h]

/-- Every natural number has a hexadecimal text. -/
theorem hexOf_exists (n : Nat) : ∃ s, HexOf n s := by
  have : ∀ n : Nat, ∃ ds : List Nat, ds ≠ [] ∧ (∀ d ∈ ds, d < 16) ∧ n = ds.foldl (fun a d => a * 16 + d) 0 := by
    intro n
    induction n using Nat.strongRecOn with
    | _ n ih =>
      by_cases h : n < 16
      · exact ⟨[n], by simp, by simpa using h, by simp⟩
      · obtain ⟨ds, h1, h2, h3⟩ := ih (n / 16) (by omega)
        refine ⟨ds ++ [n % 16], by simp, ?_, ?_⟩
        · intro d hd
          rcases List.mem_append.mp hd with hd | hd
          · exact h2 d hd
          · have : d = n % 16 := by simpa using hd
            omega
        · rw [List.foldl_append, ← h3]
          simp; omega
  obtain ⟨ds, h1, h2, h3⟩ := this n
  exact ⟨_, ds, h1, h2, rfl, by rw [← h3]⟩

end EspSize

namespace EspSize

/-! ### Words -/

theorem splitN_words {s : Str} {ts : List Str} (h : Words s ts) (n : Nat) (hn : ts.length ≤ n) : splitN n s = ts := by
  induction h generalizing n with
  | nil hw => exact splitN_blank _ hw
  | cons hw ht hr _ ih =>
    obtain ⟨m, rfl⟩ : ∃ m, n = m + 1 := ⟨n - 1, by simp only [List.length_cons] at hn; omega⟩
    rw [splitN_word _ hw ht hr, ih m (by simpa using hn)]

/-- The words of a text are what `split` gives. -/
theorem split_words {s : Str} {ts : List Str} (h : Words s ts) : split s = ts := by
  rw [split_eq s ts.length, splitN_words h _ (by omega)]

theorem words_exist (k : Nat) : ∀ s : Str, s.length ≤ k → ∃ ts, Words s ts := by
  induction k with
  | zero =>
    intro s h
    have : s = [] := List.length_eq_zero_iff.mp (by omega)
    subst this
    exact ⟨[], .nil fun _ h => by cases h⟩
  | succ k ih =>
    intro s h
    have hs : s.takeWhile isSpace ++ lstrip s = s := List.takeWhile_append_dropWhile
    have hb : Blank (s.takeWhile isSpace) := fun c hc => (List.all_eq_true.mp (List.all_takeWhile (p := isSpace) (l := s))) c hc
    cases hl : lstrip s with
    | nil =>
      rw [hl, List.append_nil] at hs
      rw [← hs]
      exact ⟨[], .nil hb⟩
    | cons c t =>
      have hc : isSpace c = false := by
        have := List.head?_dropWhile_not isSpace s
        unfold lstrip at hl
        rw [hl] at this
        simpa using this
      have hlen := length_lstrip_le s
      rw [hl] at hlen hs
      have htd : (c :: t).takeWhile (fun c => !isSpace c) ++ (c :: t).dropWhile (fun c => !isSpace c) = c :: t :=
        List.takeWhile_append_dropWhile
      have hr : (c :: t).dropWhile (fun c => !isSpace c) = [] ∨
          ∃ d, ((c :: t).dropWhile (fun c => !isSpace c)).head? = some d ∧ isSpace d = true := by
        cases hd : (c :: t).dropWhile (fun c => !isSpace c) with
        | nil => exact .inl rfl
        | cons d r =>
          refine .inr ⟨d, rfl, ?_⟩
          have := List.head?_dropWhile_not (fun c => !isSpace c) (c :: t)
          rw [hd] at this
          simpa using this
      have hlt : ((c :: t).dropWhile fun c => !isSpace c).length ≤ t.length := by
        rw [List.dropWhile_cons_of_pos (by simp [hc])]
        exact (List.dropWhile_suffix _).length_le
      simp only [List.length_cons] at hlen
      obtain ⟨ts, hts⟩ := ih _ (by omega : ((c :: t).dropWhile fun c => !isSpace c).length ≤ k)
      have ht : Word ((c :: t).takeWhile fun c => !isSpace c) := by
        constructor
        · rw [List.takeWhile_cons_of_pos (by simp [hc])]; simp
        · intro x hx
          have := List.all_eq_true.mp (List.all_takeWhile (p := fun c => !isSpace c) (l := c :: t)) x hx
          simpa using this
      have := Words.cons hb ht hr hts
      rw [htd, hs] at this
      exact ⟨_, this⟩

/-- `split` gives the words of any text. -/
theorem words_split (s : Str) : Words s (split s) := by
  obtain ⟨ts, h⟩ := words_exist s.length s (Nat.le_refl _)
  rw [split_words h]; exact h

/-- A text has one list of words. -/
theorem words_iff {s : Str} {ts : List Str} : Words s ts ↔ split s = ts :=
  ⟨split_words, fun h => h ▸ words_split s⟩

/-! ### `archive(member)` -/

theorem cutAt_none {c : Char} {s : Str} (h : c ∉ s) : cutAt c s = none := by
  induction s with
  | nil => rfl
  | cons d s ih =>
    have h1 : d ≠ c := fun e => h (by simp [e])
    unfold cutAt
    rw [if_neg h1, ih (fun hm => h (by simp [hm]))]
    try rfl

theorem cutAt_some {c : Char} {a : Str} (h : c ∉ a) (b : Str) : cutAt c (a ++ c :: b) = some (a, b) := by
  induction a with
  | nil => simp [cutAt]
  | cons d a ih =>
    have h1 : d ≠ c := fun e => h (by simp [e])
    rw [List.cons_append]
    unfold cutAt
    rw [if_neg h1, ih (fun hm => h (by simp [hm]))]
    try rfl

theorem archiveObject_ref {a m p : Str} (h : RefText a m p) : archiveObject p = (a, m) := by
  unfold archiveObject
  rcases h with ⟨rfl, ha⟩ | ⟨rfl, rfl, hm⟩
  · rw [cutAt_some ha]
    simp [str]
  · rw [cutAt_none hm]

end EspSize
