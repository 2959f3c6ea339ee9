import Verif.Spec.MapText
import Verif.Proofs.Split
import Verif.Props.MapRegions
import Verif.Proofs.List
/-! # Lemmas for the section listing -/
namespace EspSize

/-! ### strip and words -/

theorem blank_nil : Blank [] := fun _ h => by cases h

theorem lstrip_append_head {x y : Str} {c : Char} (h : y.head? = some c) (hc : isSpace c = false) :
    lstrip (x ++ y) = lstrip x ++ y := by
  induction x with
  | nil => rw [List.nil_append, lstrip_of_head h hc]; rfl
  | cons d x ih =>
    rw [List.cons_append]
    unfold lstrip at ih ⊢
    by_cases hd : isSpace d = true
    · rw [List.dropWhile_cons_of_pos hd, List.dropWhile_cons_of_pos hd, ih]
    · rw [List.dropWhile_cons_of_neg hd, List.dropWhile_cons_of_neg hd]; rfl

theorem lstrip_decomp (s : Str) : ∃ w, Blank w ∧ s = w ++ lstrip s :=
  ⟨s.takeWhile isSpace, fun c hc => (List.all_eq_true.mp (List.all_takeWhile (p := isSpace) (l := s))) c hc,
    List.takeWhile_append_dropWhile.symm⟩

theorem strip_decomp (s : Str) : ∃ w w', Blank w ∧ Blank w' ∧ s = w ++ (strip s ++ w') := by
  obtain ⟨w, hw, h1⟩ := lstrip_decomp s
  obtain ⟨v, hv, h2⟩ := lstrip_decomp (lstrip s).reverse
  refine ⟨w, v.reverse, hw, fun c hc => hv c (List.mem_reverse.mp hc), ?_⟩
  have h3 : lstrip s = strip s ++ v.reverse := by
    have := congrArg List.reverse h2
    rw [List.reverse_reverse, List.reverse_append] at this
    exact this
  rw [← h3]; exact h1

theorem Words.append_blank {s : Str} {ts : List Str} (h : Words s ts) {w : Str} (hw : Blank w) : Words (s ++ w) ts := by
  induction h with
  | nil hv =>
    refine .nil fun c hc => ?_
    rcases List.mem_append.mp hc with hc | hc
    · exact hv c hc
    · exact hw c hc
  | cons hv ht hr _ ih =>
    rw [List.append_assoc, List.append_assoc]
    refine .cons hv ht ?_ ih
    rcases hr with rfl | ⟨c, hc, hs⟩
    · rw [List.nil_append]; exact blank_head hw
    · rename_i w t r ts _
      cases r with
      | nil => cases hc
      | cons d r => exact .inr ⟨d, rfl, by have : d = c := by simpa using hc
                                           rw [this]; exact hs⟩

theorem Words.blank_append {s : Str} {ts : List Str} (h : Words s ts) {w : Str} (hw : Blank w) : Words (w ++ s) ts := by
  cases h with
  | nil hv =>
    refine .nil fun c hc => ?_
    rcases List.mem_append.mp hc with hc | hc
    · exact hw c hc
    · exact hv c hc
  | cons hv ht hr hrest =>
    rw [← List.append_assoc]
    refine .cons (fun c hc => ?_) ht hr hrest
    rcases List.mem_append.mp hc with hc | hc
    · exact hw c hc
    · exact hv c hc

theorem split_strip (s : Str) : split (strip s) = split s := by
  obtain ⟨w, w', hw, hw', h⟩ := strip_decomp s
  have := ((words_split (strip s)).append_blank hw').blank_append hw
  rw [← h] at this
  exact (split_words this).symm

theorem strip_prefix_word {s t : Str} {ts : List Str} (h : Words s (t :: ts)) : ∃ r, strip s = t ++ r := by
  cases h with
  | @cons w _ r _ hw ht hr _ =>
    unfold strip
    rw [lstrip_blank_append hw, lstrip_trimmed_append ht.trimmed, List.reverse_append]
    have hne : t.reverse.head? = some (t.getLast ht.1) := by
      rw [List.head?_reverse, List.getLast?_eq_some_getLast ht.1]
    rw [lstrip_append_head hne (ht.2 _ (List.getLast_mem ht.1)), List.reverse_append, List.reverse_reverse]
    exact ⟨_, rfl⟩

theorem not_prefix_of_head {p t r : Str} {c d : Char} (hp : p.head? = some c) (ht : t.head? = some d) (h : c ≠ d) :
    ¬ p <+: t ++ r := by
  intro hpr
  cases p with
  | nil => cases hp
  | cons x p =>
    cases t with
    | nil => cases ht
    | cons y t =>
      have hx : x = c := by simpa using hp
      have hy : y = d := by simpa using ht
      obtain ⟨q, hq⟩ := hpr
      simp only [List.cons_append, List.cons.injEq] at hq
      exact h (hx ▸ hy ▸ hq.1)

theorem hexOf_head {n : Int} {s : Str} (h : HexOf n s) : s.head? = some '0' := by
  obtain ⟨ds, _, _, rfl, _⟩ := h; rfl

theorem cross_split {l : Str} (h : crossRef <+: l) : ∃ ts, split l = str "Cross" :: str "Reference" :: ts := by
  refine split_prefix2 (by decide) (by decide) ?_
  exact List.IsPrefix.trans (List.isPrefixOf_iff_prefix.mp (by decide)) h

theorem not_cross_of_words {l t : Str} {ts : List Str} (h : Words l (t :: ts)) (ht : t ≠ str "Cross") : ¬ crossRef <+: l := by
  intro hp
  obtain ⟨us, hu⟩ := cross_split hp
  rw [split_words h] at hu
  simp only [List.cons.injEq] at hu
  exact ht hu.1

theorem not_cross_blank {w : Str} (h : Blank w) : ¬ crossRef <+: w := by
  intro hp
  obtain ⟨us, hu⟩ := cross_split hp
  rw [split_blank h] at hu
  cases hu

/-! ### the loop -/

theorem loop_step {l : Str} {st st' : PState} (hl : ¬ crossRef <+: l) (h : stepLine st l = .ok st') (rest : List Str) :
    sectionsLoop (l :: rest) st = sectionsLoop rest st' := by
  rw [sectionsLoop, if_neg (by simp [startsWith_false hl]), h]
  rfl

theorem step_output {l : Str} {st : PState} {o : POut} (hf : st.found = true) (ho : st.osec = some o) :
    stepLine st l = outputLine st o l := by
  unfold stepLine
  rw [hf, ho]; rfl

theorem notStart_any {p : Str} {ps : List Str} (h : NotStart ps p) : startsWithAny p ps = false := by
  unfold startsWithAny
  rw [List.any_eq_false]
  intro q hq
  rw [startsWith_false (h q hq)]; simp

theorem words_strip_ne {l t : Str} {ts : List Str} (h : Words l (t :: ts)) : strip l ≠ [] := by
  obtain ⟨r, hr⟩ := strip_prefix_word h
  cases h with
  | cons _ ht _ _ => rw [hr]; have := ht.1; simp [this]

/-- Last `*fill*` size. -/
def lastFill (var : Option Int) (ps : List Pad) : Option Int := ps.foldl (fun v p => if p.isFill then some p.size else v) var

theorem plain_strip {l : Str} (h : PlainLine l) :
    strip l ≠ [] ∧ NotStart [str ".", str "COMMON"] (strip l) ∧ ¬ crossRef <+: l := by
  obtain ⟨w, p, w', rfl, hw, hw', hp, hn, hc⟩ := h
  rw [strip_trimmed hw hw' hp]
  exact ⟨hp.ne_nil, hn, hc⟩

theorem step_in_input {l : Str} {st : PState} {o : POut} {i : PSec} (hf : st.found = true) (ho : st.osec = some o)
    (hoa : o.address ≠ none) (hin : st.inInput = true) (hi : st.isec = some i) (h1 : strip l ≠ [])
    (h2 : NotStart [str ".", str "COMMON"] (strip l)) : stepLine st l = inputLine st i (strip l) := by
  rw [step_output hf ho]
  unfold outputLine
  simp only []
  rw [if_neg h1, if_neg hoa, if_neg (by simp [notStart_any h2]), if_pos hin, hi]

theorem step_noise {l : Str} {st : PState} {o : POut} {i : PSec} (hf : st.found = true) (ho : st.osec = some o)
    (hoa : o.address ≠ none) (hin : st.inInput = true) (hi : st.isec = some i) (hia : i.address ≠ none) (h : NoiseLine l) :
    stepLine st l = .ok st := by
  obtain ⟨hp, hnf, hd⟩ := h
  obtain ⟨h1, h2, _⟩ := plain_strip hp
  rw [step_in_input hf ho hoa hin hi h1 h2]
  unfold inputLine
  rw [if_neg hia, if_neg (by simp [startsWith_false hnf])]
  split
  · split
    · rename_i x s b v heq
      rw [if_neg]
      rw [split_strip] at heq
      have := hd _ _ _ _ (words_iff.mpr heq)
      intro hb
      exact this (by simpa [explicitBytes, dataNames] using hb)
    · rfl
  · rfl

theorem dataName_infix {l a s b v : Str} (h : Words l [a, s, b, v]) : b <:+: l := by
  cases h with
  | @cons w1 _ _ _ _ _ _ h =>
    cases h with
    | @cons w2 _ _ _ _ _ _ h =>
      cases h with
      | @cons w3 _ r3 _ _ _ _ h => exact ⟨w1 ++ (a ++ (w2 ++ (s ++ w3))), r3, by simp [List.append_assoc]⟩

theorem step_pad {l : Str} {st : PState} {o : POut} {i : PSec} {A : Int} (hf : st.found = true) (ho : st.osec = some o)
    (hoa : o.address ≠ none) (hin : st.inInput = true) (hi : st.isec = some i) (hia : i.address = some A) {p : Pad} (h : PadText p l) :
    stepLine st l = .ok { st with
      isec := some { i with size := if p.isFill && decide (p.address = A) then some 0 else i.size, fill := i.fill + p.size },
      sizeVar := if p.isFill then some p.size else st.sizeVar } ∧ ¬ crossRef <+: l := by
  obtain ⟨a, s, ha, hs, h⟩ := h
  have hian : i.address ≠ none := by rw [hia]; simp
  cases hfill : p.isFill with
  | true =>
    rw [hfill] at h
    simp only [if_true] at h
    refine ⟨?_, not_cross_of_words h (by decide)⟩
    obtain ⟨r, hr⟩ := strip_prefix_word h
    have hst : str "*fill*" <+: strip l := ⟨r, hr.symm⟩
    have hns : NotStart [str ".", str "COMMON"] (strip l) := by
      intro q hq hp
      simp only [List.mem_cons, List.not_mem_nil, or_false] at hq
      rw [hr] at hp
      rcases hq with rfl | rfl
      · exact not_prefix_of_head (c := '.') (d := '*') rfl rfl (by decide) hp
      · exact not_prefix_of_head (c := 'C') (d := '*') rfl rfl (by decide) hp
    rw [step_in_input hf ho hoa hin hi (words_strip_ne h) hns]
    unfold inputLine
    rw [if_neg hian, if_pos (startsWith_true hst), split_strip, split_words h]
    simp only []
    rw [int0_hex ha, int0_hex hs]
    show Except.ok _ = _
    by_cases he : p.address = A
    · simp [hia, he]
    · have : ¬ A = p.address := fun e => he e.symm
      simp [hia, he, this]
  | false =>
    rw [hfill] at h
    simp only [Bool.false_eq_true, if_false] at h
    obtain ⟨b, v, hb, h⟩ := h
    have ha0 := hexOf_head ha
    refine ⟨?_, not_cross_of_words h ?_⟩
    · obtain ⟨r, hr⟩ := strip_prefix_word h
      have hns : NotStart [str ".", str "COMMON"] (strip l) := by
        intro q hq hp
        simp only [List.mem_cons, List.not_mem_nil, or_false] at hq
        rw [hr] at hp
        rcases hq with rfl | rfl
        · exact not_prefix_of_head (c := '.') rfl ha0 (by decide) hp
        · exact not_prefix_of_head (c := 'C') rfl ha0 (by decide) hp
      rw [step_in_input hf ho hoa hin hi (words_strip_ne h) hns]
      unfold inputLine
      have hnf : ¬ str "*fill*" <+: strip l := by
        rw [hr]; exact not_prefix_of_head (c := '*') rfl ha0 (by decide)
      have hw' : Words (strip l) [a, s, b, v] := words_iff.mpr (by rw [split_strip, split_words h])
      have hb' : explicitBytes.contains b = true := by simpa [explicitBytes, dataNames] using hb
      have hany : (explicitBytes.any fun b => contains b (strip l)) = true := by
        rw [List.any_eq_true]
        exact ⟨b, by simpa [explicitBytes, dataNames] using hb, contains_iff.mpr (dataName_infix hw')⟩
      rw [if_neg hian, if_neg (by simp [startsWith_false hnf]), if_pos hany, split_words hw']
      simp only []
      rw [if_pos hb', int0_hex hs]
      simp
      rfl
    · rintro rfl
      exact absurd ha0 (by decide)

/-- Section after its padding. -/
def padded (i : PSec) (A : Int) (ps : List Pad) : PSec :=
  { i with size := if ps.any (fun p => p.isFill && decide (p.address = A)) then some 0 else i.size, fill := i.fill + (ps.map (·.size)).sum }

theorem loop_pads {ps : List Pad} {ls : List Str} (h : PadsText ps ls) (rest : List Str) (st : PState) {o : POut} {i : PSec} {A : Int}
    (hf : st.found = true) (ho : st.osec = some o) (hoa : o.address ≠ none) (hin : st.inInput = true) (hi : st.isec = some i)
    (hia : i.address = some A) :
    sectionsLoop (ls ++ rest) st =
      sectionsLoop rest { st with isec := some (padded i A ps), sizeVar := lastFill st.sizeVar ps } := by
  induction h generalizing st i with
  | nil =>
    have h1 : padded i A [] = i := by simp [padded]
    rw [h1]
    cases st
    simp only at hi
    simp [lastFill, hi]
  | noise hn _ ih =>
    have hstep := step_noise hf ho hoa hin hi (by rw [hia]; simp) hn
    rw [List.cons_append, loop_step (plain_strip hn.1).2.2 hstep]
    exact ih st hf ho hin hi hia
  | @pad p ps l ls hp _ ih =>
    obtain ⟨hstep, hc⟩ := step_pad hf ho hoa hin hi hia hp
    rw [List.cons_append, loop_step hc hstep]
    have hpad : padded { i with size := if p.isFill && decide (p.address = A) then some 0 else i.size, fill := i.fill + p.size } A ps =
        padded i A (p :: ps) := by
      unfold padded
      have : i.fill + p.size + (ps.map (·.size)).sum = i.fill + ((p :: ps).map (·.size)).sum := by
        simp only [List.map_cons, List.sum_cons]; omega
      simp only [this, List.any_cons]
      congr 1
      by_cases h1 : (p.isFill && decide (p.address = A)) = true <;>
        by_cases h2 : (ps.any fun p => p.isFill && decide (p.address = A)) = true <;> simp only [h1, h2, Bool.or_true, Bool.or_false,
          if_true, if_false, Bool.false_eq_true]
    have := ih { st with
      isec := some { i with size := if p.isFill && decide (p.address = A) then some 0 else i.size, fill := i.fill + p.size },
      sizeVar := if p.isFill then some p.size else st.sizeVar } hf ho hin rfl hia
    rw [this, hpad]
    rfl

/-! ### input sections -/

/-- Section read for a listed one. -/
def Listed.psec (i : Listed) : PSec := ⟨i.name, some i.address, some i.ownSize, i.padding, i.archive, i.object⟩

theorem inputName_strip {n r : Str} (h : InputName n) : startsWithAny (n ++ r) [str ".", str "COMMON"] = true := by
  unfold startsWithAny
  rw [List.any_eq_true]
  rcases h.2 with h | h
  · exact ⟨str ".", by simp, startsWith_true (h.trans (List.prefix_append _ _))⟩
  · exact ⟨str "COMMON", by simp, startsWith_true (h.trans (List.prefix_append _ _))⟩

theorem inputName_ne_cross {n : Str} (h : InputName n) : n ≠ str "Cross" := by
  rintro rfl
  rcases h.2 with h | h
  · exact absurd (List.isPrefixOf_iff_prefix.mpr h) (by decide)
  · exact absurd (List.isPrefixOf_iff_prefix.mpr h) (by decide)

theorem trimmed_word_append {a b : Str} (ha : Word a) (hb : Trimmed b) (g : Str) : Trimmed (a ++ (g ++ b)) := by
  rw [← List.append_assoc]; exact trimmed_append ha.trimmed hb g

theorem padded_psec {i : Listed} :
    padded ⟨i.name, some i.address, some i.size, 0, i.archive, i.object⟩ i.address i.pads = i.psec := by
  unfold padded Listed.psec Listed.ownSize Listed.padding
  simp only [Int.zero_add]
  congr 1
  split <;> rfl

theorem first_word_ne_cross {w t r : Str} (hw : Blank w) (ht : Word t) (hr : r = [] ∨ ∃ c, r.head? = some c ∧ isSpace c = true)
    (hne : t ≠ str "Cross") : ¬ crossRef <+: w ++ (t ++ r) :=
  not_cross_of_words (.cons hw ht hr (words_split r)) hne

theorem loop_input {i : Listed} {ls : List Str} (h : InputText i ls) (rest : List Str) (st : PState) {o o' : POut}
    (hf : st.found = true) (ho : st.osec = some o) (hoa : o.address ≠ none) (hfl : flush o st.isec st.sizeVar = .ok o')
    (hoa' : o'.address ≠ none) :
    sectionsLoop (ls ++ rest) st =
      sectionsLoop rest { st with osec := some o', inInput := true, isec := some i.psec, sizeVar := lastFill st.sizeVar i.pads } := by
  cases h with
  | @one w g1 a g2 s g3 p w' ls hn hw hg1 ha hg2 hs hg3 hr hp hw' hpads =>
    have ht : Trimmed (i.name ++ (g1 ++ (a ++ (g2 ++ (s ++ (g3 ++ p)))))) :=
      trimmed_word_append hn.1 (trimmed_word_append ha.word (trimmed_word_append hs.word hp g3) g2) g1
    have hc : ¬ crossRef <+: w ++ (i.name ++ (g1 ++ (a ++ (g2 ++ (s ++ (g3 ++ p)))))) ++ w' := by
      have := first_word_ne_cross hw hn.1 (gap_head hg1 ((a ++ (g2 ++ (s ++ (g3 ++ p)))) ++ w')) (inputName_ne_cross hn)
      simpa [List.append_assoc] using this
    have hstep : stepLine st (w ++ (i.name ++ (g1 ++ (a ++ (g2 ++ (s ++ (g3 ++ p)))))) ++ w') =
        .ok { st with osec := some o', inInput := true,
                      isec := some ⟨i.name, some i.address, some i.size, 0, i.archive, i.object⟩ } := by
      rw [step_output hf ho]
      unfold outputLine
      simp only []
      rw [strip_trimmed hw hw' ht, if_neg ht.ne_nil, if_neg hoa, if_pos (inputName_strip hn)]
      unfold newInput
      rw [hfl]
      have hsp : splitN 3 (i.name ++ (g1 ++ (a ++ (g2 ++ (s ++ (g3 ++ p)))))) = [i.name, a, s, p] := by
        have h1 := splitN_word 2 blank_nil hn.1 (gap_head hg1 (a ++ (g2 ++ (s ++ (g3 ++ p)))))
        rw [List.nil_append] at h1
        rw [h1, splitN_word 1 hg1.2 ha.word (gap_head hg2 _), splitN_word 0 hg2.2 hs.word (gap_head hg3 _), splitN_rest hg3.2 hp]
      show (match splitN 3 (i.name ++ (g1 ++ (a ++ (g2 ++ (s ++ (g3 ++ p)))))) with
        | [n] => _
        | [n, a, s, p] => _
        | _ => _) = _
      rw [hsp]
      simp only []
      rw [int0_hex ha, int0_hex hs, archiveObject_ref hr]
      rfl
    have key := loop_pads hpads rest
      { st with osec := some o', inInput := true, isec := some ⟨i.name, some i.address, some i.size, 0, i.archive, i.object⟩ }
      (o := o') (A := i.address) hf rfl hoa' rfl rfl rfl
    rw [List.cons_append, loop_step hc hstep, key, padded_psec]
  | @two w w1 w2 a g2 s g3 p w' ls hn hw hw1 hw2 ha hg2 hs hg3 hr hp hw' hpads =>
    have hc : ¬ crossRef <+: w ++ i.name ++ w1 := by
      rw [List.append_assoc]
      exact first_word_ne_cross hw hn.1 (blank_head hw1) (inputName_ne_cross hn)
    have hstep : stepLine st (w ++ i.name ++ w1) =
        .ok { st with osec := some o', inInput := true, isec := some ⟨i.name, none, none, 0, [], []⟩ } := by
      rw [step_output hf ho]
      unfold outputLine
      simp only []
      have := inputName_strip (r := []) hn
      rw [List.append_nil] at this
      rw [strip_trimmed hw hw1 hn.1.trimmed, if_neg hn.1.1, if_neg hoa, if_pos this]
      unfold newInput
      rw [hfl]
      have hsp : splitN 3 i.name = [i.name] := by
        have h1 := splitN_word 2 blank_nil hn.1 (.inl rfl)
        rw [List.nil_append, List.append_nil] at h1
        rw [h1, splitN_blank _ blank_nil]
      show (match splitN 3 i.name with
        | [n] => _
        | [n, a, s, p] => _
        | _ => _) = _
      rw [hsp]
    have ht : Trimmed (a ++ (g2 ++ (s ++ (g3 ++ p)))) := trimmed_word_append ha.word (trimmed_word_append hs.word hp g3) g2
    have ha0 := hexOf_head ha
    have hc2 : ¬ crossRef <+: w2 ++ (a ++ (g2 ++ (s ++ (g3 ++ p)))) ++ w' := by
      have := first_word_ne_cross hw2 ha.word (gap_head hg2 ((s ++ (g3 ++ p)) ++ w')) (by rintro rfl; exact absurd ha0 (by decide))
      simpa [List.append_assoc] using this
    have hns : NotStart [str ".", str "COMMON"] (a ++ (g2 ++ (s ++ (g3 ++ p)))) := by
      intro q hq hpq
      simp only [List.mem_cons, List.not_mem_nil, or_false] at hq
      rcases hq with rfl | rfl
      · exact not_prefix_of_head (c := '.') rfl ha0 (by decide) hpq
      · exact not_prefix_of_head (c := 'C') rfl ha0 (by decide) hpq
    have hstep2 : stepLine { st with osec := some o', inInput := true, isec := some ⟨i.name, none, none, 0, [], []⟩ }
        (w2 ++ (a ++ (g2 ++ (s ++ (g3 ++ p)))) ++ w') =
        .ok { st with osec := some o', inInput := true,
                      isec := some ⟨i.name, some i.address, some i.size, 0, i.archive, i.object⟩ } := by
      have hstr := strip_trimmed hw2 hw' ht
      rw [step_in_input (st := { st with osec := some o', inInput := true, isec := some ⟨i.name, none, none, 0, [], []⟩ }) (o := o') (i := ⟨i.name, none, none, 0, [], []⟩) hf rfl hoa' rfl rfl (by rw [hstr]; exact ht.ne_nil)
        (by rw [hstr]; exact hns), hstr]
      unfold inputLine
      rw [if_pos rfl]
      have hsp : splitN 2 (a ++ (g2 ++ (s ++ (g3 ++ p)))) = [a, s, p] := by
        have h1 := splitN_word 1 blank_nil ha.word (gap_head hg2 (s ++ (g3 ++ p)))
        rw [List.nil_append] at h1
        rw [h1, splitN_word 0 hg2.2 hs.word (gap_head hg3 _), splitN_rest hg3.2 hp]
      rw [hsp]
      simp only []
      rw [int0_hex ha, int0_hex hs, archiveObject_ref hr]
      rfl
    have key := loop_pads hpads rest
      { st with osec := some o', inInput := true, isec := some ⟨i.name, some i.address, some i.size, 0, i.archive, i.object⟩ }
      (o := o') (A := i.address) hf rfl hoa' rfl rfl rfl
    rw [List.cons_append, loop_step hc hstep, List.cons_append, loop_step hc2 hstep2, key, padded_psec]

/-! ### adding an input section -/

theorem addFill_snoc (n : Int) (acc : List Got) (g : Got) :
    addFill n (acc ++ [g]) = if g.size ≠ 0 then acc ++ [{ g with fill := g.fill + n }] else addFill n acc ++ [g] := by
  induction acc with
  | nil =>
    simp [addFill]
  | cons a acc ih =>
    rw [List.cons_append, addFill]
    by_cases hg : g.size ≠ 0
    · rw [if_pos (by simp [hg]), ih, if_pos hg, if_pos hg]; rfl
    · rw [if_neg hg] at ih ⊢
      have hany : ((acc ++ [g]).any fun x => decide (x.size ≠ 0)) = acc.any fun x => decide (x.size ≠ 0) := by
        rw [List.any_append]; simp at hg; simp [hg]
      rw [hany, ih]
      unfold addFill
      split
      · rw [addFill.eq_def]; rfl
      · split <;> rfl

theorem addFillRev_eq (v : Int) (acc : List Got) :
    addFillRev (some v) (acc.map Got.toPSec).reverse = .ok ((addFill v acc).map Got.toPSec).reverse := by
  induction acc using snocInd with
  | nil => rfl
  | snoc acc g ih =>
    rw [addFill_snoc, List.map_append, List.reverse_append]
    show addFillRev (some v) (g.toPSec :: (acc.map Got.toPSec).reverse) = _
    rw [addFillRev]
    by_cases hg : g.size ≠ 0
    · rw [if_pos (by simp [truthyInt, Got.toPSec, hg]), if_pos hg]
      simp [Got.toPSec]
    · rw [if_neg (by simpa [truthyInt, Got.toPSec] using hg), if_neg hg, ih]
      simp
      rfl

theorem mapLast_snoc (f : Got → Got) (acc : List Got) (g : Got) : mapLast f (acc ++ [g]) = acc ++ [f g] := by
  induction acc with
  | nil => rfl
  | cons a acc ih =>
    rw [List.cons_append]
    cases h : acc ++ [g] with
    | nil => simp at h
    | cons b l =>
      rw [mapLast]
      · rw [← h, ih]; rfl
      · simp

theorem zeroLast_eq (acc : List Got) :
    zeroLast (acc.map Got.toPSec) = (mapLast (fun x => { x with size := 0 }) acc).map Got.toPSec := by
  induction acc using snocInd with
  | nil => rfl
  | snoc acc g _ =>
    rw [mapLast_snoc]
    unfold zeroLast
    simp [Got.toPSec]

theorem addFill_zero (acc : List Got) : addFill 0 acc = acc := by
  induction acc using snocInd with
  | nil => rfl
  | snoc acc g ih => rw [addFill_snoc, ih]; simp

theorem addInput_settle {name : Str} {oa os : Int} {acc : List Got} {i : Listed} {var : Option Int} (hs : SimplePads oa os i) :
    addInput ⟨name, some oa, some os, acc.map Got.toPSec⟩ i.psec (lastFill var i.pads) =
      .ok ⟨name, some oa, some os, (settle oa os acc i).map Got.toPSec⟩ := by
  unfold addInput settle
  simp only [List.getLast?_map]
  cases hl : acc.getLast? with
  | none => rfl
  | some last =>
    simp only [Option.map_some, Listed.psec, Got.toPSec]
    have hcond : (i.address < oa ∨ i.address ≥ oa + os) ↔ ¬ (oa ≤ i.address ∧ i.address < oa + os) := by omega
    simp only [hcond, ite_not]
    have hz := zeroLast_eq acc
    have key : ∀ (acc' : List Got) (z : Int), (z = i.ownSize ∨ (z = 0 ∧ ¬ (oa ≤ i.address ∧ i.address < oa + os))) →
        (if (!truthyInt (some z) && decide (i.padding ≠ 0)) = true then do
          let inputs ← addFillRev (lastFill var i.pads) (acc'.map Got.toPSec).reverse
          Except.ok (⟨name, some oa, some os, inputs.reverse ++ [⟨i.name, some i.address, some z, 0, i.archive, i.object⟩]⟩ : POut)
        else Except.ok ⟨name, some oa, some os, acc'.map Got.toPSec ++ [⟨i.name, some i.address, some z, i.padding, i.archive, i.object⟩]⟩) =
        Except.ok ⟨name, some oa, some os,
          (if z = 0 then addFill i.padding acc' ++ [(⟨i.name, i.address, z, 0, i.archive, i.object⟩ : Got)]
           else acc' ++ [⟨i.name, i.address, z, i.padding, i.archive, i.object⟩]).map Got.toPSec⟩ := by
      intro acc' z hzz
      by_cases hz0 : z = 0
      · subst hz0
        by_cases hp0 : i.padding = 0
        · rw [if_neg (by simp [hp0]), if_pos rfl, hp0, addFill_zero]
          simp [Got.toPSec]
        · rw [if_pos (by simp [hp0, truthyInt]), if_pos rfl]
          have hv : lastFill var i.pads = some i.padding := by
            rcases hs with h | ⟨p, h, hf⟩ | ⟨h1, h2, h3⟩
            · exact absurd (by simp [Listed.padding, h]) hp0
            · simp [Listed.padding, h, lastFill, hf]
            · rcases hzz with h | ⟨_, h⟩
              · exact absurd h.symm h1
              · exact absurd ⟨h2, h3⟩ h
          rw [hv, addFillRev_eq]
          show Except.ok _ = _
          simp [Got.toPSec]
      · rw [if_neg (by simp [truthyInt, hz0]), if_neg hz0]
        simp [Got.toPSec]
    by_cases hin : oa ≤ i.address ∧ i.address < oa + os
    · rw [if_pos hin, if_pos hin]
      simp only [Option.some.injEq]
      by_cases hsame : last.address = i.address
      · rw [if_pos hsame, if_pos hsame]
        have := key (mapLast (fun x => { x with size := 0 }) acc) i.ownSize (.inl rfl)
        rw [← hz] at this
        exact this
      · rw [if_neg hsame, if_neg hsame]
        exact key acc i.ownSize (.inl rfl)
    · rw [if_neg hin, if_neg hin]
      simp only [Option.some.injEq]
      by_cases hsame : last.address = i.address
      · rw [if_pos hsame, if_pos hsame]
        have := key (mapLast (fun x => { x with size := 0 }) acc) 0 (.inr ⟨rfl, hin⟩)
        rw [← hz] at this
        exact this
      · rw [if_neg hsame, if_neg hsame]
        exact key acc 0 (.inr ⟨rfl, hin⟩)

/-! ### output sections -/

theorem loop_inputs {is : List Listed} {ls : List Str} (h : InputsText is ls) (rest : List Str) {name : Str} {oa os : Int}
    (hs : ∀ i ∈ is, SimplePads oa os i) (st : PState) {o : POut} {acc : List Got} (hf : st.found = true) (ho : st.osec = some o)
    (hoa : o.address ≠ none) (hfl : flush o st.isec st.sizeVar = .ok ⟨name, some oa, some os, acc.map Got.toPSec⟩) :
    ∃ st' o', sectionsLoop (ls ++ rest) st = sectionsLoop rest st' ∧ st'.found = true ∧ st'.done = st.done ∧ st'.osec = some o' ∧
      flush o' st'.isec st'.sizeVar = .ok ⟨name, some oa, some os, (is.foldl (settle oa os) acc).map Got.toPSec⟩ := by
  induction h generalizing st o acc with
  | nil => exact ⟨st, o, rfl, hf, rfl, ho, hfl⟩
  | @cons i is ls ls' hi _ ih =>
    have := loop_input hi (ls' ++ rest) st hf ho hoa hfl (by simp)
    rw [List.append_assoc, this]
    exact ih (fun x hx => hs x (by simp [hx]))
      { st with osec := some ⟨name, some oa, some os, acc.map Got.toPSec⟩, inInput := true, isec := some i.psec,
                sizeVar := lastFill st.sizeVar i.pads }
      (acc := settle oa os acc i) hf rfl (by simp) (addInput_settle (hs i (by simp)))

theorem loop_plain {m : List Str} (h : ∀ l ∈ m, PlainLine l) (rest : List Str) (st : PState) {o : POut} (hf : st.found = true)
    (ho : st.osec = some o) (hoa : o.address ≠ none) (hin : st.inInput = false) :
    sectionsLoop (m ++ rest) st = sectionsLoop rest st := by
  induction m with
  | nil => rfl
  | cons l m ih =>
    obtain ⟨h1, h2, h3⟩ := plain_strip (h l (by simp))
    have hstep : stepLine st l = .ok st := by
      rw [step_output hf ho]
      unfold outputLine
      simp only []
      rw [if_neg h1, if_neg hoa, if_neg (by simp [notStart_any h2]), if_neg (by simp [hin])]
    rw [List.cons_append, loop_step h3 hstep]
    exact ih fun x hx => h x (by simp [hx])

theorem not_cross_dot {l : Str} (h : str "." <+: l) : ¬ crossRef <+: l := prefix_ne h (by decide)

theorem step_new {l : Str} {st : PState} (hf : st.found = true) (ho : st.osec = none) (hd : str "." <+: l) :
    stepLine st l = newOutput st l := by
  unfold stepLine
  rw [hf, ho]
  simp only [Bool.not_true, Bool.false_eq_true, if_false]
  rw [if_pos (startsWith_true hd)]

theorem loop_head {o : ListedOut} {h : List Str} (hh : HeadText o h) (rest : List Str) (st : PState) (hf : st.found = true)
    (ho : st.osec = none) :
    ∃ v, sectionsLoop (h ++ rest) st =
      sectionsLoop rest { st with osec := some ⟨o.name, some o.address, some o.size, []⟩, sizeVar := v } := by
  have hbare : ∀ {l : Str} (_ : str "." <+: l) (_ : Words l [o.name]) (rest : List Str),
      sectionsLoop (l :: rest) st = sectionsLoop rest { st with osec := some ⟨o.name, none, none, []⟩ } := by
    intro l hd hw rest
    refine loop_step (not_cross_dot hd) ?_ rest
    rw [step_new hf ho hd]
    unfold newOutput
    rw [split_words hw]
  cases hh with
  | @one a s l hd ha hs hw =>
    refine ⟨st.sizeVar, ?_⟩
    refine loop_step (not_cross_dot hd) ?_ rest
    rw [step_new hf ho hd]
    unfold newOutput
    rw [split_words hw]
    simp only []
    rw [int0_hex ha, int0_hex hs]
    rfl
  | @two a s l l' hd hw ha hs hw' =>
    refine ⟨some o.size, ?_⟩
    have ha0 := hexOf_head ha
    rw [List.cons_append, hbare hd hw]
    refine loop_step (not_cross_of_words hw' (by rintro rfl; exact absurd ha0 (by decide))) ?_ rest
    rw [step_output (st := { st with osec := some ⟨o.name, none, none, []⟩ }) (o := ⟨o.name, none, none, []⟩) hf rfl]
    unfold outputLine
    simp only []
    rw [if_neg (words_strip_ne hw'), if_pos trivial]
    unfold outputCont
    rw [split_strip, split_words hw']
    simp only []
    rw [pyInt0_hex ha, pyInt0_hex hs]
  | @bare l l' hd hw hz1 hz2 hp hn =>
    refine ⟨st.sizeVar, ?_⟩
    obtain ⟨h1, h2, h3⟩ := plain_strip hp
    rw [List.cons_append, hbare hd hw]
    refine loop_step h3 ?_ rest
    rw [step_output (st := { st with osec := some ⟨o.name, none, none, []⟩ }) (o := ⟨o.name, none, none, []⟩) hf rfl]
    unfold outputLine
    simp only []
    rw [if_neg h1, if_pos trivial]
    unfold outputCont
    rw [split_strip]
    split
    · rename_i a s heq
      exact absurd (words_iff.mpr heq) (hn a s)
    · rw [hz1, hz2]

/-- State between output sections. -/
def Between (st : PState) : Prop := st.found = true ∧ st.osec = none ∧ st.isec = none ∧ st.inInput = false

theorem loop_out {o : ListedOut} {ls : List Str} (h : OutText o ls) (hs : ∀ i ∈ o.inputs, SimplePads o.address o.size i)
    (rest : List Str) (st : PState) (hb : Between st) :
    ∃ st', sectionsLoop (ls ++ rest) st = sectionsLoop rest st' ∧ Between st' ∧ st'.done = st.done ++ [o.toPOut] := by
  obtain ⟨hf, ho, hi, hin⟩ := hb
  cases h with
  | @mk hd m ls w hh hm hls hw =>
    obtain ⟨v, hv⟩ := loop_head hh ((m ++ (ls ++ [w])) ++ rest) st hf ho
    have hpl := loop_plain hm ((ls ++ [w]) ++ rest)
      { st with osec := some ⟨o.name, some o.address, some o.size, []⟩, sizeVar := v } hf rfl (by simp) hin
    rw [List.append_assoc, hv, List.append_assoc, hpl, List.append_assoc]
    obtain ⟨st', o', h1, h2, h3, h4, h5⟩ := loop_inputs hls ([w] ++ rest) (name := o.name) hs
      { st with osec := some ⟨o.name, some o.address, some o.size, []⟩, sizeVar := v } (acc := []) hf rfl (by simp)
      (by rw [hi]; rfl)
    refine ⟨{ st' with done := st'.done ++ [o.toPOut], osec := none, isec := none, inInput := false }, ?_, ⟨h2, rfl, rfl, rfl⟩, ?_⟩
    · rw [h1]
      refine loop_step (not_cross_blank hw) ?_ rest
      rw [step_output h2 h4]
      unfold outputLine
      simp only []
      rw [strip_blank hw, if_pos rfl, h5]
      rfl
    · rw [h3]

theorem loop_outs {os : List ListedOut} {ls : List Str} (h : OutsText os ls)
    (hs : ∀ o ∈ os, ∀ i ∈ o.inputs, SimplePads o.address o.size i) (rest : List Str) (st : PState) (hb : Between st) :
    ∃ st', sectionsLoop (ls ++ rest) st = sectionsLoop rest st' ∧ Between st' ∧ st'.done = st.done ++ os.map ListedOut.toPOut := by
  induction h generalizing st with
  | nil => exact ⟨st, rfl, hb, by simp⟩
  | @other os l ls hl _ ih =>
    have hstep : stepLine st l = .ok st := by
      unfold stepLine
      rw [hb.1, hb.2.1]
      simp only [Bool.not_true, Bool.false_eq_true, if_false]
      rw [if_neg (by simp [startsWith_false (hl (str ".") (by simp))])]
    rw [List.cons_append, loop_step (hl crossRef (by simp)) hstep]
    exact ih hs st hb
  | @cons o os ls ls' ho _ ih =>
    obtain ⟨st1, h1, h2, h3⟩ := loop_out ho (hs o (by simp)) (ls' ++ rest) st hb
    obtain ⟨st2, k1, k2, k3⟩ := ih (fun x hx => hs x (by simp [hx])) st1 h2
    refine ⟨st2, by rw [List.append_assoc, h1, k1], k2, ?_⟩
    rw [k3, h3]; simp

end EspSize
