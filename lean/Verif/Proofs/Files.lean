import Verif.Proofs.JsonSound
import Verif.Spec.Files
import Verif.Model.Files
import Verif.Props.ElfFile
/-! # Text files: decoding, ends of lines -/
namespace EspSize

theorem utf8_enc (s : Str) : s.utf8Encode.data.toList = utf8 s := by
  unfold List.utf8Encode utf8
  simp

theorem decodeUtf8_utf8 (s : Str) : decodeUtf8 (utf8 s) = .ok s := by
  rw [← utf8_enc]
  exact decodeUtf8_enc s

theorem decodeUtf8_ok {b : Bytes} {s : Str} (h : decodeUtf8 b = .ok s) : b = utf8 s := by
  unfold decodeUtf8 at h
  split at h
  · rename_i a ha
    cases h
    have hs : ((ByteArray.mk b.toArray).utf8Decode?).isSome := by rw [ha]; rfl
    have := ByteArray.utf8Encode_get_utf8Decode? (b := ByteArray.mk b.toArray) (h := hs)
    simp only [ha, Option.get_some] at this
    rw [← utf8_enc, this]
  · cases h

/-- Bytes that are the UTF-8 of no text cannot be decoded. -/
theorem decodeUtf8_bad {b : Bytes} (h : ∀ s, b ≠ utf8 s) : ∃ e, decodeUtf8 b = .error e := by
  cases hd : decodeUtf8 b with
  | error e => exact ⟨e, rfl⟩
  | ok s => exact absurd (decodeUtf8_ok hd) (h s)

/-! ## Ends of lines -/

theorem isNewline_oneLine {l : Str} (h : OneLine l) : ∀ c ∈ l, isNewline c = false := by
  intro c hc
  have := h c hc
  simp only [List.mem_cons, List.not_mem_nil, or_false] at this
  simp only [isNewline]
  simp only [Bool.or_eq_false_iff, Bool.and_eq_false_iff, decide_eq_false_iff_not]
  omega

theorem newlines_cons {c : Char} {t : Str} (h : c ≠ '\r') : newlines (c :: t) = c :: newlines t := by
  rw [newlines]
  · rw [if_neg h]
  · intro u hu
    exact fun _ => h hu

theorem newlines_plain {l : Str} (h : '\r' ∉ l) (t : Str) : newlines (l ++ t) = l ++ newlines t := by
  induction l with
  | nil => rfl
  | cons c l ih =>
    simp only [List.mem_cons, not_or] at h
    rw [List.cons_append, newlines_cons (Ne.symm h.1), ih h.2, List.cons_append]

theorem newlines_cr {t : Str} (h : ∀ u, t ≠ '\n' :: u) : newlines ('\r' :: t) = '\n' :: newlines t := by
  rw [newlines]
  · rw [if_pos rfl]
  · intro u _ hu
    exact h u hu

theorem splitlinesAux_line {l : Str} (h : ∀ c ∈ l, isNewline c = false) (cur t : Str) :
    splitlinesAux cur (l ++ t) = splitlinesAux (l.reverse ++ cur) t := by
  induction l generalizing cur with
  | nil => rfl
  | cons c l ih =>
    rw [List.cons_append, splitlinesAux, if_neg (by rw [h c (by simp)]; simp), ih fun d hd => h d (by simp [hd])]
    simp

theorem splitlines_cons {l : Str} (h : OneLine l) (t : Str) : splitlines (l ++ '\n' :: t) = l :: splitlines t := by
  unfold splitlines
  rw [splitlinesAux_line (isNewline_oneLine h), splitlinesAux, if_pos (by decide)]
  simp

theorem splitlines_last {l : Str} (h : OneLine l) (hne : l ≠ []) : splitlines l = [l] := by
  have := splitlinesAux_line (isNewline_oneLine h) [] []
  unfold splitlines
  rw [List.append_nil] at this
  rw [this, splitlinesAux, if_neg (by simpa using hne)]
  simp

theorem noCr {l : Str} (h : OneLine l) : '\r' ∉ l := fun hc => h _ hc (by decide)

theorem oneLine_noLf {l t : Str} (h : OneLine l) (hl : l ≠ []) (u : Str) : l ++ t ≠ '\n' :: u := by
  cases l with
  | nil => exact absurd rfl hl
  | cons c l =>
    intro e
    have := (List.cons.inj e).1
    exact h c (by simp) (by rw [this]; decide)

/-- The lines of a text, whatever their ends. -/
theorem splitlines_text {ls : List Str} {t : Str} (h : LinesOf ls t) (hl : ∀ l ∈ ls, OneLine l) : splitlines (newlines t) = ls := by
  rcases h with h | h
  · induction h with
    | nil => rfl
    | @last l hne =>
      have h1 := hl l (by simp)
      have := newlines_plain (noCr h1) []
      rw [List.append_nil] at this
      rw [this]
      simpa [newlines] using splitlines_last h1 hne
    | @cons l e t ls he _ ih =>
      have h1 := hl l (by simp)
      have h2 := ih fun x hx => hl x (by simp [hx])
      rw [List.append_assoc, newlines_plain (noCr h1)]
      have e1 : newlines (e ++ t) = '\n' :: newlines t := by
        simp only [List.mem_cons, List.not_mem_nil, or_false] at he
        rcases he with rfl | rfl
        · exact newlines_cons (by decide)
        · simp only [List.cons_append, List.nil_append, newlines]
      rw [e1, splitlines_cons h1, h2]
  · have key : ∀ u, t ≠ '\n' :: u := by
      cases h with
      | nil => intro u hu; cases hu
      | last hne => intro u hu; exact oneLine_noLf (hl _ (by simp)) hne (t := []) u (by simpa using hu)
      | @cons l e t ls he _ =>
        simp only [List.mem_cons, List.not_mem_nil, or_false] at he
        subst he
        intro u hu
        by_cases hne : l = []
        · subst hne; exact absurd (List.cons.inj hu).1 (by decide)
        · exact oneLine_noLf (hl l (by simp)) hne u (by simpa using hu)
    clear key
    induction h with
    | nil => rfl
    | @last l hne =>
      have h1 := hl l (by simp)
      have := newlines_plain (noCr h1) []
      rw [List.append_nil] at this
      rw [this]
      simpa [newlines] using splitlines_last h1 hne
    | @cons l e t ls he ht ih =>
      have h1 := hl l (by simp)
      have h2 := ih fun x hx => hl x (by simp [hx])
      simp only [List.mem_cons, List.not_mem_nil, or_false] at he
      subst he
      have key : ∀ u, t ≠ '\n' :: u := by
        cases ht with
        | nil => intro u hu; cases hu
        | last hne => intro u hu; exact oneLine_noLf (hl _ (by simp)) hne (t := []) u (by simpa using hu)
        | @cons l' e' t' ls' he' _ =>
          simp only [List.mem_cons, List.not_mem_nil, or_false] at he'
          subst he'
          intro u hu
          by_cases hne : l' = []
          · subst hne; exact absurd (List.cons.inj hu).1 (by decide)
          · exact oneLine_noLf (hl l' (by simp)) hne u (by simpa using hu)
      rw [List.append_assoc, newlines_plain (noCr h1)]
      have e1 : newlines (['\r'] ++ t) = '\n' :: newlines t := newlines_cr key
      rw [e1, splitlines_cons h1, h2]

/-- No end of line. -/
def NoEnd (l : Str) : Prop := '\n' ∉ l ∧ '\r' ∉ l

theorem noEnd_head {l t : Str} (h : NoEnd l) (ht : ∀ u, t ≠ '\n' :: u) (u : Str) : l ++ t ≠ '\n' :: u := by
  cases l with
  | nil => exact ht u
  | cons c l => intro e; exact h.1 (by simp [(List.cons.inj e).1])

theorem ended_head {ls : List Str} {rest u : Str} (hu : Ended [['\r']] ls u) (hl : ∀ l ∈ ls, NoEnd l) (hr : NoEnd rest) (v : Str) :
    u ++ rest ≠ '\n' :: v := by
  cases hu with
  | nil => exact fun e => hr.1 (by rw [show rest = '\n' :: v from e]; simp)
  | @cons l e t ls he _ =>
    simp only [List.mem_cons, List.not_mem_nil, or_false] at he
    subst he
    rw [List.append_assoc, List.append_assoc]
    exact noEnd_head (hl l (by simp)) (fun w e => absurd (List.cons.inj e).1 (by decide)) v

/-- What text mode makes of a text does not depend on the ends of its lines. -/
theorem newlines_ended {ls : List Str} {rest t : Str} (h : TextOf ls rest t) (hl : ∀ l ∈ ls, NoEnd l) (hr : NoEnd rest) :
    newlines t = (ls.flatMap fun l => l ++ ['\n']) ++ rest := by
  obtain ⟨u, h, rfl⟩ := h
  rcases h with h | h
  · induction h with
    | nil => simpa [newlines] using newlines_plain hr.2 []
    | @cons l e t ls he _ ih =>
      have ih := ih fun x hx => hl x (by simp [hx])
      have e1 : newlines (e ++ (t ++ rest)) = '\n' :: newlines (t ++ rest) := by
        simp only [List.mem_cons, List.not_mem_nil, or_false] at he
        rcases he with rfl | rfl
        · exact newlines_cons (by decide)
        · simp only [List.cons_append, List.nil_append, newlines]
      rw [List.append_assoc, List.append_assoc, newlines_plain (hl l (by simp)).2, e1, ih]
      simp
  · induction h with
    | nil => simpa [newlines] using newlines_plain hr.2 []
    | @cons l e t ls he ht ih =>
      have hl' : ∀ x ∈ ls, NoEnd x := fun x hx => hl x (by simp [hx])
      have ih := ih hl'
      simp only [List.mem_cons, List.not_mem_nil, or_false] at he
      subst he
      have e1 : newlines (['\r'] ++ (t ++ rest)) = '\n' :: newlines (t ++ rest) :=
        newlines_cr (t := t ++ rest) fun v => ended_head ht hl' hr v
      rw [List.append_assoc, List.append_assoc, newlines_plain (hl l (by simp)).2, e1, ih]
      simp

/-! ## Ends of lines in JSON texts -/

/-- Neither ends `a` with a carriage return nor begins `b` with a line feed: then the ends of lines can be translated separately. -/
theorem newlines_append {a b : Str} (h : (∀ r, a ≠ r ++ ['\r']) ∨ ∀ u, b ≠ '\n' :: u) : newlines (a ++ b) = newlines a ++ newlines b := by
  have key : ∀ k a, a.length ≤ k → ((∀ r, a ≠ r ++ ['\r']) ∨ ∀ u, b ≠ '\n' :: u) → newlines (a ++ b) = newlines a ++ newlines b := by
    intro k
    induction k with
    | zero =>
      intro a ha _
      cases a with
      | nil => rfl
      | cons c a => simp at ha
    | succ k ih =>
      intro a ha h
      cases a with
      | nil => rfl
      | cons c a =>
        have h' : (∀ r, a ≠ r ++ ['\r']) ∨ ∀ u, b ≠ '\n' :: u := by
          rcases h with h | h
          · exact .inl fun r hr => h (c :: r) (by rw [hr]; rfl)
          · exact .inr h
        simp only [List.length_cons] at ha
        by_cases hc : c = '\r'
        · subst hc
          cases a with
          | nil =>
            have hb : ∀ u, b ≠ '\n' :: u := by
              rcases h with h | h
              · exact absurd rfl (h [])
              · exact h
            simp only [List.cons_append, List.nil_append]
            rw [newlines_cr hb]
            rfl
          | cons d a =>
            by_cases hd : d = '\n'
            · subst hd
              have h'' : (∀ r, a ≠ r ++ ['\r']) ∨ ∀ u, b ≠ '\n' :: u := by
                rcases h' with h | h
                · exact .inl fun r hr => h ('\n' :: r) (by rw [hr]; rfl)
                · exact .inr h
              simp only [List.cons_append, newlines]
              rw [ih a (by simp only [List.length_cons] at ha; omega) h'']
            · have e1 : newlines ('\r' :: d :: a ++ b) = '\n' :: newlines (d :: a ++ b) :=
                newlines_cr fun u hu => hd (List.cons.inj hu).1
              have e2 : newlines ('\r' :: d :: a) = '\n' :: newlines (d :: a) := newlines_cr fun u hu => hd (List.cons.inj hu).1
              rw [e1, e2, ih (d :: a) (by simpa using ha) h']
              rfl
        · rw [List.cons_append, newlines_cons hc, newlines_cons hc, ih a (by omega) h']
          rfl
  exact key a.length a (Nat.le_refl _) h

theorem newlines_blank {w : Str} (h : JsonBlank w) : JsonBlank (newlines w) := by
  have key : ∀ k w, w.length ≤ k → JsonBlank w → JsonBlank (newlines w) := by
    intro k
    induction k with
    | zero =>
      intro w hw _
      cases w with
      | nil => exact fun c hc => (nomatch hc)
      | cons c w => simp at hw
    | succ k ih =>
      intro w hw h
      unfold newlines
      split
      · exact fun c hc => (nomatch hc)
      · rename_i t
        have := ih t (by simp only [List.length_cons] at hw; omega) fun d hd => h d (by simp [hd])
        intro c hc
        rcases List.mem_cons.mp hc with rfl | hc
        · simp
        · exact this c hc
      · rename_i c t _
        have := ih t (by simp only [List.length_cons] at hw; omega) fun d hd => h d (by simp [hd])
        intro d hd
        rcases List.mem_cons.mp hd with rfl | hd
        · split
          · simp
          · exact h c (by simp)
        · exact this d hd
  exact key w.length w (Nat.le_refl _) h

/-- No control character. -/
def NoControl (s : Str) : Prop := ∀ c ∈ s, 0x20 ≤ c.toNat

theorem noControl_append {s t : Str} (hs : NoControl s) (ht : NoControl t) : NoControl (s ++ t) := fun c hc =>
  (List.mem_append.mp hc).elim (hs c) (ht c)

theorem noControl_hex {k : Nat} {c : Char} (h : HexDigit k c) : 0x20 ≤ c.toNat := by
  cases h with
  | dec h => exact (by decide : ∀ k < 10, 0x20 ≤ (Char.ofNat (48 + k)).toNat) _ h
  | low h => exact (by decide : ∀ k < 6, 0x20 ≤ (Char.ofNat (97 + k)).toNat) _ h
  | upp h => exact (by decide : ∀ k < 6, 0x20 ≤ (Char.ofNat (65 + k)).toNat) _ h

theorem noControl_unit {n : Nat} {s : Str} (h : UnitText n s) : NoControl s := by
  cases h with
  | mk h1 h2 h3 h4 =>
    intro c hc
    simp only [List.mem_cons, List.not_mem_nil, or_false] at hc
    rcases hc with rfl | rfl | rfl | rfl | rfl | rfl
    · decide
    · decide
    · exact noControl_hex h1
    · exact noControl_hex h2
    · exact noControl_hex h3
    · exact noControl_hex h4

theorem noControl_two {a b : Char} (ha : 0x20 ≤ a.toNat) (hb : 0x20 ≤ b.toNat) : NoControl [a, b] := by
  intro c hc
  simp only [List.mem_cons, List.not_mem_nil, or_false] at hc
  rcases hc with rfl | rfl <;> assumption

theorem noControl_char {c : Char} {s : Str} (h : CharText c s) : NoControl s := by
  cases h with
  | plain h _ _ => intro d hd; rw [List.mem_singleton.mp hd]; exact h
  | unit h => exact noControl_unit h
  | pair h1 h2 => exact noControl_append (noControl_unit h1) (noControl_unit h2)
  | _ => exact noControl_two (by decide) (by decide)

theorem noControl_chars {x s : Str} (h : CharsText x s) : NoControl s := by
  induction h with
  | nil => exact fun c hc => (nomatch hc)
  | cons hc _ ih => exact noControl_append (noControl_char hc) ih

theorem noControl_string {x s : Str} (h : StringText x s) : NoControl s := by
  cases h with
  | mk h =>
    intro c hc
    simp only [List.cons_append, List.mem_cons, List.mem_append, List.not_mem_nil, or_false] at hc
    rcases hc with rfl | hc | rfl
    · decide
    · exact noControl_chars h c hc
    · decide

theorem asciiDigit_control {c : Char} (h : asciiDigit c = true) : 0x20 ≤ c.toNat := by
  simp only [asciiDigit, Bool.and_eq_true, decide_eq_true_eq] at h
  have : '0'.toNat ≤ c.toNat := h.1
  exact Nat.le_trans (by decide) this

theorem noControl_digits {n : Nat} {s : Str} (h : DigitsText n s) : NoControl s := fun c hc => asciiDigit_control ((digits_text h).2.1 c hc)

theorem noControl_frac {s : Str} (h : s = [] ∨ FracText s) : NoControl s := by
  rcases h with rfl | ⟨n, t, h, rfl⟩
  · exact fun c hc => (nomatch hc)
  · intro c hc
    rcases List.mem_cons.mp hc with rfl | hc
    · decide
    · exact noControl_digits h c hc

theorem noControl_exp {s : Str} (h : s = [] ∨ ExpText s) : NoControl s := by
  rcases h with rfl | ⟨n, t, e, sign, h, he, hs, rfl⟩
  · exact fun c hc => (nomatch hc)
  · intro c hc
    simp only [List.cons_append, List.mem_cons, List.mem_append] at hc
    rcases hc with rfl | hc | hc
    · rcases he with rfl | rfl <;> decide
    · rcases hs with rfl | rfl | rfl
      · cases hc
      · rw [List.mem_singleton.mp hc]; decide
      · rw [List.mem_singleton.mp hc]; decide
    · exact noControl_digits h c hc

theorem noControl_newlines {s : Str} (h : NoControl s) : newlines s = s := by
  have := newlines_plain (l := s) (fun hc => absurd (h _ hc) (by decide)) []
  simpa [newlines] using this

/-- First and last character of a value are no ends of lines. -/
structure Tight (s : Str) : Prop where
  ne : s ≠ []
  head : ∀ u, s ≠ '\n' :: u
  last : ∀ r, s ≠ r ++ ['\r']

theorem tight_noControl {s : Str} (hne : s ≠ []) (h : NoControl s) : Tight s :=
  ⟨hne, fun u e => absurd (h '\n' (by simp [e])) (by decide), fun r e => absurd (h '\r' (by simp [e])) (by decide)⟩

theorem tight_brackets {a b : Char} (ha : a ≠ '\n') (hb : b ≠ '\r') (s : Str) : Tight (a :: s ++ [b]) :=
  ⟨by simp, fun u e => ha (List.cons.inj e).1, fun r e => hb (by
    have := congrArg List.getLast? e
    rw [List.getLast?_concat, List.getLast?_concat] at this
    exact Option.some.inj this)⟩

/-- What is claimed of a text of each kind: with ends of lines translated it is a text of the same kind. -/
def Translated : JNode → Str → Prop
  | .value v, s => Tight s ∧ JText (.value v) (newlines s)
  | j, s => JText j (newlines s)

theorem newlines_brackets {a b : Char} (ha : a ≠ '\r') (hb : b ≠ '\r') (hb' : b ≠ '\n') (s : Str) :
    newlines (a :: s ++ [b]) = a :: newlines s ++ [b] := by
  have e1 : newlines (s ++ [b]) = newlines s ++ newlines [b] := newlines_append (.inr fun u hu => hb' (List.cons.inj hu).1)
  have e2 : newlines [b] = [b] := by rw [newlines_cons hb]; rfl
  rw [List.cons_append, newlines_cons ha, e1, e2]
  rfl

theorem newlines_sep {s t : Str} {b : Char} (hb : b ≠ '\r') (hb' : b ≠ '\n') : newlines (s ++ b :: t) = newlines s ++ b :: newlines t := by
  rw [newlines_append (.inr fun u hu => hb' (List.cons.inj hu).1), newlines_cons hb]

theorem newlines_value {w s w' : Str} (h : Tight s) : newlines (w ++ s ++ w') = newlines w ++ newlines s ++ newlines w' := by
  cases s with
  | nil => exact absurd rfl h.ne
  | cons c s =>
    rw [List.append_assoc, newlines_append (.inr fun u hu => h.head s (by rw [(List.cons.inj hu).1])), newlines_append (.inl h.last)]
    simp

theorem string_ne {x s : Str} (h : StringText x s) : s ≠ [] := by
  cases h with
  | mk _ => simp

theorem translated_plain {v : JVal} {s : Str} (h : JText (.value v) s) (hne : s ≠ []) (hc : NoControl s) : Translated (.value v) s :=
  ⟨tight_noControl hne hc, by rw [noControl_newlines hc]; exact h⟩

theorem noControl_str (l : Str) (h : l.all (fun c => decide (0x20 ≤ c.toNat)) = true) : NoControl l := fun c hc =>
  of_decide_eq_true (List.all_eq_true.mp h c hc)

theorem newlines_string {x s : Str} (h : StringText x s) : newlines s = s := noControl_newlines (noControl_string h)

theorem digits_ne {n : Nat} {s : Str} (h : DigitsText n s) : s ≠ [] := by
  cases h with
  | one _ => simp
  | snoc _ _ => simp

theorem translated {j : JNode} {s : Str} (h : JText j s) : Translated j s := by
  induction h with
  | null => exact translated_plain .null (by decide) (noControl_str _ (by decide))
  | true_ => exact translated_plain .true_ (by decide) (noControl_str _ (by decide))
  | false_ => exact translated_plain .false_ (by decide) (noControl_str _ (by decide))
  | word hw =>
    refine translated_plain (.word hw) ?_ ?_
    all_goals
      simp only [List.mem_cons, List.not_mem_nil, or_false] at hw
      rcases hw with rfl | rfl | rfl
    all_goals first | decide | exact noControl_str _ (by decide)
  | nat h => exact translated_plain (.nat h) (digits_ne h.1) (noControl_digits h.1)
  | neg h =>
    exact translated_plain (.neg h) (by simp) (fun c hc => (List.mem_cons.mp hc).elim (fun e => by rw [e]; decide) (noControl_digits h.1 c))
  | @float n m s f e hm h hf he hne =>
    refine translated_plain (.float hm h hf he hne) (by simp [digits_ne h.1])
      (noControl_append (noControl_append (noControl_append ?_ (noControl_digits h.1)) (noControl_frac hf)) (noControl_exp he))
    rcases hm with rfl | rfl
    · exact fun c hc => (nomatch hc)
    · exact noControl_str _ (by decide)
  | str h => exact translated_plain (.str h) (string_ne h) (noControl_string h)
  | arr0 h =>
    refine ⟨tight_brackets (by decide) (by decide) _, ?_⟩
    rw [newlines_brackets (by decide) (by decide) (by decide)]
    exact .arr0 (newlines_blank h)
  | arr _ ih =>
    refine ⟨tight_brackets (by decide) (by decide) _, ?_⟩
    rw [newlines_brackets (by decide) (by decide) (by decide)]
    exact .arr ih
  | obj0 h =>
    refine ⟨tight_brackets (by decide) (by decide) _, ?_⟩
    rw [newlines_brackets (by decide) (by decide) (by decide)]
    exact .obj0 (newlines_blank h)
  | obj _ ih =>
    refine ⟨tight_brackets (by decide) (by decide) _, ?_⟩
    rw [newlines_brackets (by decide) (by decide) (by decide)]
    exact .obj ih
  | item hw _ hw' ih =>
    show JText _ (newlines _)
    rw [newlines_value ih.1]
    exact .item (newlines_blank hw) ih.2 (newlines_blank hw')
  | moreItems hw _ hw' _ ih ih2 =>
    show JText _ (newlines _)
    rw [newlines_sep (by decide) (by decide), newlines_value ih.1]
    exact .moreItems (newlines_blank hw) ih.2 (newlines_blank hw') ih2
  | @member k v w1 ks w2 w3 s w4 h1 hk h2 h3 _ h4 ih =>
    show JText _ (newlines _)
    have e : w1 ++ ks ++ w2 ++ ':' :: w3 ++ s ++ w4 = (w1 ++ ks ++ w2) ++ ':' :: (w3 ++ s ++ w4) := by simp
    rw [e, newlines_sep (by decide) (by decide), newlines_value ih.1, newlines_value (tight_noControl (string_ne hk) (noControl_string hk)),
      newlines_string hk]
    have := JText.member (newlines_blank h1) hk (newlines_blank h2) (newlines_blank h3) ih.2 (newlines_blank h4)
    simpa using this
  | @moreMembers k v l w1 ks w2 w3 s w4 t h1 hk h2 h3 _ h4 _ ih ih2 =>
    show JText _ (newlines _)
    have e : w1 ++ ks ++ w2 ++ ':' :: w3 ++ s ++ w4 ++ ',' :: t = (w1 ++ ks ++ w2) ++ ':' :: ((w3 ++ s ++ w4) ++ ',' :: t) := by simp
    rw [e, newlines_sep (by decide) (by decide), newlines_sep (by decide) (by decide), newlines_value ih.1,
      newlines_value (tight_noControl (string_ne hk) (noControl_string hk)), newlines_string hk]
    have := JText.moreMembers (newlines_blank h1) hk (newlines_blank h2) (newlines_blank h3) ih.2 (newlines_blank h4) ih2
    simpa using this

/-- A JSON text is the same JSON text whatever the ends of its lines. -/
theorem jsonText_newlines {v : JVal} {s : Str} (h : JsonText v s) : JsonText v (newlines s) := by
  obtain ⟨w, t, w', hw, ht, hw', rfl⟩ := h
  have := translated ht
  exact ⟨_, _, _, newlines_blank hw, this.2, newlines_blank hw', newlines_value this.1⟩

/-! ### The other direction -/

theorem newlines_split : ∀ (k : Nat) (t a b : Str), t.length ≤ k → newlines t = a ++ b → ∃ a' b', t = a' ++ b' ∧ newlines a' = a ∧ newlines b' = b := by
  intro k
  induction k with
  | zero =>
    intro t a b ht h
    cases t with
    | nil =>
      have h' : a = [] ∧ b = [] := by simpa [newlines] using h.symm
      exact ⟨[], [], rfl, h'.1.symm, h'.2.symm⟩
    | cons c t => simp at ht
  | succ k ih =>
    intro t a b ht h
    cases a with
    | nil => exact ⟨[], t, rfl, rfl, h⟩
    | cons x a =>
      unfold newlines at h
      split at h
      · cases h
      · rename_i t
        obtain ⟨hx, h'⟩ : '\n' = x ∧ newlines t = a ++ b := List.cons.inj h
        subst hx
        obtain ⟨a', b', rfl, h1, h2⟩ := ih t a b (by simp only [List.length_cons] at ht; omega) h'
        exact ⟨'\r' :: '\n' :: a', b', rfl, by simp only [newlines, h1], h2⟩
      · rename_i c t hc
        obtain ⟨hx, h⟩ := List.cons.inj h
        obtain ⟨a', b', rfl, h1, h2⟩ := ih t a b (by simp only [List.length_cons] at ht; omega) h
        refine ⟨c :: a', b', rfl, ?_, h2⟩
        by_cases hr : c = '\r'
        · subst hr
          rw [newlines_cr fun u hu => ?_, h1, ← hx]
          · rfl
          · subst hu
            exact hc _ rfl rfl
        · rw [newlines_cons hr, h1, ← hx, if_neg hr]

theorem newlines_append_inv {t a b : Str} (h : newlines t = a ++ b) : ∃ a' b', t = a' ++ b' ∧ newlines a' = a ∧ newlines b' = b :=
  newlines_split _ t a b (Nat.le_refl _) h

theorem newlines_noControl {t : Str} (h : NoControl (newlines t)) : newlines t = t := by
  have key : ∀ k t, t.length ≤ k → NoControl (newlines t) → newlines t = t := by
    intro k
    induction k with
    | zero =>
      intro t ht _
      cases t with
      | nil => rfl
      | cons c t => simp at ht
    | succ k ih =>
      intro t ht h
      unfold newlines at h ⊢
      split at h
      · rfl
      · exact absurd (h '\n' (by simp)) (by decide)
      · rename_i c t _
        have hr : c ≠ '\r' := by
          intro e
          rw [if_pos e] at h
          exact absurd (h '\n' (by simp)) (by decide)
        have := ih t (by simp only [List.length_cons] at ht; omega) fun d hd => h d (by simp [hd])
        simp only [this, if_neg hr]
  exact key t.length t (Nat.le_refl _) h

theorem newlines_blank_inv {t : Str} (h : JsonBlank (newlines t)) : JsonBlank t := by
  have key : ∀ k t, t.length ≤ k → JsonBlank (newlines t) → JsonBlank t := by
    intro k
    induction k with
    | zero =>
      intro t ht _
      cases t with
      | nil => exact jsonBlank_nil
      | cons c t => simp at ht
    | succ k ih =>
      intro t ht h
      unfold newlines at h
      split at h
      · exact jsonBlank_nil
      · rename_i t
        have := ih t (by simp only [List.length_cons] at ht; omega) fun d hd => h d (by simp [hd])
        intro d hd
        rcases List.mem_cons.mp hd with rfl | hd
        · simp
        · rcases List.mem_cons.mp hd with rfl | hd
          · simp
          · exact this d hd
      · rename_i c t _
        have := ih t (by simp only [List.length_cons] at ht; omega) fun d hd => h d (by simp [hd])
        intro d hd
        rcases List.mem_cons.mp hd with rfl | hd
        · by_cases hr : d = '\r'
          · simp [hr]
          · have := h d (by rw [if_neg hr]; simp)
            exact this
        · exact this d hd
  exact key t.length t (Nat.le_refl _) h

/-- The only text for a character that is no control character. -/
theorem newlines_cons_inv {t b : Str} {c : Char} (hc : 0x20 ≤ c.toNat) (h : newlines t = c :: b) : ∃ b', t = c :: b' ∧ newlines b' = b := by
  obtain ⟨a', b', rfl, h1, h2⟩ := newlines_append_inv (a := [c]) (b := b) h
  have : newlines a' = a' := newlines_noControl (by rw [h1]; intro d hd; rw [List.mem_singleton.mp hd]; exact hc)
  rw [this] at h1
  subst h1
  exact ⟨b', rfl, h2⟩

theorem newlines_sep_inv {t a b : Str} {c : Char} (hc : 0x20 ≤ c.toNat) (h : newlines t = a ++ c :: b) :
    ∃ a' b', t = a' ++ c :: b' ∧ newlines a' = a ∧ newlines b' = b := by
  obtain ⟨a', b', rfl, h1, h2⟩ := newlines_append_inv h
  obtain ⟨b'', rfl, h3⟩ := newlines_cons_inv hc h2
  exact ⟨a', b'', rfl, h1, h3⟩

theorem newlines_brackets_inv {t s : Str} {a b : Char} (ha : 0x20 ≤ a.toNat) (hb : 0x20 ≤ b.toNat) (h : newlines t = a :: s ++ [b]) :
    ∃ s', t = a :: s' ++ [b] ∧ newlines s' = s := by
  obtain ⟨t', rfl, h1⟩ := newlines_cons_inv ha h
  obtain ⟨s', b', rfl, h2, h3⟩ := newlines_sep_inv hb h1
  refine ⟨s', ?_, h2⟩
  cases b' with
  | nil => rfl
  | cons c b' =>
    exfalso
    unfold newlines at h3
    split at h3
    · rename_i e; cases e
    · cases h3
    · cases h3

theorem newlines_value_inv {t w s w' : Str} (h : newlines t = w ++ s ++ w') :
    ∃ v r v', t = v ++ r ++ v' ∧ newlines v = w ∧ newlines r = s ∧ newlines v' = w' := by
  obtain ⟨a, v', rfl, h1, h2⟩ := newlines_append_inv h
  obtain ⟨v, r, rfl, h3, h4⟩ := newlines_append_inv h1
  exact ⟨v, r, v', rfl, h3, h4, h2⟩

theorem blank_inv {t w : Str} (h : newlines t = w) (hw : JsonBlank w) : JsonBlank t := newlines_blank_inv (by rw [h]; exact hw)

theorem plain_inv {t s : Str} (h : newlines t = s) (hs : NoControl s) : t = s := by
  rw [← h]
  exact (newlines_noControl (by rw [h]; exact hs)).symm

theorem noControl_atom {v : JVal} {s : Str} (h : JText (.value v) s) (ha : ∀ l, v ≠ .arr l) (ho : ∀ l, v ≠ .obj l) : NoControl s := by
  cases h with
  | null => exact noControl_str _ (by decide)
  | true_ => exact noControl_str _ (by decide)
  | false_ => exact noControl_str _ (by decide)
  | word hw =>
    simp only [List.mem_cons, List.not_mem_nil, or_false] at hw
    rcases hw with rfl | rfl | rfl <;> exact noControl_str _ (by decide)
  | nat h => exact noControl_digits h.1
  | neg h => exact fun c hc => (List.mem_cons.mp hc).elim (fun e => by rw [e]; decide) (noControl_digits h.1 c)
  | float hm h hf he _ =>
    refine noControl_append (noControl_append (noControl_append ?_ (noControl_digits h.1)) (noControl_frac hf)) (noControl_exp he)
    rcases hm with rfl | rfl
    · exact fun c hc => (nomatch hc)
    · exact noControl_str _ (by decide)
  | str h => exact noControl_string h
  | arr0 _ => exact absurd rfl (ha _)
  | arr _ => exact absurd rfl (ha _)
  | obj0 _ => exact absurd rfl (ho _)
  | obj _ => exact absurd rfl (ho _)

theorem untranslated {j : JNode} {s : Str} (h : JText j s) : ∀ t, newlines t = s → JText j t := by
  induction h with
  | null => intro t h; rw [plain_inv h (noControl_atom .null (by simp) (by simp))]; exact .null
  | true_ => intro t h; rw [plain_inv h (noControl_atom .true_ (by simp) (by simp))]; exact .true_
  | false_ => intro t h; rw [plain_inv h (noControl_atom .false_ (by simp) (by simp))]; exact .false_
  | word hw => intro t h; rw [plain_inv h (noControl_atom (.word hw) (by simp) (by simp))]; exact .word hw
  | nat hn => intro t h; rw [plain_inv h (noControl_atom (.nat hn) (by simp) (by simp))]; exact .nat hn
  | neg hn => intro t h; rw [plain_inv h (noControl_atom (.neg hn) (by simp) (by simp))]; exact .neg hn
  | float hm hn hf he hne =>
    intro t h; rw [plain_inv h (noControl_atom (.float hm hn hf he hne) (by simp) (by simp))]; exact .float hm hn hf he hne
  | str hs => intro t h; rw [plain_inv h (noControl_string hs)]; exact .str hs
  | arr0 hw =>
    intro t h
    obtain ⟨s', rfl, hs⟩ := newlines_brackets_inv (by decide) (by decide) h
    exact .arr0 (blank_inv hs hw)
  | arr _ ih =>
    intro t h
    obtain ⟨s', rfl, hs⟩ := newlines_brackets_inv (by decide) (by decide) h
    exact .arr (ih s' hs)
  | obj0 hw =>
    intro t h
    obtain ⟨s', rfl, hs⟩ := newlines_brackets_inv (by decide) (by decide) h
    exact .obj0 (blank_inv hs hw)
  | obj _ ih =>
    intro t h
    obtain ⟨s', rfl, hs⟩ := newlines_brackets_inv (by decide) (by decide) h
    exact .obj (ih s' hs)
  | item hw _ hw' ih =>
    intro t h
    obtain ⟨v, r, v', rfl, h1, h2, h3⟩ := newlines_value_inv h
    exact .item (blank_inv h1 hw) (ih r h2) (blank_inv h3 hw')
  | moreItems hw _ hw' _ ih ih2 =>
    intro t h
    obtain ⟨a, b, rfl, ha, hb⟩ := newlines_sep_inv (by decide) h
    obtain ⟨v, r, v', rfl, h1, h2, h3⟩ := newlines_value_inv ha
    exact .moreItems (blank_inv h1 hw) (ih r h2) (blank_inv h3 hw') (ih2 b hb)
  | @member k v w1 ks w2 w3 s w4 g1 hk g2 g3 _ g4 ih =>
    intro t h
    have e : w1 ++ ks ++ w2 ++ ':' :: w3 ++ s ++ w4 = (w1 ++ ks ++ w2) ++ ':' :: (w3 ++ s ++ w4) := by simp
    rw [e] at h
    obtain ⟨a, b, rfl, ha, hb⟩ := newlines_sep_inv (by decide) h
    obtain ⟨a1, a2, a3, rfl, h1, h2, h3⟩ := newlines_value_inv ha
    obtain ⟨b1, b2, b3, rfl, h4, h5, h6⟩ := newlines_value_inv hb
    have := plain_inv h2 (noControl_string hk)
    subst this
    have := JText.member (blank_inv h1 g1) hk (blank_inv h3 g2) (blank_inv h4 g3) (ih b2 h5) (blank_inv h6 g4)
    simpa using this
  | @moreMembers k v l w1 ks w2 w3 s w4 u g1 hk g2 g3 _ g4 _ ih ih2 =>
    intro t h
    have e : w1 ++ ks ++ w2 ++ ':' :: w3 ++ s ++ w4 ++ ',' :: u = (w1 ++ ks ++ w2) ++ ':' :: ((w3 ++ s ++ w4) ++ ',' :: u) := by simp
    rw [e] at h
    obtain ⟨a, b, rfl, ha, hb⟩ := newlines_sep_inv (by decide) h
    obtain ⟨c, d, rfl, hc, hd⟩ := newlines_sep_inv (by decide) hb
    obtain ⟨a1, a2, a3, rfl, h1, h2, h3⟩ := newlines_value_inv ha
    obtain ⟨b1, b2, b3, rfl, h4, h5, h6⟩ := newlines_value_inv hc
    have := plain_inv h2 (noControl_string hk)
    subst this
    have := JText.moreMembers (blank_inv h1 g1) hk (blank_inv h3 g2) (blank_inv h4 g3) (ih b2 h5) (blank_inv h6 g4) (ih2 d hd)
    simpa using this

theorem jsonText_newlines_iff {v : JVal} {s : Str} : JsonText v (newlines s) ↔ JsonText v s := by
  refine ⟨?_, jsonText_newlines⟩
  rintro ⟨w, t, w', hw, ht, hw', h⟩
  obtain ⟨a, b, c, rfl, h1, h2, h3⟩ := newlines_value_inv h
  exact ⟨a, b, c, blank_inv h1 hw, untranslated ht b h2, blank_inv h3 hw', rfl⟩

end EspSize
