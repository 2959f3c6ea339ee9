import Verif.Spec.ChipText
import Verif.Model.ChipText
import Verif.Props.Fields
import Verif.Props.Files
import Verif.Props.GetInputs
import Verif.Proofs.JsonDump
/-! # C92: chip tables are read as they are written -/
namespace EspSize

/-! ### Expressions -/

theorem splitChar_none {c : Char} {a : Str} (h : c ∉ a) : splitChar c a = [a] := by
  induction a with
  | nil => rfl
  | cons d a ih =>
    simp only [List.mem_cons, not_or] at h
    rw [splitChar, if_neg (fun e => h.1 e.symm), ih h.2]

theorem splitChar_cons {c : Char} {a b : Str} (h : c ∉ a) : splitChar c (a ++ c :: b) = a :: splitChar c b := by
  induction a with
  | nil => simp [splitChar]
  | cons d a ih =>
    simp only [List.mem_cons, not_or] at h
    rw [List.cons_append, splitChar, if_neg (fun e => h.1 e.symm), ih h.2]

/-- The characters of integer literals. -/
def literalChars : Str := str "0123456789abcdefABCDEFxXoObB_"

theorem digitIs_char {c : Char} {d : Nat} (h : DigitIs c d) : c ∈ literalChars := by
  have h1 : ∀ c ∈ str "0123456789abcdef", c ∈ literalChars := by decide
  have h2 : ∀ c ∈ str "0123456789ABCDEF", c ∈ literalChars := by decide
  rcases h with h | h
  · exact h1 _ (List.mem_of_getElem? h)
  · exact h2 _ (List.mem_of_getElem? h)

theorem spelled_chars {base : Nat} {s : Str} {ds : List Nat} (h : Spelled base s ds) : ∀ c ∈ s, c ∈ literalChars := by
  induction h with
  | one h _ => intro c hc; rw [List.mem_singleton.mp hc]; exact digitIs_char h
  | cons h _ _ ih =>
    intro c hc
    rcases List.mem_cons.mp hc with e | e
    · rw [e]; exact digitIs_char h
    · exact ih c e
  | under h _ _ ih =>
    intro c hc
    rcases List.mem_cons.mp hc with e | e
    · rw [e]; exact digitIs_char h
    · rcases List.mem_cons.mp e with e | e
      · rw [e]; decide
      · exact ih c e

theorem literal_chars {s : Str} {n : Nat} (h : Literal s n) : ∀ c ∈ s, c ∈ literalChars := by
  have hb : ∀ p ∈ baseLetters, ∀ c ∈ p.2, c ∈ literalChars := by decide
  cases h with
  | decimal h _ => exact spelled_chars h
  | based h1 h2 h3 =>
    intro c hc
    rcases List.mem_cons.mp hc with e | hc
    · rw [e]; decide
    · rcases List.mem_cons.mp hc with e | hc
      · rw [e]; exact hb _ h1 _ h2
      · exact spelled_chars h3 c hc
  | basedUnder h1 h2 h3 =>
    intro c hc
    rcases List.mem_cons.mp hc with e | hc
    · rw [e]; decide
    · rcases List.mem_cons.mp hc with e | hc
      · rw [e]; exact hb _ h1 _ h2
      · rcases List.mem_cons.mp hc with e | hc
        · rw [e]; decide
        · exact spelled_chars h3 c hc

theorem literal_no {s : Str} {n : Nat} (h : Literal s n) {c : Char} (hc : c ∉ literalChars) : c ∉ s :=
  fun hm => hc (literal_chars h c hm)

theorem literal_ne {s : Str} {n : Nat} (h : Literal s n) : s ≠ [] := by
  cases h with
  | decimal h _ => cases h <;> simp
  | based => simp
  | basedUnder => simp

theorem dropSpaces {w s : Str} (hw : Spaces w) : (w ++ s).dropWhile (· == ' ') = s.dropWhile (· == ' ') := by
  induction w with
  | nil => rfl
  | cons c w ih =>
    rw [List.cons_append, List.dropWhile_cons, if_pos (by simp [hw c (by simp)])]
    exact ih fun c hc => hw c (by simp [hc])

theorem rtrim_spaces {s w : Str} (hw : Spaces w) : rtrim (s ++ w) = rtrim s := by
  unfold rtrim
  rw [List.reverse_append, dropSpaces]
  intro c hc
  exact hw c (List.mem_reverse.mp hc)

theorem rtrim_end {t : Str} {c : Char} (h : c ≠ ' ') : rtrim (t ++ [c]) = t ++ [c] := by
  unfold rtrim
  rw [List.reverse_append, List.reverse_singleton, List.singleton_append, List.dropWhile_cons, if_neg (by simp [h])]
  simp

theorem dropWhile_blank {c : Char} {t : Str} (h : c ≠ ' ') : (c :: t).dropWhile (· == ' ') = c :: t := by
  rw [List.dropWhile_cons, if_neg (by simp [h])]

theorem trim_literal {w s w' : Str} (hw : Spaces w) (hw' : Spaces w') (h : ' ' ∉ s) (hne : s ≠ []) : trimBlanks (w ++ s ++ w') = s := by
  obtain ⟨c, t, rfl⟩ : ∃ c t, s = c :: t := by cases s with
    | nil => exact absurd rfl hne
    | cons c t => exact ⟨c, t, rfl⟩
  unfold trimBlanks
  rw [List.append_assoc, dropSpaces hw, List.cons_append, dropWhile_blank (fun e => h (by simp [e])), ← List.cons_append, rtrim_spaces hw']
  obtain ⟨d, u, e⟩ : ∃ d u, c :: t = u ++ [d] := ⟨(c :: t).getLast (by simp), (c :: t).dropLast, (List.dropLast_concat_getLast (by simp)).symm⟩
  rw [e] at h ⊢
  exact rtrim_end fun e => h (by simp [e])

theorem spaces_no {w : Str} (h : Spaces w) {c : Char} (hc : c ≠ ' ') : c ∉ w := fun hm => hc (h c hm)

theorem product_no {s : Str} {n : Int} (h : ProductText s n) {c : Char} (h1 : c ∉ literalChars) (h2 : c ≠ ' ') (h3 : c ≠ '*') : c ∉ s := by
  induction h with
  | one hw hl hw' =>
    simp only [List.mem_append, not_or]
    exact ⟨⟨spaces_no hw h2, literal_no hl h1⟩, spaces_no hw' h2⟩
  | mul hw hl hw' _ ih =>
    simp only [List.mem_append, List.mem_cons, not_or]
    exact ⟨⟨⟨spaces_no hw h2, literal_no hl h1⟩, spaces_no hw' h2⟩, h3, ih⟩

theorem evalProduct_of {s : Str} {n : Int} (h : ProductText s n) : evalProduct s = some n := by
  have hm : ∃ ns, (splitChar '*' s).mapM (fun p => parseNat0 (trimBlanks p)) = some ns ∧
      ns.foldr (fun (n : Nat) (m : Int) => n * m) 1 = n := by
    induction h with
    | @one w s w' n hw hl hw' =>
      have hno : '*' ∉ w ++ s ++ w' := by
        simp only [List.mem_append, not_or]
        exact ⟨⟨spaces_no hw (by decide), literal_no hl (by decide)⟩, spaces_no hw' (by decide)⟩
      refine ⟨[n], ?_, by simp⟩
      rw [splitChar_none hno, List.mapM_cons, trim_literal hw hw' (literal_no hl (by decide)) (literal_ne hl), (parseNat0_iff s n).mpr hl]
      rfl
    | @mul w s w' t n m hw hl hw' _ ih =>
      have hno : '*' ∉ w ++ s ++ w' := by
        simp only [List.mem_append, not_or]
        exact ⟨⟨spaces_no hw (by decide), literal_no hl (by decide)⟩, spaces_no hw' (by decide)⟩
      obtain ⟨ns, h1, h2⟩ := ih
      refine ⟨n :: ns, ?_, by simp [h2]⟩
      rw [splitChar_cons hno, List.mapM_cons, trim_literal hw hw' (literal_no hl (by decide)) (literal_ne hl), (parseNat0_iff s n).mpr hl, h1]
      rfl
  obtain ⟨ns, h1, h2⟩ := hm
  unfold evalProduct
  rw [h1, ← h2]
  rfl

/-- **C92** a sum of products of integer literals has its arithmetical value. -/
theorem C92_value {s : Str} {n : Int} (h : SumText s n) : evalSum s = some n := by
  have hm : ∃ ns, (splitChar '+' s).mapM evalProduct = some ns ∧ ns.foldr (· + ·) 0 = n := by
    induction h with
    | @one s n hp =>
      refine ⟨[n], ?_, by simp⟩
      rw [splitChar_none (product_no hp (by decide) (by decide) (by decide)), List.mapM_cons, evalProduct_of hp]
      rfl
    | @add s t n m hp _ ih =>
      obtain ⟨ns, h1, h2⟩ := ih
      refine ⟨n :: ns, ?_, by simp [h2]⟩
      rw [splitChar_cons (product_no hp (by decide) (by decide) (by decide)), List.mapM_cons, evalProduct_of hp, h1]
      rfl
  obtain ⟨ns, h1, h2⟩ := hm
  unfold evalSum
  rw [h1, ← h2]
  rfl

/-! ### Names -/

theorem letter_alpha {c : Char} (h : Letter c) : c.isAlpha = true := by
  have : ∀ c ∈ str "ABCDEFGHIJKLMNOPQRSTUVWXYZabcdefghijklmnopqrstuvwxyz", c.isAlpha = true := by decide
  exact this c h

theorem name_char {c : Char} (h : Letter c ∨ c ∈ str "0123456789_ ") : c.isAlphanum ∨ c = '_' ∨ c = ' ' := by
  rcases h with h | h
  · exact .inl (by simp [Char.isAlphanum, letter_alpha h])
  · have : ∀ c ∈ str "0123456789_ ", c.isAlphanum ∨ c = '_' ∨ c = ' ' := by decide
    exact this c h

theorem words_same : ∀ w ∈ yamlWords, w ∈ notStrings := by decide +kernel

theorem yamlString_name {s : Str} (h : NameText s) : yamlString s = some s := by
  obtain ⟨⟨c, t, rfl, hc⟩, _, h3, h4⟩ := h
  unfold yamlString
  exact if_pos ⟨letter_alpha hc, fun d hd => name_char (h3 d hd), fun hw => h4 (words_same _ hw)⟩

theorem name_no {s : Str} (h : NameText s) {c : Char} (h1 : c ∉ str "ABCDEFGHIJKLMNOPQRSTUVWXYZabcdefghijklmnopqrstuvwxyz")
    (h2 : c ∉ str "0123456789_ ") : c ∉ s := by
  intro hm
  rcases h.2.2.1 c hm with h | h
  · exact h1 h
  · exact h2 h

/-! ### Lines -/

theorem uncomment_plain {a : Str} (h : '#' ∉ a) (hne : a ≠ []) (b : Bool) (s : Str) :
    uncomment b (a ++ s) = a ++ uncomment (a.getLast hne == ' ') s := by
  induction a generalizing b with
  | nil => exact absurd rfl hne
  | cons c a ih =>
    simp only [List.mem_cons, not_or] at h
    rw [List.cons_append, uncomment, if_neg (fun e => h.1 e.1.symm)]
    cases a with
    | nil => rfl
    | cons d a => rw [ih h.2 (by simp)]; rfl

theorem uncomment_spaces {w : Str} (h : Spaces w) (b : Bool) : uncomment b w = w := by
  induction w generalizing b with
  | nil => rfl
  | cons c w ih =>
    rw [uncomment, if_neg (by rw [h c (by simp)]; exact fun e => absurd e.1 (by decide)), ih fun c hc => h c (by simp [hc])]

theorem uncomment_comment {w t : Str} (h : Spaces w) : uncomment true (w ++ '#' :: t) = w := by
  induction w with
  | nil => simp [uncomment]
  | cons c w ih =>
    have hc := h c (by simp)
    rw [List.cons_append, uncomment, if_neg (by rw [hc]; exact fun e => absurd e.1 (by decide)), hc]
    rw [show ((' ' : Char) == ' ') = true from rfl, ih fun c hc => h c (by simp [hc])]

theorem uncomment_end {e : Str} (h : LineEnd e) : Spaces (uncomment false e) := by
  cases h with
  | blank hw => rw [uncomment_spaces hw]; exact hw
  | @comment w t hw =>
    cases w with
    | nil =>
      intro c hc
      simpa [uncomment] using hc
    | cons d w =>
      have hd := hw d (by simp)
      have hw' : Spaces w := fun c hc => hw c (by simp [hc])
      rw [List.cons_append, uncomment, if_neg (by rw [hd]; exact fun e => absurd e.1 (by decide)), hd]
      rw [show ((' ' : Char) == ' ') = true from rfl, show w ++ ' ' :: '#' :: t = (w ++ [' ']) ++ '#' :: t by simp, uncomment_comment]
      · intro c hc
        rcases List.mem_cons.mp hc with e | hc
        · exact e
        · rcases List.mem_append.mp hc with hc | hc
          · exact hw' c hc
          · exact List.mem_singleton.mp hc
      · intro c hc
        rcases List.mem_append.mp hc with hc | hc
        · exact hw' c hc
        · exact List.mem_singleton.mp hc

theorem bare_line {a e : Str} {c : Char} (h : '#' ∉ a) (hc : c ≠ ' ') (hc' : c ≠ '#') (he : LineEnd e) :
    rtrim (uncomment true (a ++ [c] ++ e)) = a ++ [c] := by
  have hno : '#' ∉ a ++ [c] := by
    simp only [List.mem_append, List.mem_singleton, not_or]
    exact ⟨h, fun e => hc' e.symm⟩
  rw [uncomment_plain hno (by simp), List.getLast_concat]
  rw [show (c == ' ') = false by simpa using hc, rtrim_spaces (uncomment_end he), rtrim_end hc]

theorem rtrim_all {w : Str} (h : Spaces w) : rtrim w = [] := by
  have := rtrim_spaces (s := []) h
  rw [List.nil_append] at this
  rw [this]
  rfl

theorem chipLine_skip {l : Str} (h : NoLine l) : chipLine l = some .skip := by
  unfold chipLine
  cases h with
  | blank hw => rw [uncomment_spaces hw, rtrim_all hw]
  | comment hw => rw [uncomment_comment hw, rtrim_all hw]

theorem cutAt_first {c : Char} {a b : Str} (h : c ∉ a) : cutAt c (a ++ c :: b) = some (a, b) := by
  induction a with
  | nil => simp [cutAt]
  | cons d a ih =>
    simp only [List.mem_cons, not_or] at h
    rw [List.cons_append, cutAt, if_neg (fun e => h.1 e.symm), ih h.2]
    rfl

theorem chipLine_field {k v w e : Str} (hk : ':' ∉ k ∧ '#' ∉ k) (hw : Spaces w) (hv : ValueText v) (he : LineEnd e) :
    chipLine (str "  " ++ k ++ str ": " ++ w ++ v ++ e) = some (.field k v) := by
  obtain ⟨hv0, ⟨c, t, hv1, hc⟩, d, u, hv2, hd⟩ := hv
  have hb : rtrim (uncomment true (str "  " ++ k ++ str ": " ++ w ++ v ++ e)) = str "  " ++ k ++ str ": " ++ w ++ v := by
    have hno : '#' ∉ u := fun hm => hv0 (by rw [hv2]; simp [hm])
    have hd' : d ≠ '#' := fun e => hv0 (by rw [hv2]; simp [e])
    have := bare_line (a := str "  " ++ k ++ str ": " ++ w ++ u) (c := d) (e := e) (by
      simp only [List.mem_append, not_or]
      exact ⟨⟨⟨⟨by decide, hk.2⟩, by decide⟩, spaces_no hw (by decide)⟩, hno⟩) hd hd' he
    rw [hv2]
    simpa only [List.append_assoc] using this
  unfold chipLine
  rw [hb]
  show (match cutAt ':' (k ++ str ": " ++ w ++ v) with
      | some (k, ' ' :: v) => some (ChipLine.field k (v.dropWhile (· == ' ')))
      | _ => none) = _
  rw [show k ++ str ": " ++ w ++ v = k ++ ':' :: (' ' :: (w ++ v)) by simp [str], cutAt_first hk.1]
  show some (ChipLine.field k ((w ++ v).dropWhile (· == ' '))) = _
  rw [dropSpaces hw, hv1, dropWhile_blank hc]

theorem chipLine_head {k e : Str} (hk : NameText k) (he : LineEnd e) : chipLine (k ++ ':' :: e) = some (.head k) := by
  have hb : rtrim (uncomment true (k ++ ':' :: e)) = k ++ [':'] := by
    have := bare_line (a := k) (c := ':') (e := e) (name_no hk (by decide) (by decide)) (by decide) (by decide) he
    simpa only [List.append_assoc, List.singleton_append] using this
  obtain ⟨⟨c, t, rfl, hc⟩, _⟩ := hk
  have hcb : c ≠ ' ' := fun e => absurd (e ▸ hc : Letter ' ') (by unfold Letter; decide)
  unfold chipLine
  rw [hb, List.cons_append]
  split
  · rename_i h; cases h
  · rename_i h; exact absurd (List.cons.inj h).1 hcb
  · rw [List.reverse_cons, List.reverse_append]
    simp

/-! ### Entries and tables -/

theorem chipLines_skip {l : Str} (h : NoLine l) (ls : List Str) : chipLines (l :: ls) = chipLines ls := by
  rw [chipLines, chipLine_skip h]
  cases chipLines ls <;> rfl

theorem chipLines_entry {ls : List Str} {fs : List (Str × Str)} (h : EntryLines ls fs) (hk : ∀ p ∈ fs, ':' ∉ p.1 ∧ '#' ∉ p.1)
    {ls' : List Str} {es : List (Str × List (Str × Str))} (h' : chipLines ls' = some ([], es)) :
    chipLines (ls ++ ls') = some (fs, es) := by
  induction h with
  | nil => exact h'
  | skip hl _ ih => rw [List.cons_append, chipLines_skip hl, ih hk]
  | @field k v w e ls fs hw hv he _ ih =>
    rw [List.cons_append, chipLines, ih fun p hp => hk p (by simp [hp]), chipLine_field (hk (k, v) (by simp)) hw hv he]
    rfl

theorem dget_unique {fs : List (Str × Str)} (h : (fs.map (·.1)).Nodup) {k v : Str} (hm : (k, v) ∈ fs) : dget (dictOf fs) k = some v := by
  rw [dictOf_nodup h]
  exact dget_of_mem h hm

theorem dget_missing {fs : List (Str × Str)} (h : (fs.map (·.1)).Nodup) {k : Str} (hm : k ∉ fs.map (·.1)) : dget (dictOf fs) k = none := by
  rw [dictOf_nodup h]
  exact dget_eq_none.mpr hm

theorem optField_of {α : Type} {P : Str → α → Prop} {f : Str → Option α} (hf : ∀ v x, P v x → f v = some x) {fs : List (Str × Str)}
    (h : (fs.map (·.1)).Nodup) {k : Str} {o : Option α} (ho : FieldOpt P fs k o) : optField (dictOf fs) k f = some o := by
  unfold optField
  cases o with
  | none => rw [dget_missing h ho]
  | some x =>
    obtain ⟨v, hm, hp⟩ := ho
    rw [dget_unique h hm]
    show (f v).map some = _
    rw [hf v x hp]
    rfl

theorem entryOf_fields {fs : List (Str × Str)} {e : ChipEntry} (h : EntryFields fs e) : chipEntryOf fs = some e := by
  obtain ⟨v, hv, hv'⟩ := h.primary
  obtain ⟨u, hu, hu'⟩ := h.length
  unfold chipEntryOf
  have hk : ∀ p ∈ fs, p.1 ∈ entryKeys := h.keys
  show (if ∀ p ∈ fs, p.1 ∈ entryKeys then _ else none) = _
  rw [if_pos hk, dget_unique h.once hv, dget_unique h.once hu, optField_of (f := evalSum) (fun v x hx => C92_value hx) h.once h.secondary,
    optField_of (f := yamlString) (fun v x hx => by rw [hx.1]; exact yamlString_name hx.2) h.once h.name]
  show (evalSum v).bind (fun a => (evalSum u).bind fun b => some _) = _
  rw [C92_value hv', C92_value hu']
  rfl

theorem entry_keys {fs : List (Str × Str)} {e : ChipEntry} (h : EntryFields fs e) : ∀ p ∈ fs, ':' ∉ p.1 ∧ '#' ∉ p.1 := by
  have : ∀ k ∈ [str "primary_address", str "length", str "secondary_address", str "name"], ':' ∉ k ∧ '#' ∉ k := by decide
  exact fun p hp => this _ (h.keys p hp)

theorem readChip_lines {ls : List Str} {t : List (Str × ChipEntry)} (h : ChipLines ls t) : ∃ es, chipLines ls = some ([], es) ∧
    (es.mapM fun (p : Str × List (Str × Str)) => do
      let k ← yamlString p.1
      let e ← chipEntryOf p.2
      some (k, e)) = some t := by
  induction h with
  | nil => exact ⟨[], rfl, rfl⟩
  | skip hl _ ih =>
    obtain ⟨es, h1, h2⟩ := ih
    exact ⟨es, by rw [chipLines_skip hl]; exact h1, h2⟩
  | @type k e ls fs en ls' t hk he hl hf _ ih =>
    obtain ⟨es, h1, h2⟩ := ih
    refine ⟨(k, fs) :: es, ?_, ?_⟩
    · rw [List.cons_append, chipLines, chipLines_entry hl (entry_keys hf) h1, chipLine_head hk he]
      rfl
    · rw [List.mapM_cons, h2, yamlString_name hk, entryOf_fields hf]
      rfl

theorem readChip_table {ls : List Str} {t : List (Str × ChipEntry)} (h : ChipLines ls t) (hn : (t.map (·.1)).Nodup) : readChip ls = some t := by
  obtain ⟨es, h1, h2⟩ := readChip_lines h
  unfold readChip
  rw [h1]
  show Option.map dictOf _ = _
  rw [h2]
  show some (dictOf t) = _
  rw [dictOf_nodup hn]

/-- **C92** a chip table in the documented format is read as it is written: every memory type with its addresses, its length and its
name, in the order of the file. -/
theorem C92_read (package target text : Str) (fs : Files) (ls : List Str) (t : List (Str × ChipEntry))
    (h : fs (chipPath package target) = some (utf8 text)) (ht : LinesOf ls text) (hl : ∀ l ∈ ls, OneLine l) (hc : ChipLines ls t)
    (hn : (t.map (·.1)).Nodup) :
    ∃ ts, chipFrom package fs (target ++ str ".yaml") = some (.ok ts) ∧ All2 (fun p q => q.1 = p.1 ∧ TypeOf p.1 p.2 q.2) t ts := by
  refine ⟨memoryTypes t, ?_, ?_⟩
  · unfold chipFrom
    rw [show pathJoin (pathJoin package (str "chip_info")) (target ++ str ".yaml") = chipPath package target from rfl, readText_utf8 h]
    show Option.map _ (readChip (splitlines (newlines text))) = _
    rw [splitlines_text ht hl, readChip_table hc hn]
    rfl
  · clear hc hn
    induction t with
    | nil => trivial
    | cons p t ih =>
      refine ⟨⟨rfl, rfl, rfl, ?_, ?_⟩, ih⟩
      · cases h : p.2.secondary with
        | none => show p.2.secondary.getD 0 = 0; rw [h]; rfl
        | some a => show p.2.secondary.getD 0 = a; rw [h]; rfl
      · cases h : p.2.name with
        | none => show p.2.name.getD p.1 = p.1; rw [h]; rfl
        | some a => show p.2.name.getD p.1 = a; rw [h]; rfl

/-- Non-vacuity: `# table`, `A: # first`, `  length: 2 * 0x10+1`, an empty line, `  primary_address:  0xff`. -/
example : ChipLines [str "# table", str "A: # first", str "  length: 2 * 0x10+1", [], str "  primary_address:  0xff"]
    [(str "A", { primary := 255, length := 33 })] := by
  have l2 : Literal (str "2") 2 := .decimal (ds := [2]) (.one (.inl rfl) (by decide)) (.inl (by decide))
  have l1 : Literal (str "1") 1 := .decimal (ds := [1]) (.one (.inl rfl) (by decide)) (.inl (by decide))
  have l16 : Literal (str "0x10") 16 := .based (base := 16) (letters := ['x', 'X']) (ds := [1, 0]) (by decide) (by decide)
    (.cons (.inl rfl) (by decide) (.one (.inl rfl) (by decide)))
  have l255 : Literal (str "0xff") 255 := .based (base := 16) (letters := ['x', 'X']) (ds := [15, 15]) (by decide) (by decide)
    (.cons (.inl rfl) (by decide) (.one (.inl rfl) (by decide)))
  have sp : ∀ n, Spaces (List.replicate n ' ') := fun n c hc => (List.mem_replicate.mp hc).2
  have hv : SumText (str "2 * 0x10+1") 33 :=
    .add (s := str "2 * 0x10") (t := str "1") (n := 32) (m := 1)
      (.mul (w := []) (s := str "2") (w' := [' ']) (t := str " 0x10") (n := 2) (m := 16) (sp 0) l2 (sp 1)
        (.one (w := [' ']) (s := str "0x10") (w' := []) (n := 16) (sp 1) l16 (sp 0)))
      (.one (.one (w := []) (s := str "1") (w' := []) (n := 1) (sp 0) l1 (sp 0)))
  have hp : SumText (str "0xff") 255 := .one (.one (w := []) (s := str "0xff") (w' := []) (n := 255) (sp 0) l255 (sp 0))
  refine .skip (.comment (w := []) (t := str " table") (sp 0)) (.type (k := str "A") (e := str " # first")
    (ls := [str "  length: 2 * 0x10+1", [], str "  primary_address:  0xff"]) (ls' := [])
    (fs := [(str "length", str "2 * 0x10+1"), (str "primary_address", str "0xff")]) ?_ ?_ ?_ ?_ .nil)
  · refine ⟨⟨'A', [], rfl, by unfold Letter; decide⟩, ⟨'A', [], rfl, by decide⟩, ?_, by decide +kernel⟩
    unfold Letter
    decide
  · exact .comment (w := []) (t := str " first") (sp 0)
  · refine .field (k := str "length") (v := str "2 * 0x10+1") (w := []) (e := []) (sp 0) ?_ (.blank (sp 0)) (.skip (.blank (sp 0))
      (.field (k := str "primary_address") (v := str "0xff") (w := [' ']) (e := []) (sp 1) ?_ (.blank (sp 0)) .nil))
    · exact ⟨by decide, ⟨_, _, rfl, by decide⟩, '1', str "2 * 0x10+", rfl, by decide⟩
    · exact ⟨by decide, ⟨_, _, rfl, by decide⟩, 'f', str "0xf", rfl, by decide⟩
  · exact { once := by decide, keys := by decide, primary := ⟨_, by decide, hp⟩, length := ⟨_, by decide, hv⟩,
            secondary := by unfold FieldOpt; decide, name := by unfold FieldOpt; decide }

/-- A file that is missing or is not UTF-8 is not read. -/
theorem C92_missing (package target : Str) (fs : Files) (h : ∀ t, fs (chipPath package target) ≠ some (utf8 t)) :
    chipFrom package fs (target ++ str ".yaml") = some (.error .osError) ∨
    chipFrom package fs (target ++ str ".yaml") = some (.error .valueError) := by
  unfold chipFrom
  rw [show pathJoin (pathJoin package (str "chip_info")) (target ++ str ".yaml") = chipPath package target from rfl]
  rcases readText_bad h with e | e <;> rw [e]
  · exact .inl rfl
  · exact .inr rfl

theorem texts_tables : chipTexts.map (fun p => (p.1, readChip p.2)) = chipTables.map fun p => (p.1, some p.2) := by decide +kernel

theorem texts_lines : ∀ p ∈ chipTexts, ∀ l ∈ p.2, OneLine l := by
  unfold OneLine
  decide +kernel

theorem tables_found : ∀ p ∈ chipTables, chipFile (p.1 ++ str ".yaml") = .ok (memoryTypes p.2) := by decide +kernel

/-- **C92** the files of the package contain the tables of C52, so that runs see these tables. -/
theorem C92_package (package : Str) (fs : Files)
    (h : ∀ p ∈ chipTexts, ∃ text, fs (chipPath package p.1) = some (utf8 text) ∧ LinesOf p.2 text) :
    ∀ p ∈ chipTables, chipFrom package fs (p.1 ++ str ".yaml") = some (.ok (memoryTypes p.2)) ∧
      chipFile (p.1 ++ str ".yaml") = .ok (memoryTypes p.2) := by
  intro p hp
  refine ⟨?_, tables_found p hp⟩
  have hm : (p.1, some p.2) ∈ chipTexts.map fun p => (p.1, readChip p.2) := by
    rw [texts_tables]
    exact List.mem_map_of_mem (f := fun p : Str × Dict Str ChipEntry => (p.1, some p.2)) hp
  obtain ⟨q, hq, e⟩ := List.mem_map.mp hm
  obtain ⟨e1, e2⟩ := Prod.mk.inj e
  obtain ⟨text, h1, h2⟩ := h q hq
  unfold chipFrom
  rw [show pathJoin (pathJoin package (str "chip_info")) (p.1 ++ str ".yaml") = chipPath package q.1 by rw [e1]; rfl, readText_utf8 h1]
  show Option.map _ (readChip (splitlines (newlines text))) = _
  rw [splitlines_text h2 (texts_lines q hq), e2]
  rfl

end EspSize
