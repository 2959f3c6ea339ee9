import Verif.Proofs.MapText
/-! # C29: the section listing is read back -/
namespace EspSize

/-! ### No line of the listing starts the cross reference table -/

theorem padsText_notCross {ps : List Pad} {ls : List Str} (h : PadsText ps ls) : ∀ l ∈ ls, ¬ crossRef <+: l := by
  induction h with
  | nil => intro l hl; cases hl
  | noise hn _ ih =>
    intro l hl
    rcases List.mem_cons.mp hl with rfl | hl
    · exact (plain_strip hn.1).2.2
    · exact ih l hl
  | @pad p ps l' ls hp _ ih =>
    intro l hl
    rcases List.mem_cons.mp hl with rfl | hl
    · obtain ⟨a, s, ha, _, h⟩ := hp
      have ha0 := hexOf_head ha
      split at h
      · exact not_cross_of_words h (by decide)
      · obtain ⟨b, v, _, h⟩ := h
        exact not_cross_of_words h (by rintro rfl; exact absurd ha0 (by decide))
    · exact ih l hl

theorem inputText_notCross {i : Listed} {ls : List Str} (h : InputText i ls) : ∀ l ∈ ls, ¬ crossRef <+: l := by
  intro l hl
  cases h with
  | @one w g1 a g2 s g3 p w' ls hn hw hg1 ha hg2 hs hg3 hr hp hw' hpads =>
    rcases List.mem_cons.mp hl with rfl | hl
    · have := first_word_ne_cross hw hn.1 (gap_head hg1 ((a ++ (g2 ++ (s ++ (g3 ++ p)))) ++ w')) (inputName_ne_cross hn)
      simpa [List.append_assoc] using this
    · exact padsText_notCross hpads l hl
  | @two w w1 w2 a g2 s g3 p w' ls hn hw hw1 hw2 ha hg2 hs hg3 hr hp hw' hpads =>
    have ha0 := hexOf_head ha
    rcases List.mem_cons.mp hl with rfl | hl
    · rw [List.append_assoc]
      exact first_word_ne_cross hw hn.1 (blank_head hw1) (inputName_ne_cross hn)
    · rcases List.mem_cons.mp hl with rfl | hl
      · have := first_word_ne_cross hw2 ha.word (gap_head hg2 ((s ++ (g3 ++ p)) ++ w')) (by rintro rfl; exact absurd ha0 (by decide))
        simpa [List.append_assoc] using this
      · exact padsText_notCross hpads l hl

theorem inputsText_notCross {is : List Listed} {ls : List Str} (h : InputsText is ls) : ∀ l ∈ ls, ¬ crossRef <+: l := by
  induction h with
  | nil => intro l hl; cases hl
  | cons hi _ ih =>
    intro l hl
    rcases List.mem_append.mp hl with hl | hl
    · exact inputText_notCross hi l hl
    · exact ih l hl

theorem headText_notCross {o : ListedOut} {ls : List Str} (h : HeadText o ls) : ∀ l ∈ ls, ¬ crossRef <+: l := by
  intro l hl
  cases h with
  | one hd _ _ _ =>
    simp only [List.mem_cons, List.not_mem_nil, or_false] at hl
    rw [hl]; exact not_cross_dot hd
  | two hd _ ha _ hw' =>
    have ha0 := hexOf_head ha
    simp only [List.mem_cons, List.not_mem_nil, or_false] at hl
    rcases hl with rfl | rfl
    · exact not_cross_dot hd
    · exact not_cross_of_words hw' (by rintro rfl; exact absurd ha0 (by decide))
  | bare hd _ _ _ hp _ =>
    simp only [List.mem_cons, List.not_mem_nil, or_false] at hl
    rcases hl with rfl | rfl
    · exact not_cross_dot hd
    · exact (plain_strip hp).2.2

theorem outsText_notCross {os : List ListedOut} {ls : List Str} (h : OutsText os ls) : ∀ l ∈ ls, ¬ crossRef <+: l := by
  induction h with
  | nil => intro l hl; cases hl
  | other hn _ ih =>
    intro l hl
    rcases List.mem_cons.mp hl with rfl | hl
    · exact hn crossRef (by simp)
    · exact ih l hl
  | cons ho _ ih =>
    intro l hl
    rcases List.mem_append.mp hl with hl | hl
    · cases ho with
      | mk hh hm hls hw =>
        simp only [List.mem_append, List.mem_cons, List.not_mem_nil, or_false] at hl
        rcases hl with hl | hl | hl | rfl
        · exact headText_notCross hh l hl
        · exact (plain_strip (hm l hl)).2.2
        · exact inputsText_notCross hls l hl
        · exact not_cross_blank hw
    · exact ih l hl

/-- C29: the listing of the linker is read back as the sections that count: names, addresses, sizes, archives, objects
and padding, for any number of output and input sections, in one-line and two-line form.

Partial: an input section that does not count must have at most one padding, a `*fill*` line (`SimplePads`). -/
theorem C29_sections_partial {os : List ListedOut} {ls rest : List Str} {title cr : Str} (ht : linkerScript <+: title)
    (h : OutsText os ls) (hs : ∀ o ∈ os, ∀ i ∈ o.inputs, SimplePads o.address o.size i) (hc : crossRef <+: cr) :
    getSections (title :: (ls ++ cr :: rest)) = .ok (os.map ListedOut.toPOut, cr :: rest) := by
  have htc : ¬ crossRef <+: title := prefix_ne ht (by decide)
  have h0 : stepLine {} title = .ok { ({} : PState) with found := true } := by
    unfold stepLine
    simp [startsWith_true ht]
  obtain ⟨st, h1, h2, h3⟩ := loop_outs h hs (cr :: rest) { ({} : PState) with found := true } ⟨rfl, rfl, rfl, rfl⟩
  unfold getSections
  rw [loop_step htc h0, h1, sectionsLoop, if_pos (startsWith_true hc)]
  show (if st.found = true then _ else _) = _
  have hr := restFrom_eq (p := crossRef) (pre := title :: ls) (l := cr) (rest := rest) (fun l hl => by
    rcases List.mem_cons.mp hl with rfl | hl
    · exact htc
    · exact outsText_notCross h l hl) hc
  rw [List.cons_append] at hr
  rw [if_pos h2.1, h3, hr]
  rfl

/-- C29, file without a cross reference table. -/
theorem C29_no_table_partial {os : List ListedOut} {ls : List Str} {title : Str} (ht : linkerScript <+: title) (h : OutsText os ls)
    (hs : ∀ o ∈ os, ∀ i ∈ o.inputs, SimplePads o.address o.size i) :
    (getSections (title :: ls)).map (·.1) = .ok (os.map ListedOut.toPOut) := by
  have htc : ¬ crossRef <+: title := prefix_ne ht (by decide)
  have h0 : stepLine {} title = .ok { ({} : PState) with found := true } := by
    unfold stepLine
    simp [startsWith_true ht]
  obtain ⟨st, h1, h2, h3⟩ := loop_outs h hs [] { ({} : PState) with found := true } ⟨rfl, rfl, rfl, rfl⟩
  rw [List.append_nil] at h1
  unfold getSections
  rw [loop_step htc h0, h1, sectionsLoop]
  show (if st.found = true then _ else _ : Except Err _).map _ = _
  rw [if_pos h2.1, h3]
  rfl

/-- C29: what stands before the listing is not looked at. -/
theorem C29_before {pre rest : List Str} {title : Str} (hpre : ∀ l ∈ pre, ¬ linkerScript <+: l ∧ ¬ crossRef <+: l)
    (ht : linkerScript <+: title) : getSections (pre ++ title :: rest) = getSections (title :: rest) := by
  have htc : ¬ crossRef <+: title := prefix_ne ht (by decide)
  have key : ∀ pre : List Str, (∀ l ∈ pre, ¬ linkerScript <+: l ∧ ¬ crossRef <+: l) →
      sectionsLoop (pre ++ title :: rest) {} = sectionsLoop (title :: rest) {} ∧
      restFrom crossRef (pre ++ title :: rest) = restFrom crossRef (title :: rest) := by
    intro pre
    induction pre with
    | nil => exact fun _ => ⟨rfl, rfl⟩
    | cons l pre ih =>
      intro h
      obtain ⟨h1, h2⟩ := h l (by simp)
      obtain ⟨i1, i2⟩ := ih fun x hx => h x (by simp [hx])
      have h0 : stepLine {} l = .ok {} := by
        unfold stepLine
        simp [startsWith_false h1]
      constructor
      · rw [List.cons_append, loop_step h2 h0, i1]
      · rw [List.cons_append, restFrom, if_neg (by rw [startsWith_false h2]; simp), if_neg (by simp), i2]
  obtain ⟨k1, k2⟩ := key pre hpre
  unfold getSections
  rw [k1, k2]

/-- C29: a file without the listing is rejected. -/
theorem C29_no_listing {lines : List Str} (h : ∀ l ∈ lines, ¬ linkerScript <+: l) : getSections lines = .error .mapFile := by
  have key : ∀ lines : List Str, (∀ l ∈ lines, ¬ linkerScript <+: l) → sectionsLoop lines {} = .ok {} := by
    intro lines
    induction lines with
    | nil => exact fun _ => rfl
    | cons l ls ih =>
      intro h
      have h0 : stepLine {} l = .ok {} := by
        unfold stepLine
        simp [startsWith_false (h l (by simp))]
      rw [sectionsLoop, h0]
      split
      · rfl
      · exact ih fun x hx => h x (by simp [hx])
  unfold getSections
  rw [key lines h]
  rfl

example : (∀ l ∈ [str "Archive member included", str ".text 0x0 0x4"], ¬ linkerScript <+: l ∧ ¬ crossRef <+: l) := by decide

/-! ### Tidy listings -/

/-- Listing without surprises: no `*fill*` at the address of its section, sections that follow each other at the same
address are empty but the last, sections with contents are in the output section, padding follows only sections with
contents. -/
def Tidy (oa os : Int) : Option Listed → List Listed → Prop
  | _, [] => True
  | prev, i :: is => i.ownSize = i.size ∧
    (match prev with
      | none => True
      | some p => (p.address = i.address → p.size = 0) ∧ (i.size ≠ 0 → oa ≤ i.address ∧ i.address < oa + os) ∧
        (i.size = 0 → i.padding = 0)) ∧ Tidy oa os (some i) is

/-- The section as printed. -/
def Listed.got (i : Listed) : Got := ⟨i.name, i.address, i.size, i.padding, i.archive, i.object⟩

theorem foldl_tidy {oa os : Int} (is : List Listed) (acc : List Listed) (h : Tidy oa os acc.getLast? is) :
    is.foldl (settle oa os) (acc.map Listed.got) = (acc ++ is).map Listed.got := by
  induction is generalizing acc with
  | nil => simp
  | cons i is ih =>
    obtain ⟨h1, h2, h3⟩ := h
    rw [List.foldl_cons]
    have hs : settle oa os (acc.map Listed.got) i = (acc ++ [i]).map Listed.got := by
      unfold settle
      simp only [List.getLast?_map, h1]
      cases hl : acc.getLast? with
      | none =>
        have : acc = [] := List.getLast?_eq_none_iff.mp hl
        subst this; rfl
      | some p =>
        rw [hl] at h2
        obtain ⟨k1, k2, k3⟩ := h2
        simp only [Option.map_some]
        obtain ⟨pre, hpre⟩ : ∃ pre, acc = pre ++ [p] := List.getLast?_eq_some_iff.mp hl
        have hz : (if p.got.address = i.address then mapLast (fun x => { x with size := 0 }) (acc.map Listed.got)
            else acc.map Listed.got) = acc.map Listed.got := by
          split
          · rename_i he
            subst hpre
            rw [List.map_append, List.map_singleton, mapLast_snoc]
            have hp0 : p.size = 0 := k1 he
            simp [Listed.got, hp0]
          · rfl
        rw [hz]
        by_cases hz0 : i.size = 0
        · have hp := k3 hz0
          have : (if oa ≤ i.address ∧ i.address < oa + os then (⟨i.name, i.address, i.size, i.padding, i.archive, i.object⟩ : Got)
              else ⟨i.name, i.address, 0, i.padding, i.archive, i.object⟩) = ⟨i.name, i.address, 0, 0, i.archive, i.object⟩ := by
            rw [hz0, hp]; split <;> rfl
          rw [this]
          simp only [if_true, addFill_zero]
          simp [Listed.got, hz0, hp]
        · rw [if_pos (k2 hz0)]
          simp only []
          rw [if_neg hz0]
          simp [Listed.got]
    rw [hs, ih (acc ++ [i]) (by simpa using h3)]
    simp

/-- C29: in a tidy listing the sections are read back exactly as printed. -/
theorem C29_tidy {o : ListedOut} (h : Tidy o.address o.size none o.inputs) :
    o.toPOut = ⟨o.name, some o.address, some o.size, o.inputs.map fun i => ⟨i.name, some i.address, some i.size, i.padding, i.archive, i.object⟩⟩ := by
  unfold ListedOut.toPOut ListedOut.counted
  have := foldl_tidy (oa := o.address) (os := o.size) o.inputs [] h
  simp only [List.map_nil, List.nil_append] at this
  rw [this, List.map_map]
  rfl

/-- C29: padding is moved, never invented. -/
theorem C29_padding_bound {o : ListedOut} (h : ∀ i ∈ o.inputs, ∀ p ∈ i.pads, 0 ≤ p.size) :
    (o.counted.map (·.fill)).sum ≤ (o.inputs.map Listed.padding).sum := by
  have hp : ∀ i ∈ o.inputs, 0 ≤ i.padding := by
    intro i hi
    have := h i hi
    unfold Listed.padding
    generalize i.pads = ps at this
    induction ps with
    | nil => simp
    | cons p ps ih =>
      have h1 := this p (by simp)
      have h2 := ih fun x hx => this x (by simp [hx])
      simp only [List.map_cons, List.sum_cons]; omega
  have hadd : ∀ (n : Int), 0 ≤ n → ∀ acc, ((addFill n acc).map (·.fill)).sum ≤ (acc.map (·.fill)).sum + n := by
    intro n hn acc
    induction acc using snocInd with
    | nil => simpa [addFill] using hn
    | snoc acc g ih =>
      rw [addFill_snoc]
      split
      · simp; omega
      · simp only [List.map_append, List.sum_append, List.map_singleton, List.sum_singleton]; omega
  have hml : ∀ acc : List Got, ((mapLast (fun x => { x with size := 0 }) acc).map (·.fill)).sum = (acc.map (·.fill)).sum := by
    intro acc
    induction acc using snocInd with
    | nil => rfl
    | snoc acc g _ => rw [mapLast_snoc]; simp
  have hstep : ∀ acc i, 0 ≤ Listed.padding i →
      ((settle o.address o.size acc i).map (·.fill)).sum ≤ (acc.map (·.fill)).sum + i.padding := by
    intro acc i hi
    unfold settle
    simp only []
    cases hl : acc.getLast? with
    | none =>
      have : acc = [] := List.getLast?_eq_none_iff.mp hl
      subst this; simp
    | some last =>
      simp only []
      have key : ∀ acc' : List Got, (acc'.map (·.fill)).sum = (acc.map (·.fill)).sum → ∀ z : Int,
          ((if z = 0 then addFill i.padding acc' ++ [(⟨i.name, i.address, z, 0, i.archive, i.object⟩ : Got)]
            else acc' ++ [⟨i.name, i.address, z, i.padding, i.archive, i.object⟩]).map (·.fill)).sum ≤
          (acc.map (·.fill)).sum + i.padding := by
        intro acc' he z
        have := hadd i.padding hi acc'
        split
        · simp only [List.map_append, List.sum_append, List.map_singleton, List.sum_singleton]; omega
        · simp only [List.map_append, List.sum_append, List.map_singleton, List.sum_singleton]; omega
      by_cases hin : o.address ≤ i.address ∧ i.address < o.address + o.size <;> by_cases hsame : last.address = i.address
      · rw [if_pos hin, if_pos hsame]; exact key _ (hml acc) _
      · rw [if_pos hin, if_neg hsame]; exact key _ rfl _
      · rw [if_neg hin, if_pos hsame]; exact key _ (hml acc) _
      · rw [if_neg hin, if_neg hsame]; exact key _ rfl _
  unfold ListedOut.counted
  have main : ∀ (is : List Listed) (acc : List Got), (∀ i ∈ is, 0 ≤ i.padding) →
      ((is.foldl (settle o.address o.size) acc).map (·.fill)).sum ≤ (acc.map (·.fill)).sum + (is.map Listed.padding).sum := by
    intro is
    induction is with
    | nil => intro acc _; simp
    | cons i is ih =>
      intro acc hi
      rw [List.foldl_cons]
      have h1 := ih (settle o.address o.size acc i) fun x hx => hi x (by simp [hx])
      have h2 := hstep acc i (hi i (by simp))
      simp only [List.map_cons, List.sum_cons]; omega
  have := main o.inputs [] hp
  simpa using this

/-! ### Every listing has a text -/

/-- Sections the linker can print. -/
def Listed.Printable (i : Listed) : Prop :=
  InputName i.name ∧ 0 ≤ i.address ∧ 0 ≤ i.size ∧ (∃ p, RefText i.archive i.object p ∧ Trimmed p) ∧
    ∀ p ∈ i.pads, 0 ≤ p.address ∧ 0 ≤ p.size

theorem hexOf_int {n : Int} (h : 0 ≤ n) : ∃ s, HexOf n s := by
  obtain ⟨s, hs⟩ := hexOf_exists n.toNat
  exact ⟨s, by rwa [Int.toNat_of_nonneg h] at hs⟩

theorem gap_space : Gap (str " ") := by decide

theorem padText_exists (p : Pad) (h : 0 ≤ p.address ∧ 0 ≤ p.size) : ∃ l, PadText p l := by
  obtain ⟨a, ha⟩ := hexOf_int h.1
  obtain ⟨s, hs⟩ := hexOf_int h.2
  have h1 : Words _ [str "*fill*", a, s] := .cons blank_nil (by decide) (gap_head gap_space _)
    (.cons gap_space.2 ha.word (gap_head gap_space _) (.cons gap_space.2 hs.word (.inl rfl) (.nil blank_nil)))
  have h2 : Words _ [a, s, str "LONG", str "0x0"] := .cons blank_nil ha.word (gap_head gap_space _)
    (.cons gap_space.2 hs.word (gap_head gap_space _) (.cons gap_space.2 (by decide) (gap_head gap_space _)
      (.cons gap_space.2 (by decide) (.inl rfl) (.nil blank_nil))))
  by_cases hf : p.isFill = true
  · exact ⟨_, a, s, ha, hs, by rw [if_pos hf]; exact h1⟩
  · exact ⟨_, a, s, ha, hs, by rw [if_neg hf]; exact ⟨_, _, by decide, h2⟩⟩

theorem padsText_exists (ps : List Pad) (h : ∀ p ∈ ps, 0 ≤ p.address ∧ 0 ≤ p.size) : ∃ ls, PadsText ps ls := by
  induction ps with
  | nil => exact ⟨[], .nil⟩
  | cons p ps ih =>
    obtain ⟨l, hl⟩ := padText_exists p (h p (by simp))
    obtain ⟨ls, hls⟩ := ih fun x hx => h x (by simp [hx])
    exact ⟨_, .pad hl hls⟩

theorem inputsText_exists (is : List Listed) (h : ∀ i ∈ is, i.Printable) : ∃ ls, InputsText is ls := by
  induction is with
  | nil => exact ⟨[], .nil⟩
  | cons i is ih =>
    obtain ⟨hn, ha, hs, ⟨p, hr, hp⟩, hpads⟩ := h i (by simp)
    obtain ⟨a, ha⟩ := hexOf_int ha
    obtain ⟨s, hs⟩ := hexOf_int hs
    obtain ⟨ls, hls⟩ := padsText_exists i.pads hpads
    obtain ⟨ls', hls'⟩ := ih fun x hx => h x (by simp [hx])
    exact ⟨_, .cons (.one hn gap_space.2 gap_space ha gap_space hs gap_space hr hp blank_nil hls) hls'⟩

/-- Every list of output sections has a listing, so the round trip is not vacuous. -/
theorem outsText_exists (os : List ListedOut) (h : ∀ o ∈ os, Word o.name ∧ str "." <+: o.name ∧ 0 ≤ o.address ∧ 0 ≤ o.size ∧
    ∀ i ∈ o.inputs, i.Printable) : ∃ ls, OutsText os ls := by
  induction os with
  | nil => exact ⟨[], .nil⟩
  | cons o os ih =>
    obtain ⟨hn, hd, ha, hs, hi⟩ := h o (by simp)
    obtain ⟨a, ha⟩ := hexOf_int ha
    obtain ⟨s, hs⟩ := hexOf_int hs
    obtain ⟨ls, hls⟩ := inputsText_exists o.inputs hi
    obtain ⟨ls', hls'⟩ := ih fun x hx => h x (by simp [hx])
    have hw : Words ([] ++ (o.name ++ (str " " ++ (a ++ (str " " ++ (s ++ []))))) : Str) [o.name, a, s] :=
      .cons blank_nil hn (gap_head gap_space _) (.cons gap_space.2 ha.word (gap_head gap_space _)
        (.cons gap_space.2 hs.word (.inl rfl) (.nil blank_nil)))
    exact ⟨_, .cons (.mk (.one (hd.trans (List.prefix_append _ _)) ha hs hw) (m := []) (fun _ hx => by cases hx) hls blank_nil) hls'⟩

/-! ### Examples and counterexamples -/

/-- A listing with one-line and two-line sections, an empty section and padding. -/
def sampleMap : List Str := [str "Linker script and memory map", str "LOAD x.o",
  str ".iram0.text     0x40080000       0x30", str " *(.iram*)",
  str " .text          0x40080000        0x0 a.o",
  str " .text.f        0x40080000       0x0e esp-idf/x/libx.a(f.c.obj)", str "                0x40080000                f",
  str " *fill*         0x4008000e        0x2 ",
  str " .text.a_very_long_function_name", str "                0x40080010       0x1c b c.o",
  str "                0x4008002c        0x4 LONG 0x0", str "", str ".bss", str " *(.bss)", str "", str "Cross Reference Table"]

example : getSections sampleMap = .ok ([⟨str ".iram0.text", some 0x40080000, some 0x30,
      [⟨str ".text", some 0x40080000, some 0, 0, str "(exe)", str "a.o"⟩,
       ⟨str ".text.f", some 0x40080000, some 14, 2, str "esp-idf/x/libx.a", str "f.c.obj"⟩,
       ⟨str ".text.a_very_long_function_name", some 0x40080010, some 28, 4, str "(exe)", str "b c.o"⟩]⟩,
    ⟨str ".bss", some 0, some 0, []⟩], [str "Cross Reference Table"]) := by decide

/-- C29 fails with two paddings after an empty section: the code adds the variable `size`, the last `*fill*` (8),
not the padding of the section (12). -/
theorem C29_fill_lost : (getSections [linkerScript, str ".text 0x100 0x40", str " .text.a 0x100 0x10 a.o", str " .text.b 0x110 0x0 b.o",
    str " *fill* 0x110 0x4", str " *fill* 0x114 0x8", str " .text.c 0x11c 0x4 c.o", str ""]).map (fun r => r.1.map fun o => o.inputs.map (·.fill)) =
    .ok [[8, 0, 0]] := by decide

/-- The same text as it should be counted. -/
theorem C29_fill_expected : (ListedOut.counted ⟨str ".text", 0x100, 0x40, [⟨str ".text.a", 0x100, 0x10, str "(exe)", str "a.o", []⟩,
    ⟨str ".text.b", 0x110, 0, str "(exe)", str "b.o", [⟨true, 0x110, 4⟩, ⟨true, 0x114, 8⟩]⟩,
    ⟨str ".text.c", 0x11c, 4, str "(exe)", str "c.o", []⟩]⟩).map (·.fill) = [12, 0, 0] := by decide

/-- C29 fails with explicit data after an empty section: `size` is the size of an unrelated line, here of the output
section. -/
theorem C29_fill_wrong : (getSections [linkerScript, str ".text_in_two_lines", str " 0x100 0x40", str " .text.a 0x100 0x10 a.o",
    str " .text.b 0x110 0x0 b.o", str " 0x110 0x4 LONG 0x0", str ""]).map (fun r => r.1.map fun o => o.inputs.map (·.fill)) =
    .ok [[0x40, 0]] := by decide

/-- An output section that is not closed by a blank line is lost. -/
theorem C29_unclosed_lost : getSections [linkerScript, str ".text 0x100 0x10", str " .text.a 0x100 0x10 a.o", str "Cross Reference Table"] =
    .ok ([], [str "Cross Reference Table"]) := by decide

end EspSize
