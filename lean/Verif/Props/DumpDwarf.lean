import Verif.Spec.DumpDwarf
import Verif.Props.Dump
import Verif.Props.DwarfDies
import Verif.Props.DwarfEval
import Verif.Props.DwarfNames
import Verif.Props.MapErrors
/-! # C102: listings of abbreviations and debugging information -/
namespace EspSize

/-! ### Words -/

theorem hexOf_num (n : Nat) : HexOf n (hexNum n) := by
  obtain ⟨ds, h1, h2, h3, h4⟩ := toDigits_hex n
  refine ⟨ds, h1, h2, ?_, by rw [← h4]⟩
  unfold hexNum
  rw [if_neg (by omega), Int.natAbs_natCast, h3]
  rfl

theorem word_surround {c d : Char} {s : Str} (hc : isSpace c = false) (hd : isSpace d = false) (h : ∀ x ∈ s, isSpace x = false) :
    Word (c :: (s ++ [d])) := by
  refine ⟨by simp, ?_⟩
  intro x hx
  simp only [List.mem_cons, List.mem_append, List.not_mem_nil, or_false] at hx
  rcases hx with rfl | hx | rfl
  · exact hc
  · exact h x hx
  · exact hd

theorem words_word {t : Str} (h : Word t) : Words t [t] := by
  have := words_split t
  rwa [split_word h] at this

theorem word_angle {s : Str} (h : Word s) : Word (angle s) := word_surround (by decide) (by decide) h.2

theorem words_angle {s : Str} (h : Word s) : Words (angle s) [angle s] := words_word (word_angle h)

/-! ### Lines -/

theorem dieLine_words (d : Die) : DieLine d (dieLine d) := by
  refine ⟨_, _, hexOf_num d.offset, hexOf_num d.size, ?_⟩
  have e : dieLine d = angle (intStr d.level) ++ ' ' :: (angle (hexNum d.offset) ++ ' ' :: (str "Abbrev" ++ ' ' :: (str "Number:" ++ ' ' ::
      (angle (intStr d.code) ++ ' ' :: (('(' :: (nameOrUnknown tagMap d.tag ++ [')'])) ++ ' ' :: (str "size:" ++ ' ' :: hexNum d.size)))))) := by
    simp [dieLine, angle, str]
  rw [e]
  exact words_join (words_angle (word_nat _)) (words_join (words_angle (hexOf_num _).word) (words_join (words_word (by decide))
    (words_join (words_word (by decide)) (words_join (words_angle (word_nat _)) (words_join (words_split _) (words_join (words_word (by decide))
      (words_word (hexOf_num _).word)))))))

theorem padRight_blank {w : Nat} {s : Str} (h : s.length < w) : padRight w s = s ++ ' ' :: List.replicate (w - s.length - 1) ' ' := by
  unfold padRight
  obtain ⟨k, hk⟩ : ∃ k, w - s.length = k + 1 := ⟨w - s.length - 1, by omega⟩
  rw [hk, List.replicate_succ]
  simp

theorem attrLine_words (e : ElfFile) (a : DAttr) (v : Str) (h : (e.getAttrStr ⟨a, none, none⟩).1 = .ok v)
    (hs : (nameOrUnknown atMap a.attr).length < 30) : ∃ line, e.attrLine a = .ok line ∧ AttrLine e a line := by
  unfold ElfFile.attrLine
  simp only [h, bind, Except.bind]
  refine ⟨_, rfl, _, v, hexOf_num a.offset, h, ?_⟩
  rw [padRight_blank hs]
  generalize hN : nameOrUnknown atMap a.attr = N
  generalize hR : List.replicate (30 - N.length - 1) ' ' = R
  generalize hF : padRight 30 (nameOrUnknown formMap a.form) = F
  have hb : Blank R := by rw [← hR]; exact blank_spaces _
  have hw : Words F (split (nameOrUnknown formMap a.form)) := by rw [← hF]; exact words_padRight 30 _
  have e : str "    <" ++ (hexNum a.offset ++ (str "> " ++ ((N ++ ' ' :: R) ++ (F ++ ' ' :: v)))) =
      str "    " ++ (angle (hexNum a.offset) ++ ' ' :: (N ++ ' ' :: (R ++ (F ++ ' ' :: v)))) := by
    simp [angle, str]
  rw [e]
  exact words_blank (by decide) (words_join (words_angle (hexOf_num _).word) (words_join (words_split _)
    (words_blank hb (words_join hw (words_split v)))))

/-! ### Listings -/

/-- **C102** a listing of several parts: all those before the first one that raises an exception, and this one as far as it goes. -/
theorem C102_up_to_error {α : Type} (f : α → Printout) (l : List α) :
    ∃ done todo, l = done ++ todo ∧ (∀ a ∈ done, (f a).2 = none) ∧
      ((todo = [] ∧ printAll f l = (done.flatMap fun a => (f a).1, none)) ∨
       ∃ a rest x, todo = a :: rest ∧ (f a).2 = some x ∧ printAll f l = ((done.flatMap fun a => (f a).1) ++ (f a).1, some x)) := by
  induction l with
  | nil => exact ⟨[], [], rfl, by simp, .inl ⟨rfl, rfl⟩⟩
  | cons a t ih =>
    cases h : (f a).2 with
    | some x =>
      refine ⟨[], a :: t, rfl, by simp, .inr ⟨a, t, x, rfl, h, ?_⟩⟩
      simp [printAll, Printout.andThen, h]
    | none =>
      obtain ⟨d, r, h1, h2, h3⟩ := ih
      refine ⟨a :: d, r, by rw [h1]; rfl, by simpa [h] using h2, ?_⟩
      rcases h3 with ⟨rfl, h3⟩ | ⟨b, rest, x, rfl, hx, h3⟩
      · exact .inl ⟨rfl, by simp [printAll, Printout.andThen, h, h3]⟩
      · exact .inr ⟨b, rest, x, rfl, hx, by simp [printAll, Printout.andThen, h, h3]⟩

theorem printAll_none {α : Type} {f : α → Printout} {l : List α} :
    (printAll f l).2 = none ↔ ∀ a ∈ l, (f a).2 = none := by
  obtain ⟨d, r, h1, h2, h3⟩ := C102_up_to_error f l
  rcases h3 with ⟨rfl, h3⟩ | ⟨b, rest, x, rfl, hx, h3⟩
  · rw [List.append_nil] at h1
    rw [h3, h1]
    exact ⟨fun _ => h2, fun _ => rfl⟩
  · rw [h3]
    refine ⟨fun h => (by cases h), fun h => ?_⟩
    have := h b (by rw [h1]; simp)
    rw [hx] at this
    cases this

theorem printAll_lines {α : Type} {f : α → Printout} {l : List α} (h : ∀ a ∈ l, (f a).2 = none) :
    printAll f l = (l.flatMap fun a => (f a).1, none) := by
  induction l with
  | nil => rfl
  | cons a t ih =>
    simp only [printAll, ih fun x hx => h x (by simp [hx]), Printout.andThen, h a (by simp), List.flatMap_cons]

theorem printEach_none {α : Type} {f : α → Except Err Str} {l : List α} : (printEach f l).2 = none ↔ ∀ a ∈ l, ∃ s, f a = .ok s := by
  induction l with
  | nil => simp [printEach]
  | cons a t ih =>
    cases h : f a with
    | error x => simp [printEach, h]
    | ok s => simp [printEach, h, ih]

theorem printEach_lines {α : Type} {f : α → Except Err Str} {P : α → Str → Prop} {l : List α} (h : ∀ a ∈ l, ∃ s, f a = .ok s ∧ P a s) :
    (printEach f l).2 = none ∧ All2 P l (printEach f l).1 := by
  induction l with
  | nil => exact ⟨rfl, trivial⟩
  | cons a t ih =>
    obtain ⟨s, h1, h2⟩ := h a (by simp)
    obtain ⟨h3, h4⟩ := ih fun x hx => h x (by simp [hx])
    simp only [printEach, h1]
    exact ⟨h3, h2, h4⟩

theorem dieLines_none {e : ElfFile} {d : Die} :
    (e.dieLines d).2 = none ↔ ∀ a ∈ d.attrs, ∃ v, (e.getAttrStr ⟨a.2, none, none⟩).1 = .ok v := by
  unfold ElfFile.dieLines Printout.andThen
  simp only
  rw [printEach_none]
  simp only [List.mem_map, forall_exists_index, and_imp, forall_apply_eq_imp_iff₂]
  refine forall_congr' fun a => forall_congr' fun _ => ?_
  unfold ElfFile.attrLine
  cases (e.getAttrStr ⟨a.2, none, none⟩).1 <;> simp [bind, Except.bind]

/-- **C102** the listing of the debugging information is complete if and only if the units and entries can be read and all values be
shown. -/
theorem C102_complete_iff (e : ElfFile) :
    e.dumpDebugInfo.2 = none ↔ ∃ info cus, e.infoData = .ok info ∧ e.cus = .ok cus ∧
      ∀ cu ∈ cus, ∃ ds, getDIEs ⟨formEnv e cu, info, e.abbrevs cu, none⟩ cu = .ok ds ∧ ValuesShown e (ds.map Prod.snd) := by
  unfold ElfFile.dumpDebugInfo
  cases h1 : e.infoData with
  | error x => simp
  | ok info =>
    cases h2 : e.cus with
    | error x => simp
    | ok cus =>
      simp only [printAll_none]
      constructor
      · intro h
        refine ⟨info, cus, rfl, rfl, fun cu hcu => ?_⟩
        have := h cu hcu
        unfold ElfFile.unitLines at this
        split at this
        · cases this
        · rename_i ds hds
          exact ⟨ds, hds, fun d hd => dieLines_none.mp (printAll_none.mp this d hd)⟩
      · rintro ⟨info', cus', e1, e2, h⟩ cu hcu
        cases e1; cases e2
        obtain ⟨ds, h3, h4⟩ := h cu hcu
        unfold ElfFile.unitLines
        rw [h3]
        exact printAll_none.mpr fun d hd => dieLines_none.mpr (h4 d hd)

theorem dieBlock_of {e : ElfFile} {d : Die} (hv : ∀ a ∈ d.attrs, ∃ v, (e.getAttrStr ⟨a.2, none, none⟩).1 = .ok v)
    (hs : ∀ a ∈ d.attrs, (nameOrUnknown atMap a.2.attr).length < 30) : (e.dieLines d).2 = none ∧ DieBlock e d (e.dieLines d).1 := by
  have h := printEach_lines (f := e.attrLine) (P := AttrLine e) (l := d.attrs.map Prod.snd) (by
    intro a ha
    obtain ⟨p, hp, rfl⟩ := List.mem_map.mp ha
    obtain ⟨v, hv⟩ := hv p hp
    exact attrLine_words e p.2 v hv (hs p hp))
  exact ⟨h.1, _, _, rfl, dieLine_words d, h.2⟩

theorem flatMap_blocks {α : Type} {f : α → List Str} {P : α → List Str → Prop} {l : List α} (h : ∀ a ∈ l, P a (f a)) :
    ∃ blocks, (l.flatMap f) = blocks.flatten ∧ All2 P l blocks := by
  induction l with
  | nil => exact ⟨[], rfl, trivial⟩
  | cons a t ih =>
    obtain ⟨b, h1, h2⟩ := ih fun x hx => h x (by simp [hx])
    exact ⟨f a :: b, by rw [List.flatMap_cons, h1]; rfl, h a (by simp), h2⟩

/-- **C102** (attributes with names shorter than 30 characters) the listing of the debugging information has a line for each entry of
each unit, with its level, offset, abbreviation, tag and size, and a line for each of its attributes, in order. -/
theorem C102_debug_info_partial (e : ElfFile) (info : Bytes) (cus : List CU) (h1 : e.infoData = .ok info) (h2 : e.cus = .ok cus)
    (h : ∀ cu ∈ cus, ∃ ds, getDIEs ⟨formEnv e cu, info, e.abbrevs cu, none⟩ cu = .ok ds ∧ ValuesShown e (ds.map Prod.snd) ∧ ShortNames (ds.map Prod.snd)) :
    ∃ blocks, e.dumpDebugInfo = (blocks.flatten, none) ∧
      All2 (fun cu lines => ∃ ds, getDIEs ⟨formEnv e cu, info, e.abbrevs cu, none⟩ cu = .ok ds ∧ UnitBlock e (ds.map Prod.snd) lines) cus blocks := by
  have hu : ∀ cu ∈ cus, (e.unitLines info cu).2 = none ∧
      ∃ ds, getDIEs ⟨formEnv e cu, info, e.abbrevs cu, none⟩ cu = .ok ds ∧ UnitBlock e (ds.map Prod.snd) (e.unitLines info cu).1 := by
    intro cu hcu
    obtain ⟨ds, h3, h4, h5⟩ := h cu hcu
    have hb : ∀ d ∈ ds.map Prod.snd, (e.dieLines d).2 = none ∧ DieBlock e d (e.dieLines d).1 := fun d hd => dieBlock_of (h4 d hd) (h5 d hd)
    have hl := printAll_lines fun d hd => (hb d hd).1
    unfold ElfFile.unitLines
    simp only [h3]
    rw [hl]
    exact ⟨rfl, ds, rfl, flatMap_blocks fun d hd => (hb d hd).2⟩
  obtain ⟨blocks, h6, h7⟩ := flatMap_blocks (f := fun cu => (e.unitLines info cu).1) (P := fun cu lines =>
    ∃ ds, getDIEs ⟨formEnv e cu, info, e.abbrevs cu, none⟩ cu = .ok ds ∧ UnitBlock e (ds.map Prod.snd) lines) fun cu hcu => (hu cu hcu).2
  refine ⟨blocks, ?_, h7⟩
  unfold ElfFile.dumpDebugInfo
  rw [h1, h2]
  simp only
  rw [printAll_lines fun cu hcu => (hu cu hcu).1, ← h6]

theorem all2_eq {α : Type} {R : α → α → Prop} {l m : List α} (h : All2 R l m) (hR : ∀ x, ∀ y ∈ m, R x y → x = y) : l = m := by
  induction l generalizing m with
  | nil => cases m with
    | nil => rfl
    | cons _ _ => exact h.elim
  | cons x t ih => cases m with
    | nil => exact h.elim
    | cons y s => rw [hR x y (by simp) h.1, ih h.2 fun a b hb => hR a b (by simp [hb])]

/-- No value is of the three forms that are not read as specified. -/
def NoneLost (dies : List Die) : Prop := ∀ d ∈ dies, ∀ a ∈ d.attrs, a.2.form ∉ valueLost

theorem dieAlike_eq {x y : Die} (h : DieAlike x y) (hl : ∀ a ∈ y.attrs, a.2.form ∉ valueLost) : x = y := by
  have ha : x.attrs = y.attrs := all2_eq h.attrs fun p q hq hpq => by
    obtain ⟨h1, h2⟩ := hpq
    have h3 := h2.value (hl q hq)
    obtain ⟨k, ⟨a, f, o, v, z⟩⟩ := p
    obtain ⟨k', ⟨a', f', o', v', z'⟩⟩ := q
    have g1 := h2.attr; have g2 := h2.form; have g3 := h2.offset; have g4 := h2.size
    simp only at h1 g1 g2 g3 g4 h3
    subst h1 g1 g2 g3 g4 h3
    rfl
  obtain ⟨h1, h2, h3, h4, h5, h6, -⟩ := h
  cases x; cases y
  simp only at h1 h2 h3 h4 h5 h6 ha
  subst h1 h2 h3 h4 h5 h6 ha
  rfl

/-- **C102** (as `C66_entries_partial`, and attributes with names shorter than 30 characters) the listing of the debugging information of
a well-formed file has a line for each entry encoded in each unit and a line for each of its attributes, in order. -/
theorem C102_entries_partial (e : ElfFile) (dAbbrev : Bytes) (us : List (Unit × List Die))
    (hab : ∃ sh, e.lookupShdr (str ".debug_abbrev") e.shdrs = .ok (some sh) ∧ e.data sh = .ok dAbbrev) (hus : UnitsDies e.order dAbbrev 0 us)
    (hinfo : e.infoData = .ok (us.flatMap fun p => p.1.bytes e.order))
    (h : ∀ p ∈ us, ValuesShown e p.2 ∧ ShortNames p.2 ∧ NoneLost p.2) :
    ∃ blocks, e.dumpDebugInfo = (blocks.flatten, none) ∧ All2 (fun p lines => UnitBlock e p.2 lines) us blocks := by
  have hcus := units_cus hus hinfo
  generalize hi : (us.flatMap fun p => p.1.bytes e.order) = info at hinfo
  have key : ∀ (us : List (Unit × List Die)) (off : Nat) (pre : Bytes), UnitsDies e.order dAbbrev off us → pre.length = off →
      info = pre ++ (us.flatMap fun p => p.1.bytes e.order) → (∀ p ∈ us, NoneLost p.2) →
      All2 (fun cu p => ∃ dict, getDIEs ⟨formEnv e cu, info, e.abbrevs cu, none⟩ cu = .ok dict ∧ dict.map Prod.snd = p.2) (placed e.order off (us.map (·.1))) us := by
    intro us
    induction us with
    | nil => intros; trivial
    | cons p t ih =>
      intro off pre hu hp hi hl
      cases hu with
      | cons h1 h2 =>
        rename_i u ds
        rw [List.flatMap_cons] at hi
        obtain ⟨dict, g1, g2, -⟩ := unit_read hab h1 hi hp none
        refine ⟨⟨dict, g1, ?_⟩, ih _ (pre ++ u.bytes e.order) h2 (by simp [hp]) (by rw [hi]; simp) fun p hp => hl p (by simp [hp])⟩
        have g3 : All2 DieAlike (dict.map Prod.snd) ds := by
          have g4 := All2.map_both (f := Prod.snd) (g := id) (Q := DieAlike) g2 fun _ _ _ _ hxy => hxy.2
          rwa [List.map_id] at g4
        exact all2_eq g3 fun x y hy hxy => dieAlike_eq hxy (hl (u, ds) (by simp) y hy)
  have hk := key us 0 [] hus rfl (by rw [← hi]; rfl) fun p hp => (h p hp).2.2
  obtain ⟨blocks, h1, h2⟩ := C102_debug_info_partial e info _ hinfo hcus (by
    intro cu hcu
    obtain ⟨p, hp, dict, g1, g2⟩ := hk.mem_left hcu
    exact ⟨dict, g1, by rw [g2]; exact (h p hp).1, by rw [g2]; exact (h p hp).2.1⟩)
  refine ⟨blocks, h1, ?_⟩
  generalize placed e.order 0 (us.map (·.1)) = cus at hk h2
  clear hcus h1 key hi h hinfo hus
  induction cus generalizing us blocks with
  | nil => cases us with
    | nil => cases blocks with
      | nil => trivial
      | cons _ _ => exact h2.elim
    | cons _ _ => exact hk.elim
  | cons c t ih => cases us with
    | nil => exact hk.elim
    | cons p s => cases blocks with
      | nil => exact h2.elim
      | cons b r =>
        obtain ⟨⟨dict, g1, g2⟩, hk⟩ := hk
        obtain ⟨⟨dict', g3, g4⟩, h2⟩ := h2
        rw [g1] at g3
        cases g3
        exact ⟨show UnitBlock e p.2 b by rw [← g2]; exact g4, ih s r hk h2⟩

/-- **C102** (violated) between the name of an attribute and its form there is no blank if the name has 30 characters or more, as
that of `DW_AT_GNU_call_site_target_clobbered`. -/
theorem C102_joined (e : ElfFile) (off : Nat) :
    e.attrLine ⟨0x2114, 0x0b, off, .num 1, 1⟩ = .ok (str "    <" ++ (hexNum off ++
      str "> DW_AT_GNU_call_site_target_clobberedDW_FORM_data1                  0x1")) := by
  have h : (e.getAttrStr ⟨⟨0x2114, 0x0b, off, .num 1, 1⟩, none, none⟩).1 = .ok (str "0x1") := by
    simp [ElfFile.getAttrStr, ElfFile.getAttrEval, ElfFile.evalAttr, attrText, AVal.text]
    decide
  unfold ElfFile.attrLine
  simp only [h, bind, Except.bind]
  rw [show padRight 30 (nameOrUnknown atMap 0x2114) = str "DW_AT_GNU_call_site_target_clobbered" by decide +kernel,
    show padRight 30 (nameOrUnknown formMap 0x0b) = str "DW_FORM_data1                 " by decide +kernel]
  rfl

/-- **C102** (violated) the values of forms `loclistx` and `rnglistx`, usual in DWARF 5, are read as none and have no text: the listing
ends with a `TypeError` at the first of them. -/
theorem C102_no_value (e : ElfFile) (E : FormEnv) (d : Bytes) (a : AbbrevAttr) (off : Nat) (x : DAttr) (hf : a.form = 0x22 ∨ a.form = 0x23)
    (h : dattrAt E a d off = .ok x) : e.attrLine x = .error .typeError := by
  unfold dattrAt at h
  obtain ⟨r, hr, h⟩ := bind_ok h
  cases h
  have hn : r.1 = .none_ := by
    rcases hf with hf | hf <;>
    · unfold attrValue at hr
      simp only [hf] at hr
      simp only [Nat.reduceEqDiff, if_false, if_true] at hr
      obtain ⟨q, _, hr⟩ := bind_ok hr
      cases hr
      rfl
  unfold ElfFile.attrLine
  have ht : (e.getAttrStr ⟨⟨a.attr, a.form, off, r.1, r.2 - off⟩, none, none⟩).1 = .error .typeError := by
    rcases hf with hf | hf <;> simp [ElfFile.getAttrStr, ElfFile.getAttrEval, ElfFile.evalAttr, attrText, AVal.text, hf, hn]
  simp only [ht, bind, Except.bind]

/-- **C102** (violated) a location of no bytes, as of a variable that was optimized away, has no text either: the listing ends at the
first of them. -/
theorem C102_empty_location (e : ElfFile) (attr off size : Nat) : e.attrLine ⟨attr, 0x18, off, .bytes [], size⟩ = .error .elf := by
  unfold ElfFile.attrLine
  have h : (e.getAttrStr ⟨⟨attr, 0x18, off, .bytes [], size⟩, none, none⟩).1 = .error .elf := by
    simp only [ElfFile.getAttrStr, ElfFile.getAttrEval, C51_empty_location]
  simp only [h, bind, Except.bind]

/-! ### Abbreviations -/

theorem abbrevAttrLine_words (off : Nat) (a : AbbrevAttr) : AbbrevAttrLine a off (abbrevAttrLine (off, a)) := by
  refine ⟨_, hexOf_pad 10 off, ?_⟩
  show Words ('<' :: (hexPad 10 off ++ (str ">      " ++ (padRight 30 (nameOrUnknown atMap a.attr) ++ ' ' :: nameOrUnknown formMap a.form)))) _
  generalize hN : nameOrUnknown atMap a.attr = N
  generalize hM : nameOrUnknown formMap a.form = M
  generalize hF : padRight 30 N = F
  have hw : Words F (split N) := by rw [← hF]; exact words_padRight 30 _
  have e : '<' :: (hexPad 10 off ++ (str ">      " ++ (F ++ ' ' :: M))) = angle (hexPad 10 off) ++ ' ' :: (str "     " ++ (F ++ ' ' :: M)) := by
    simp [angle, str]
  rw [e]
  exact words_join (words_angle (hexOf_pad _ _).word) (words_blank (by decide) (words_join hw (words_split M)))

theorem abbrevLine_words (off : Nat) (x : AbbrevEntry) : AbbrevLine x off (abbrevLine (off, x)) := by
  refine ⟨_, hexOf_pad 10 off, ?_⟩
  have e : abbrevLine (off, x) = angle (hexPad 10 off) ++ ' ' :: (str "  " ++ (intStr x.code ++ ' ' :: (nameOrUnknown tagMap x.tag ++ ' ' ::
      ('[' :: (intStr x.children ++ [']']))))) := by
    simp [abbrevLine, angle, str]
  rw [e]
  exact words_join (words_angle (hexOf_pad _ _).word) (words_blank (by decide) (words_join (words_word (word_nat _)) (words_join (words_split _)
    (words_word (word_surround (by decide) (by decide) (word_nat _).2)))))

theorem cuLine_words (idx : Nat) (cu : CU) : UnitLine cu idx (cuLine idx cu) := by
  refine ⟨_, _, hexOf_pad 10 _, hexOf_pad 10 _, ?_⟩
  have e : cuLine idx cu = angle (hexPad 10 cu.abbrevOff) ++ ' ' :: ((str "CU" ++ angle (intStr idx)) ++ ' ' :: (str "at" ++ ' ' :: (str "offset" ++ ' ' ::
      hexPad 10 cu.offset))) := by
    simp [cuLine, angle, str]
  rw [e]
  have hw : Word (str "CU" ++ angle (intStr idx)) := by
    refine ⟨by simp [str], fun c hc => ?_⟩
    rcases List.mem_append.mp hc with hc | hc
    · exact (show ∀ c ∈ str "CU", isSpace c = false by decide) c hc
    · exact (word_angle (word_nat idx)).2 c hc
  exact words_join (words_angle (hexOf_pad _ _).word) (words_join (words_word hw) (words_join (words_word (by decide))
    (words_join (words_word (by decide)) (words_word (hexOf_pad _ _).word))))

theorem attrs_listed {l : List AbbrevAttr} {bs d : Bytes} {off : Nat} (h : AbbrevAttrsEnc l bs) (hat : At d off bs) :
    AttrsListed d off (off + bs.length) l ((attrOffsets d off l).map abbrevAttrLine) := by
  induction h generalizing off with
  | done h =>
    simp only [attrOffsets, abbrevAttrAt_enc h hat, List.map_cons, List.map_nil]
    exact .cons h hat (abbrevAttrLine_words _ _) .nil
  | cons hne h _ ih =>
    simp only [attrOffsets, abbrevAttrAt_enc h hat.left, List.map_cons]
    refine .cons h hat.left (abbrevAttrLine_words _ _) ?_
    rw [List.length_append, ← Nat.add_assoc]
    exact ih hat.right

theorem abbrevs_listed {o : Order} {l : List AbbrevEntry} {bs d : Bytes} {off : Nat} (h : AbbrevsEnc o l bs) (hat : At d off bs) :
    AbbrevsListed o d off l ((entryOffsets o d off l).flatMap (abbrevLines d)) := by
  induction h generalizing off with
  | done hz => exact .nil
  | @cons x l a b he _ ih =>
    simp only [entryOffsets, abbrevEntryAt_enc he hat.left, List.flatMap_cons, abbrevLines]
    have hs : ∃ start, attrsStart d off = .ok start ∧ AttrsListed d start (off + a.length) x.attrs ((attrOffsets d start x.attrs).map abbrevAttrLine) := by
      have hat' := hat.left
      cases he with
      | @mk cb tb ab hc hne ht hch ha =>
        refine ⟨off + (cb ++ tb).length + 1, ?_, ?_⟩
        · unfold attrsStart
          simp only [hat'.left.left.left.uleb hc, hat'.left.left.right.uleb ht, bind, Except.bind, List.length_append, Nat.add_assoc]
        · have h3 := attrs_listed ha hat'.right
          simp only [List.length_append, length_intBytes] at h3 ⊢
          simpa only [Nat.add_assoc] using h3
    obtain ⟨start, h1, h2⟩ := hs
    rw [h1]
    exact .cons he hat.left (abbrevLine_words _ _) h2 (ih hat.right)

/-- **C102** the listing of the abbreviations of a file has for each unit its line, and for each of the declarations encoded for it a
line with its offset, number, tag and whether it has children, followed by a line for each attribute with its offset, name and form. -/
theorem C102_abbrevs (e : ElfFile) (cus : List CU) (s : RawShdr) (d : Bytes) (h1 : e.cus = .ok cus)
    (h2 : e.lookupShdr (str ".debug_abbrev") e.shdrs = .ok (some s)) (h3 : e.data s = .ok d)
    (h : ∀ cu ∈ cus, ∃ l bs, AbbrevsEnc e.order l bs ∧ At d cu.abbrevOff bs) :
    ∃ blocks, e.dumpAbbrevs = (blocks.flatten, none) ∧
      All2 (fun p lines => ∃ l bs head rest, AbbrevsEnc e.order l bs ∧ At d p.1.abbrevOff bs ∧ lines = head :: rest ∧ UnitLine p.1 p.2 head ∧
        AbbrevsListed e.order d p.1.abbrevOff l rest) cus.zipIdx blocks := by
  have hu : ∀ p ∈ cus.zipIdx, (e.cuAbbrevLines p).2 = none ∧ ∃ l bs head rest, AbbrevsEnc e.order l bs ∧ At d p.1.abbrevOff bs ∧
      (e.cuAbbrevLines p).1 = head :: rest ∧ UnitLine p.1 p.2 head ∧ AbbrevsListed e.order d p.1.abbrevOff l rest := by
    intro p hp
    obtain ⟨l, bs, h4, h5⟩ := h p.1 (List.fst_mem_of_mem_zipIdx hp)
    have ha : e.abbrevs p.1 = .ok l := by
      unfold ElfFile.abbrevs
      simp only [h2, h3, bind, Except.bind]
      exact C66_abbrevs h4 h5
    have hd : e.abbrevData = .ok d := by
      unfold ElfFile.abbrevData
      simp only [h2, bind, Except.bind]
      exact h3
    unfold ElfFile.cuAbbrevLines Printout.andThen
    simp only [ha, hd]
    exact ⟨trivial, l, bs, _, _, h4, h5, rfl, cuLine_words _ _, abbrevs_listed h4 h5⟩
  obtain ⟨blocks, h6, h7⟩ := flatMap_blocks (f := fun p => (e.cuAbbrevLines p).1) (P := fun p lines =>
    ∃ l bs head rest, AbbrevsEnc e.order l bs ∧ At d p.1.abbrevOff bs ∧ lines = head :: rest ∧ UnitLine p.1 p.2 head ∧
      AbbrevsListed e.order d p.1.abbrevOff l rest) fun p hp => (hu p hp).2
  refine ⟨blocks, ?_, h7⟩
  unfold ElfFile.dumpAbbrevs
  rw [h1]
  simp only
  rw [printAll_lines fun p hp => (hu p hp).1, ← h6]

/-! ### A file -/

theorem exDies_shown (e : ElfFile) (ho : e.order = .little) (hc : e.cls = .c32) : ValuesShown e exDies ∧ ShortNames exDies ∧ NoneLost exDies := by
  have hloc : exprLoop .little 4 [3, 16, 0, 0, 0] 0 [] = some [16] := by
    unfold exprLoop
    rw [dif_pos (by decide), if_pos (by decide)]
    unfold exprLoop
    rw [dif_neg (by decide)]
    decide
  refine ⟨?_, ?_, ?_⟩
  · intro d hd a ha
    simp only [exDies, List.mem_cons, List.not_mem_nil, or_false] at hd
    rcases hd with rfl | rfl | rfl <;> simp only [List.mem_cons, List.not_mem_nil, or_false] at ha
    · subst ha
      have hd : decodeUtf8 [65] = .ok (str "A") := decodeUtf8_enc (str "A")
      refine ⟨str "A", ?_⟩
      simp only [ElfFile.getAttrStr, ElfFile.getAttrEval, ElfFile.evalAttr, Nat.reduceEqDiff, if_false, if_true, bind, Except.bind, hd, attrText]
    · rcases ha with rfl | rfl
      · refine ⟨hexNum 16, ?_⟩
        have hs : e.addrSize = 4 := by unfold ElfFile.addrSize; rw [hc]
        have he : e.evalAttr 0x18 (.bytes [3, 16, 0, 0, 0]) = .ok (.num 16) := by
          unfold ElfFile.evalAttr
          simp only [Nat.reduceEqDiff, if_false, if_true, ho, hs, hloc]
        simp only [ElfFile.getAttrStr, ElfFile.getAttrEval, he, attrText]
        rfl
      · exact ⟨hexNum 5, rfl⟩
  · intro d hd a ha
    simp only [exDies, List.mem_cons, List.not_mem_nil, or_false] at hd
    rcases hd with rfl | rfl | rfl <;> simp only [List.mem_cons, List.not_mem_nil, or_false] at ha
    · subst ha; decide +kernel
    · rcases ha with rfl | rfl <;> decide +kernel
  · unfold NoneLost; decide +kernel

/-- The hypotheses of `C102_entries_partial` and `C102_abbrevs` are met by a file. -/
theorem exDwarf_listed : ∃ e : ElfFile, openElf 8 exDwarfFile = .ok e ∧
    (∃ blocks, e.dumpDebugInfo = (blocks.flatten, none) ∧ All2 (fun p lines => UnitBlock e p.2 lines) [(exUnit, exDies)] blocks) ∧
    ∃ blocks, e.dumpAbbrevs = (blocks.flatten, none) ∧ blocks ≠ [] := by
  obtain ⟨e, h1, e1, e2, e3, e4, e5, -⟩ := named_elf 8 .little .c32 exDwarfHdr exDwarfSecs exDwarfSyms exDwarfFile exDwarfNamed (.inl rfl)
    (.inr rfl) (by decide +kernel)
  have he : Opened e exDwarfSecs exDwarfFile := ⟨e1, e4, e5⟩
  have hi := he.named (name := str ".debug_info") (d := exUnit.bytes .little)
    ⟨exDwarfSecs.take 3, _, exDwarfSecs.drop 4, rfl, by decide +kernel, sectionBytes_slice (by decide +kernel) (by decide +kernel) (by decide +kernel)⟩
  have ha := he.named (name := str ".debug_abbrev") (d := exAbbrevBytes)
    ⟨exDwarfSecs.take 4, _, [], rfl, by decide +kernel, sectionBytes_slice (by decide +kernel) (by decide +kernel) (by decide +kernel)⟩
  have hinfo : e.infoData = .ok ([(exUnit, exDies)].flatMap fun p => p.1.bytes e.order) := by
    obtain ⟨s, g1, g2⟩ := hi
    unfold ElfFile.infoData
    rw [g1, e2, List.flatMap_cons, List.flatMap_nil, List.append_nil]
    exact g2
  have hus : UnitsDies e.order exAbbrevBytes 0 [(exUnit, exDies)] := by rw [e2]; exact exUnits_dies
  have hcus := units_cus hus hinfo
  refine ⟨e, h1, ?_, ?_⟩
  · refine C102_entries_partial e exAbbrevBytes _ ha hus hinfo fun p hp => ?_
    simp only [List.mem_cons, List.not_mem_nil, or_false] at hp
    subst hp
    exact exDies_shown e e2 e3
  · obtain ⟨s, g1, g2⟩ := ha
    obtain ⟨blocks, h2, h3⟩ := C102_abbrevs e _ s _ hcus g1 g2 (by
      intro cu hcu
      simp only [List.map_cons, List.map_nil, placed, List.mem_cons, List.not_mem_nil, or_false] at hcu
      subst hcu
      refine ⟨exAbbrevs, exAbbrevBytes, by rw [e2]; exact exAbbrevs_enc, [], [], by simp, rfl⟩)
    refine ⟨blocks, h2, fun hb => ?_⟩
    subst hb
    exact h3.elim

/-! ### The program -/

/-- **C102** the program prints one listing: that of `--debug` whatever else is given, else the symbols, else the sections, and the help
without any of the three; nothing is printed for a file that is no ELF file. -/
theorem C102_program (long : Nat) (file : Bytes) (a : ElfArgs) :
    (∀ x, openElf long file = .error x → elfProgram long file a = some ([], some x)) ∧
    ∀ e, openElf long file = .ok e →
      (a.debug = some .info → elfProgram long file a = some e.dumpDebugInfo) ∧
      (a.debug = some .abbrev → elfProgram long file a = some e.dumpAbbrevs) ∧
      (a.debug = some .files → elfProgram long file a = some (e.dumpSymbolCu (some e))) ∧
      (a.debug = none → a.symbols = true → elfProgram long file a = some (e.dumpSymbolTable (some e))) ∧
      (a.debug = none → a.symbols = false → a.sections = true → elfProgram long file a = some e.dumpSections) ∧
      (elfProgram long file a = none ↔ a = {}) := by
  refine ⟨fun x h => by simp only [elfProgram, h], fun e h => ?_⟩
  obtain ⟨se, sy, db⟩ := a
  refine ⟨fun h' => ?_, fun h' => ?_, fun h' => ?_, fun h' h2 => ?_, fun h' h2 h3 => ?_, ?_⟩
  · simp only at h'; simp only [elfProgram, h, h']
  · simp only at h'; simp only [elfProgram, h, h']
  · simp only at h'; simp only [elfProgram, h, h']
  · simp only at h' h2; simp [elfProgram, h, h', h2]
  · simp only at h' h2 h3; simp [elfProgram, h, h', h2, h3]
  · rcases db with _ | (_ | _ | _) <;> cases se <;> cases sy <;> simp [elfProgram, h]

example : elfProgram 8 [1, 2] { symbols := true } = some ([], some .elf) ∧
    (elfProgram 8 (exElfFile.set 5 2) { sections := true }).map (fun o => o.1.length) = some 2 ∧ elfProgram 8 (exElfFile.set 5 2) {} = none := by decide +kernel

example : elfProgram 8 exDwarfFile { symbols := true } = some ([symbolTitles,
    str "0       0x00000010       4 OBJECT     GLOBAL     DEFAULT         1 .symtab              v NOCU"], none) := by decide +kernel

end EspSize
