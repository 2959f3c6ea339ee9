import Verif.Model.Sections
import Verif.Proofs.Dict
import Verif.Proofs.List
/-! # C20, C21: section filter and image size -/
namespace EspSize

/-- A section that occupies memory during execution: not empty, `SHF_ALLOC` (bit 1) set. -/
def Loaded (h : Shdr) : Prop := h.size ≠ 0 ∧ h.flags.testBit 1 = true

instance (h : Shdr) : Decidable (Loaded h) := inferInstanceAs (Decidable (_ ∧ _))

/-- Without ELF information, sections are recognised by name. -/
def NamedLoaded (name : Str) : Prop :=
  (∃ e ∈ [str ".text", str ".data", str ".bss", str ".rodata", str "noinit", str ".vectors"], e <:+ name) ∨
  str ".flash" <:+: name ∨ str ".eh_frame" <:+: name

/-- The sections that count. -/
def Kept (elf : Option (List Shdr)) (s : OSec) : Prop :=
  s.size ≠ 0 ∧ (¬ ∃ e ∈ [str "dummy", str "reserved_for_iram", str "noload"], e <:+ s.name) ∧
  match elf with
  | some shdrs => if ∃ h ∈ shdrs, Loaded h then ∃ h ∈ shdrs, Loaded h ∧ h.name = s.name else NamedLoaded s.name
  | none => NamedLoaded s.name

theorem and_two_eq_zero (n : Nat) : n &&& 2 = 0 ↔ n.testBit 1 = false := by
  constructor
  · intro h
    have := congrArg (fun m => Nat.testBit m 1) h
    simp only [Nat.testBit_and, Nat.zero_testBit, Bool.and_eq_false_iff] at this
    rcases this with h | h
    · exact h
    · exact absurd h (by decide)
  · intro h
    apply Nat.eq_of_testBit_eq
    intro i
    rw [Nat.testBit_and, show (2 : Nat) = 2 ^ 1 from rfl, Nat.testBit_two_pow]
    by_cases e : 1 = i
    · subst e; simp [h]
    · simp [e]

/-- The dictionary built by `_get_elf_sections_headers`. -/
theorem elfHeaders_eq (shdrs : List Shdr) :
    elfHeaders (some shdrs) =
      some ((shdrs.filter (fun h => decide (Loaded h))).foldl (fun d h => dset d h.name h) []) := by
  unfold elfHeaders
  simp only [Option.map_some, Option.some.injEq]
  generalize ([] : Dict Str Shdr) = d0
  induction shdrs generalizing d0 with
  | nil => rfl
  | cons h t ih =>
    rw [List.foldl_cons, ih]
    by_cases hl : Loaded h
    · rw [List.filter_cons_of_pos (by simpa using hl), List.foldl_cons, if_neg hl.1, if_neg]
      rw [and_two_eq_zero]; simp [hl.2]
    · rw [List.filter_cons_of_neg (by simpa using hl)]
      by_cases h1 : h.size = 0
      · rw [if_pos h1]
      · rw [if_neg h1, if_pos]
        rw [and_two_eq_zero]
        simpa [Loaded, h1] using hl

theorem mem_dkeys_foldl {l : List Shdr} {d : Dict Str Shdr} {k : Str} :
    k ∈ dkeys (l.foldl (fun d h => dset d h.name h) d) ↔ k ∈ dkeys d ∨ ∃ h ∈ l, h.name = k := by
  induction l generalizing d with
  | nil => simp
  | cons h t ih =>
    rw [List.foldl_cons, ih, mem_dkeys_dset]
    simp only [List.mem_cons, exists_eq_or_imp]
    constructor
    · rintro ((h1 | h1) | h1)
      · first | exact .inl h1 | exact .inr (.inl h1.symm)
      · first | exact .inr (.inl h1.symm) | exact .inl h1
      · exact .inr (.inr h1)
    · rintro (h1 | h1 | h1)
      · first | exact .inl (.inr h1) | exact .inl (.inl h1)
      · first | exact .inl (.inl h1.symm) | exact .inl (.inr h1.symm)
      · exact .inr h1

theorem dict_isEmpty {d : Dict Str Shdr} : d.isEmpty = false ↔ ∃ k, k ∈ dkeys d := by
  cases d with
  | nil => simp
  | cons p t => simp only [List.isEmpty_cons, true_iff]; exact ⟨p.1, by simp⟩

theorem hdrsTruthy_iff (shdrs : List Shdr) :
    hdrsTruthy (elfHeaders (some shdrs)) = true ↔ ∃ h ∈ shdrs, Loaded h := by
  rw [elfHeaders_eq]
  simp only [hdrsTruthy, Bool.not_eq_true', dict_isEmpty, mem_dkeys_foldl]
  simp only [dkeys_nil, List.not_mem_nil, false_or, List.mem_filter, decide_eq_true_eq]
  exact ⟨fun ⟨_, h, h1, _⟩ => ⟨h, h1⟩, fun ⟨h, h1⟩ => ⟨_, h, h1, rfl⟩⟩

theorem namedLoaded_iff (name : Str) :
    (!endsWithAny name [str ".text", str ".data", str ".bss", str ".rodata", str "noinit", str ".vectors"]
        && !contains (str ".flash") name && !contains (str ".eh_frame") name) = false ↔ NamedLoaded name := by
  unfold NamedLoaded endsWithAny
  rw [← contains_iff, ← contains_iff]
  have : (∃ e ∈ [str ".text", str ".data", str ".bss", str ".rodata", str "noinit", str ".vectors"], e <:+ name) ↔
      [str ".text", str ".data", str ".bss", str ".rodata", str "noinit", str ".vectors"].any (endsWith name) = true := by
    rw [List.any_eq_true]
    constructor <;> rintro ⟨e, h1, h2⟩ <;> exact ⟨e, h1, by first | exact endsWith_iff.mpr h2 | exact endsWith_iff.mp h2⟩
  rw [this]
  generalize List.any _ _ = a
  generalize contains (str ".flash") name = b
  generalize contains (str ".eh_frame") name = c
  revert a b c; decide

theorem keepSection_iff (elf : Option (List Shdr)) (s : OSec) :
    keepSection (elfHeaders elf) s = true ↔ Kept elf s := by
  have hn : endsWithAny s.name [str "dummy", str "reserved_for_iram"] = false ∧ endsWith s.name (str "noload") = false ↔
      ¬ ∃ e ∈ [str "dummy", str "reserved_for_iram", str "noload"], e <:+ s.name := by
    simp only [endsWithAny, List.any_cons, List.any_nil, Bool.or_false, Bool.or_eq_false_iff, List.mem_cons,
      List.not_mem_nil, or_false, exists_eq_or_imp, exists_eq_left, ← endsWith_iff]
    cases endsWith s.name (str "dummy") <;> cases endsWith s.name (str "reserved_for_iram") <;>
      cases endsWith s.name (str "noload") <;> simp
  unfold Kept
  rw [← hn]
  unfold keepSection
  by_cases h0 : s.size = 0
  · simp [h0]
  · rw [if_neg h0]
    cases h1 : endsWithAny s.name [str "dummy", str "reserved_for_iram"] with
    | true => simp
    | false =>
      cases h2 : endsWith s.name (str "noload") with
      | true => simp
      | false =>
        simp only [Bool.false_eq_true, if_false, ne_eq, h0, not_false_eq_true, true_and, and_self]
        have key : (if (!endsWithAny s.name [str ".text", str ".data", str ".bss", str ".rodata", str "noinit", str ".vectors"]
            && !contains (str ".flash") s.name && !contains (str ".eh_frame") s.name) = true then false else true) = true ↔
            NamedLoaded s.name := by
          rw [← namedLoaded_iff]
          split <;> simp_all
        cases elf with
        | none => exact key
        | some shdrs =>
          simp only []
          by_cases ht : ∃ h ∈ shdrs, Loaded h
          · rw [if_pos ((hdrsTruthy_iff shdrs).mpr ht), if_pos ht]
            rw [elfHeaders_eq]
            simp only [Option.getD_some]
            have hk := @mem_dkeys_foldl (shdrs.filter (fun h => decide (Loaded h))) [] s.name
            simp only [dkeys_nil, List.not_mem_nil, false_or, List.mem_filter, decide_eq_true_eq] at hk
            rw [show (∃ h ∈ shdrs, Loaded h ∧ h.name = s.name) ↔ (∃ h, (h ∈ shdrs ∧ Loaded h) ∧ h.name = s.name) from
              ⟨fun ⟨h, a, b, c⟩ => ⟨h, ⟨a, b⟩, c⟩, fun ⟨h, ⟨a, b⟩, c⟩ => ⟨h, a, b, c⟩⟩, ← hk, ← dhas_iff]
            split <;> simp_all
          · rw [if_neg (fun h => ht ((hdrsTruthy_iff shdrs).mp h)), if_neg ht]
            exact key

open Classical in
/-- **C20** exactly the loaded sections are kept, in order, unchanged but for empty input sections. -/
theorem C20_filter (sections : List OSec) (elf : Option (List Shdr)) :
    filterMapSections sections (elfHeaders elf) =
      (sections.filter fun s => decide (Kept elf s)).map fun s => { s with inputs := s.inputs.filter (·.size ≠ 0) } := by
  unfold filterMapSections
  congr 1
  apply List.filter_congr
  intro s _
  have := keepSection_iff elf s
  cases h : keepSection (elfHeaders elf) s <;> simp_all

theorem foldl_cond {α : Type} (p : α → Bool) (f : α → Int) (l : List α) (z : Int) :
    l.foldl (fun a x => if p x then a else a + f x) z = z + sumBy f (l.filter fun x => !p x) := by
  induction l generalizing z with
  | nil => simp
  | cons x t ih =>
    rw [List.foldl_cons, ih]
    cases h : p x
    · rw [List.filter_cons_of_pos (by simp [h])]
      simp; omega
    · rw [List.filter_cons_of_neg (by simp [h])]
      simp

theorem foldl_dset_nodup (l : List Shdr) (d : Dict Str Shdr) (h : (dkeys d ++ l.map Shdr.name).Nodup) :
    l.foldl (fun d h => dset d h.name h) d = d ++ l.map fun h => (h.name, h) := by
  induction l generalizing d with
  | nil => simp
  | cons x t ih =>
    rw [List.foldl_cons]
    have hx : x.name ∉ dkeys d := by
      intro hm
      rw [List.map_cons, List.nodup_append] at h
      exact h.2.2 _ hm _ (by simp) rfl
    rw [dset_of_not_mem hx, ih]
    · simp
    · simpa using h

/-- **C21** (ELF available) if the loaded sections have distinct names, the image size is the sum of the
sizes of the allocated `PROGBITS` (type 1) sections. -/
theorem C21_image_size_elf_partial (shdrs : List Shdr) (sections : List OSec)
    (hne : ∃ h ∈ shdrs, Loaded h)
    (hd : ((shdrs.filter fun h => decide (Loaded h)).map Shdr.name).Nodup) :
    getImageSize (elfHeaders (some shdrs)) sections =
      sumBy (fun h => (h.size : Int)) (shdrs.filter fun h => h.flags.testBit 1 && h.type == 1) := by
  unfold getImageSize
  rw [if_pos ((hdrsTruthy_iff shdrs).mpr hne), elfHeaders_eq, foldl_dset_nodup _ _ (by simpa using hd)]
  simp only [List.nil_append, Option.getD_some]
  have := foldl_cond (fun p : Str × Shdr => decide (p.2.type ≠ 1)) (fun p => (p.2.size : Int))
    ((shdrs.filter fun h => decide (Loaded h)).map fun h => (h.name, h)) 0
  simp only [decide_eq_true_eq] at this
  rw [this]
  clear this hd hne
  induction shdrs with
  | nil => rfl
  | cons h t ih =>
    simp only [List.filter_cons, Loaded] at ih ⊢
    rw [Int.zero_add] at ih ⊢
    by_cases h0 : h.size = 0
    · rw [if_neg (by simp [h0]), ih]
      split
      · simp [h0]
      · rfl
    · by_cases hb : h.flags.testBit 1 = true
      · rw [if_pos (by simp [h0, hb])]
        simp only [List.map_cons, List.filter_cons]
        by_cases ht : h.type = 1
        · rw [if_pos (by simp [ht]), if_pos (by simp [hb, ht]), sumBy_cons, sumBy_cons, ih]
        · rw [if_neg (by simp [ht]), if_neg (by simp [ht]), ih]
      · rw [if_neg (by simp [hb]), if_neg (by simp [hb]), ih]

/-- **C21** (no ELF file) the sum of the sizes of the given sections whose name ends neither in `.bss` nor
in `noinit`. -/
theorem C21_image_size_no_elf (sections : List OSec) :
    getImageSize (elfHeaders none) sections = sumBy (fun s => s.size)
      (sections.filter fun s => !endsWithAny s.name [str ".bss", str "noinit"]) := by
  unfold getImageSize
  rw [if_neg (by simp [elfHeaders, hdrsTruthy]), foldl_cond]
  simp

/-- **C21** (violated) of two loaded sections of the same name only the last one counts: 8, not 12. -/
theorem C21_duplicate_names :
    getImageSize (elfHeaders (some [⟨str ".text", 1, 2, 4⟩, ⟨str ".text", 1, 2, 8⟩])) [] = 8 := by decide

example : (∃ h ∈ [Shdr.mk (str ".text") 1 6 4, ⟨str ".bss", 8, 3, 16⟩, ⟨str ".debug", 1, 0, 99⟩], Loaded h) ∧
    (([Shdr.mk (str ".text") 1 6 4, ⟨str ".bss", 8, 3, 16⟩, ⟨str ".debug", 1, 0, 99⟩].filter
      fun h => decide (Loaded h)).map Shdr.name).Nodup ∧
    getImageSize (elfHeaders (some [⟨str ".text", 1, 6, 4⟩, ⟨str ".bss", 8, 3, 16⟩, ⟨str ".debug", 1, 0, 99⟩])) [] = 4 := by
  decide
example : (filterMapSections [⟨str ".iram0.text", 0, 4, []⟩, ⟨str ".dram0.dummy", 0, 9, []⟩, ⟨str ".debug_info", 0, 9, []⟩]
    (elfHeaders none)).map OSec.name = [str ".iram0.text"] := by decide

end EspSize
