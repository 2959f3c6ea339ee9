import Verif.Spec.Dump
import Verif.Props.ElfNames
import Verif.Proofs.Split
import Verif.Props.Symbols
import Verif.Props.ElfFile
import Verif.Proofs.Fmt
/-! # C100: listings of sections and symbols -/
namespace EspSize

/-! ### Words of joined texts -/

theorem words_blank {w b : Str} {bs : List Str} (hw : Blank w) (h : Words b bs) : Words (w ++ b) bs := by
  have app : ∀ {x y : Str}, Blank x → Blank y → Blank (x ++ y) := by
    intro x y hx hy c hc
    rcases List.mem_append.mp hc with h | h
    · exact hx c h
    · exact hy c h
  cases h with
  | nil h => exact .nil (app hw h)
  | cons h1 h2 h3 h4 =>
    rw [← List.append_assoc]
    exact .cons (app hw h1) h2 h3 h4

theorem blank_spaces (n : Nat) : Blank (List.replicate n ' ') := by
  intro c hc
  rw [(List.mem_replicate.mp hc).2]
  decide

theorem words_join {a b : Str} {as bs : List Str} (ha : Words a as) (hb : Words b bs) : Words (a ++ ' ' :: b) (as ++ bs) := by
  have hs : Words (' ' :: b) bs := words_blank (w := [' ']) (blank_spaces 1) hb
  induction ha with
  | nil h => exact words_blank h hs
  | cons h1 h2 h3 h4 ih =>
    rw [List.append_assoc, List.append_assoc]
    refine .cons h1 h2 ?_ ih
    rcases h3 with rfl | ⟨c, hc, hsp⟩
    · exact .inr ⟨' ', rfl, by decide⟩
    · refine .inr ⟨c, ?_, hsp⟩
      rw [List.head?_append, hc]
      rfl

theorem words_pad {a w : Str} {as : List Str} (ha : Words a as) (hw : Blank w) : Words (a ++ w) as := by
  cases hw' : w with
  | nil => rw [List.append_nil]; exact ha
  | cons c t =>
    subst hw'
    induction ha with
    | nil h =>
      refine .nil fun x hx => ?_
      rcases List.mem_append.mp hx with h' | h'
      · exact h x h'
      · exact hw x h'
    | cons h1 h2 h3 h4 ih =>
      rw [List.append_assoc, List.append_assoc]
      refine .cons h1 h2 ?_ ih
      rcases h3 with rfl | ⟨d, hd, hsp⟩
      · exact .inr ⟨c, rfl, hw c (by simp)⟩
      · refine .inr ⟨d, ?_, hsp⟩
        rw [List.head?_append, hd]
        rfl

theorem words_padRight (w : Nat) (s : Str) : Words (padRight w s) (split s) := words_pad (words_split s) (blank_spaces _)

theorem words_padLeft (w : Nat) (s : Str) : Words (padLeft w s) (split s) := words_blank (blank_spaces _) (words_split s)

theorem split_word {t : Str} (h : Word t) : split t = [t] := by
  have := split_one (w := []) (w' := []) (fun _ h => by cases h) h (fun _ h => by cases h)
  simpa using this

theorem word_nat (n : Nat) : Word (intStr (n : Int)) := by
  rw [intStr_natCast]
  refine ⟨Nat.toDigits_ne_nil, fun c hc => ?_⟩
  have := Nat.isDigit_of_mem_toDigits (by omega) (by omega) hc
  have := isDigit_toNat this
  unfold isSpace
  simp only [Bool.or_eq_false_iff, Bool.and_eq_false_iff, decide_eq_false_iff_not]
  omega

theorem words_num (w n : Nat) : Words (padRight w (intStr (n : Int))) [intStr (n : Int)] := by
  have := words_padRight w (intStr (n : Int))
  rwa [split_word (word_nat n)] at this

theorem words_numLeft (w n : Nat) : Words (padLeft w (intStr (n : Int))) [intStr (n : Int)] := by
  have := words_padLeft w (intStr (n : Int))
  rwa [split_word (word_nat n)] at this

/-! ### Hexadecimal numbers -/

theorem digitChar_hex : ∀ d, d < 16 → Nat.digitChar d = hexDigit d := by
  have : ∀ d ∈ List.range 16, Nat.digitChar d = hexDigit d := by decide
  exact fun d hd => this d (List.mem_range.mpr hd)

theorem toDigits_hex (n : Nat) : ∃ ds : List Nat, ds ≠ [] ∧ (∀ d ∈ ds, d < 16) ∧ Nat.toDigits 16 n = ds.map hexDigit ∧
    n = ds.foldl (fun a d => a * 16 + d) 0 := by
  induction n using Nat.strongRecOn with
  | _ n ih =>
    by_cases h : n < 16
    · refine ⟨[n], by simp, by simpa using h, ?_, by simp⟩
      rw [Nat.toDigits_of_lt_base h, digitChar_hex n h]
      rfl
    · obtain ⟨ds, h1, h2, h3, h4⟩ := ih (n / 16) (by omega)
      refine ⟨ds ++ [n % 16], by simp, ?_, ?_, ?_⟩
      · intro d hd
        rcases List.mem_append.mp hd with hd | hd
        · exact h2 d hd
        · have : d = n % 16 := by simpa using hd
          omega
      · rw [Nat.toDigits_of_base_le (by omega) (by omega), h3, List.map_append, digitChar_hex _ (by omega)]
        rfl
      · rw [List.foldl_append, ← h4]
        simp
        omega

theorem hexOf_pad (w n : Nat) : HexOf n (hexPad w n) := by
  obtain ⟨ds, h1, h2, h3, h4⟩ := toDigits_hex n
  refine ⟨List.replicate (w - 2 - (Nat.toDigits 16 n).length) 0 ++ ds, by simp [h1], ?_, ?_, ?_⟩
  · intro d hd
    rcases List.mem_append.mp hd with hd | hd
    · rw [(List.mem_replicate.mp hd).2]; omega
    · exact h2 d hd
  · unfold hexPad
    rw [List.map_append, List.map_replicate, ← h3]
    rfl
  · rw [List.foldl_append]
    have : ∀ k, (List.replicate k 0).foldl (fun a d => a * 16 + d) 0 = 0 := by
      intro k
      induction k with
      | zero => rfl
      | succ k ih => rw [List.replicate_succ, List.foldl_cons]; exact ih
    rw [this, ← h4]

theorem words_hex (w n : Nat) : Words (hexPad w n) [hexPad w n] := by
  have := words_split (hexPad w n)
  rwa [split_word (hexOf_pad w n).word] at this

/-! ### Lines -/

theorem listed_each {α : Type} (f : α → Except Err Str) (l : List α) : PrintedEach f l (printEach f l) := by
  induction l with
  | nil => exact ⟨[], [], rfl, trivial, .inl ⟨rfl, rfl⟩⟩
  | cons a t ih =>
    cases h : f a with
    | error x =>
      refine ⟨[], a :: t, rfl, ?_, .inr ⟨a, t, x, rfl, h, ?_⟩⟩
      · simp only [printEach, h]
        trivial
      · simp only [printEach, h]
    | ok s =>
      obtain ⟨d, r, h1, h2, h3⟩ := ih
      refine ⟨a :: d, r, by rw [h1]; rfl, ?_, ?_⟩
      · simp only [printEach, h]
        exact ⟨h, h2⟩
      · simpa only [printEach, h] using h3

theorem All2.of_map_left {α β γ : Type} {f : α → β} {R : β → γ → Prop} {l : List α} {m : List γ} (h : All2 R (l.map f) m) :
    All2 (fun a c => R (f a) c) l m := by
  induction l generalizing m with
  | nil => cases m with
    | nil => trivial
    | cons => exact h.elim
  | cons a t ih => cases m with
    | nil => exact h.elim
    | cons c m => exact ⟨h.1, ih h.2⟩

/-- **C100** the line of a section whose name can be read. -/
theorem C100_section_line (e : ElfFile) (s : RawShdr) (i : Nat) (name : Str) (hn : e.shdrName s = .ok name) :
    ∃ line, e.sectionLine (s, i) = .ok line ∧ SectionLine name (nameOrUnknown shtMap s.type) s i line := by
  unfold ElfFile.sectionLine
  simp only [hn, bind, Except.bind]
  exact ⟨_, rfl, _, _, _, hexOf_pad 10 _, hexOf_pad 8 _, hexOf_pad 8 _,
    words_join (words_num 3 i) (words_join (words_padRight 30 name) (words_join (words_padRight 15 _)
      (words_join (words_hex 10 _) (words_join (words_hex 8 _) (words_hex 8 _)))))⟩

/-- **C100** the listing of the sections: the titles and a line for each section in order, up to the first one whose name cannot be
read. -/
theorem C100_sections (e : ElfFile) : ∃ out, PrintedEach e.sectionLine e.shdrs.zipIdx out ∧ e.dumpSections = (sectionTitles :: out.1, out.2) ∧
    ∀ s i name line, e.shdrName s = .ok name → e.sectionLine (s, i) = .ok line → SectionLine name (nameOrUnknown shtMap s.type) s i line := by
  refine ⟨_, listed_each _ _, rfl, ?_⟩
  intro s i name line hn hl
  obtain ⟨l', h1, h2⟩ := C100_section_line e s i name hn
  rw [hl] at h1
  cases h1
  exact h2

/-- **C100** if all names can be read, there is a line for each section. -/
theorem C100_all_sections (e : ElfFile) (h : ∀ s ∈ e.shdrs, ∃ n, e.shdrName s = .ok n) :
    ∃ lines, e.dumpSections = (sectionTitles :: lines, none) ∧
      All2 (fun p line => ∃ n, e.shdrName p.1 = .ok n ∧ SectionLine n (nameOrUnknown shtMap p.1.type) p.1 p.2 line) e.shdrs.zipIdx lines := by
  obtain ⟨out, ⟨d, r, h1, h2, h3⟩, h4, h5⟩ := C100_sections e
  have hm : ∀ p ∈ e.shdrs.zipIdx, p.1 ∈ e.shdrs := fun p hp => (List.mem_zipIdx' hp).2 ▸ List.getElem_mem _
  rcases h3 with ⟨rfl, hn⟩ | ⟨a, rest, x, rfl, hx, _⟩
  · rw [List.append_nil] at h1
    refine ⟨out.1, by rw [h4, hn], ?_⟩
    rw [h1]
    refine All2.imp h2 ?_
    intro p hp line hl
    obtain ⟨n, hn'⟩ := h p.1 (hm p (by rw [h1]; exact hp))
    exact ⟨n, hn', h5 _ _ _ _ hn' hl⟩
  · obtain ⟨n, hn'⟩ := h a.1 (hm a (by rw [h1]; simp))
    obtain ⟨l, hl, _⟩ := C100_section_line e a.1 a.2 n hn'
    rw [hx] at hl
    cases hl

/-- Run as a program, the column of the section has the name of the section with the number of the symbol, `SPECIAL` for the
numbers that are no section. -/
theorem sectionOf_iff {e : ElfFile} {n : Nat} {sh : Str} : sectionOf (some e) n = .ok sh ↔ SectionColumn e n sh := by
  unfold sectionOf SectionColumn
  cases h : e.shdrs[n]? with
  | none =>
    have := List.getElem?_eq_none_iff.mp h
    simp [this, eq_comm]
  | some s =>
    have := (List.getElem?_eq_some_iff.mp h).1
    have h' : ¬ e.shdrs.length ≤ n := by omega
    simp [h', h]

/-- **C100** the line of a symbol, run as a program: the type and the binding have a name, and the name of the symbol and of its section
can be read. -/
theorem C100_symbol_line_partial (e : ElfFile) (s : RawSym) (cu : Option Str) (i : Nat) (sh name type bind vis : Str)
    (hs : SectionColumn e s.shndx sh) (hn : e.symName s = .ok name) (ht : nameOrError sttMap (s.info % 16) = .ok type)
    (hb : nameOrError stbMap (s.info / 16) = .ok bind) (hv : nameOrError stvMap (s.other % 4) = .ok vis) :
    ∃ line, e.symbolLine (some e) ((s, cu), i) = .ok line ∧ SymbolLine sh type bind vis name cu s i line := by
  rw [show s.info % 16 = s.type from (Nat.and_two_pow_sub_one_eq_mod s.info 4).symm] at ht
  rw [← sym_bind] at hb
  rw [← sym_visibility] at hv
  rw [← sectionOf_iff] at hs
  unfold ElfFile.symbolLine
  simp only [hs, hn, ht, hb, hv, Bind.bind, Except.bind]
  exact ⟨_, rfl, _, hexOf_pad 10 _,
    words_join (words_num 7 i) (words_join (words_hex 10 _) (words_join (words_numLeft 7 _) (words_join (words_padRight 10 _)
      (words_join (words_padRight 10 _) (words_join (words_padRight 10 _) (words_join (words_numLeft 6 _) (words_join (words_padRight 20 _)
        (words_join (words_split name) (words_split _)))))))))⟩

/-- **C100** (all symbols can be shown) the listing of symbols has a line for each of them, in order. -/
theorem C100_symbols_partial (e : ElfFile) (syms : List (RawSym × Option Str))
    (h : ∀ p ∈ syms, ∃ sh name type bind, SectionColumn e p.1.shndx sh ∧ e.symName p.1 = .ok name ∧ nameOrError sttMap (p.1.info % 16) = .ok type ∧
      nameOrError stbMap (p.1.info / 16) = .ok bind) :
    ∃ lines, e.dumpSymbols (some e) syms = (symbolTitles :: lines, none) ∧
      All2 (fun p line => ∃ sh name type bind vis, SectionColumn e p.1.1.shndx sh ∧ e.symName p.1.1 = .ok name ∧
        nameOrError sttMap (p.1.1.info % 16) = .ok type ∧ nameOrError stbMap (p.1.1.info / 16) = .ok bind ∧ nameOrError stvMap (p.1.1.other % 4) = .ok vis ∧
        SymbolLine sh type bind vis name p.1.2 p.1.1 p.2 line) syms.zipIdx lines := by
  have hm : ∀ p ∈ syms.zipIdx, p.1 ∈ syms := fun p hp => (List.mem_zipIdx' hp).2 ▸ List.getElem_mem _
  have hline : ∀ p ∈ syms.zipIdx, ∃ line, e.symbolLine (some e) p = .ok line ∧ ∃ sh name type bind vis, SectionColumn e p.1.1.shndx sh ∧
      e.symName p.1.1 = .ok name ∧ nameOrError sttMap (p.1.1.info % 16) = .ok type ∧ nameOrError stbMap (p.1.1.info / 16) = .ok bind ∧
      nameOrError stvMap (p.1.1.other % 4) = .ok vis ∧ SymbolLine sh type bind vis name p.1.2 p.1.1 p.2 line := by
    intro p hp
    obtain ⟨sh, name, type, bind, h1, h2, h3, h4⟩ := h p.1 (hm p hp)
    obtain ⟨_, vis, h5, _⟩ := C99_visibility p.1.1
    obtain ⟨line, h6, h7⟩ := C100_symbol_line_partial e p.1.1 p.1.2 p.2 sh name type bind vis h1 h2 h3 h4 h5
    exact ⟨line, h6, sh, name, type, bind, vis, h1, h2, h3, h4, h5, h7⟩
  obtain ⟨d, r, h1, h2, h3⟩ := listed_each (e.symbolLine (some e)) syms.zipIdx
  rcases h3 with ⟨rfl, hn⟩ | ⟨a, rest, x, rfl, hx, _⟩
  · rw [List.append_nil] at h1
    refine ⟨(printEach (e.symbolLine (some e)) syms.zipIdx).1, ?_, ?_⟩
    · show (symbolTitles :: _, (printEach (e.symbolLine (some e)) syms.zipIdx).2) = _
      rw [hn]
      rfl
    · have h2' : All2 (fun a line => e.symbolLine (some e) a = .ok line) syms.zipIdx (printEach (e.symbolLine (some e)) syms.zipIdx).1 := by
        conv => arg 2; rw [h1]
        exact h2
      refine All2.imp h2' ?_
      intro p hp line hl
      obtain ⟨l', h6, h7⟩ := hline p hp
      rw [hl] at h6
      cases h6
      exact h7
  · obtain ⟨l', h6, _⟩ := hline a (by rw [h1]; simp)
    rw [hx] at h6
    cases h6

/-- **C100** (all symbols can be shown) the listing of the symbol table has a line for each symbol of the file, in order, without a
compilation unit. -/
theorem C100_symbol_table_partial (e : ElfFile) (l : List RawSym) (hl : e.symbols = .ok l)
    (h : ∀ s ∈ l, ∃ sh name type bind, SectionColumn e s.shndx sh ∧ e.symName s = .ok name ∧ nameOrError sttMap (s.info % 16) = .ok type ∧
      nameOrError stbMap (s.info / 16) = .ok bind) :
    ∃ lines, e.dumpSymbolTable (some e) = (symbolTitles :: lines, none) ∧
      All2 (fun p line => ∃ sh name type bind vis, SectionColumn e p.1.shndx sh ∧ e.symName p.1 = .ok name ∧
        nameOrError sttMap (p.1.info % 16) = .ok type ∧ nameOrError stbMap (p.1.info / 16) = .ok bind ∧ nameOrError stvMap (p.1.other % 4) = .ok vis ∧
        SymbolLine sh type bind vis name none p.1 p.2 line) l.zipIdx lines := by
  have h' : ∀ p ∈ l.map (fun s => (s, (none : Option Str))), ∃ sh name type bind, SectionColumn e p.1.shndx sh ∧ e.symName p.1 = .ok name ∧
      nameOrError sttMap (p.1.info % 16) = .ok type ∧ nameOrError stbMap (p.1.info / 16) = .ok bind := by
    intro p hp
    obtain ⟨s, hs, rfl⟩ := List.mem_map.mp hp
    exact h s hs
  obtain ⟨lines, h1, h2⟩ := C100_symbols_partial e _ h'
  refine ⟨lines, ?_, ?_⟩
  · unfold ElfFile.dumpSymbolTable
    rw [hl]
    exact h1
  · rw [List.zipIdx_map] at h2
    exact All2.of_map_left h2

/-- **C100** (all symbols can be shown) the listing of symbols with compilation units has a line for each symbol that `add_cus_to_symbols`
returns, in this order, with the name of its unit (C67). -/
theorem C100_symbol_cu_partial (e : ElfFile) (d : Dict Nat (RawSym × Option Str)) (hd : e.addCus = .ok d)
    (h : ∀ p ∈ d, ∃ sh name type bind, SectionColumn e p.2.1.shndx sh ∧ e.symName p.2.1 = .ok name ∧ nameOrError sttMap (p.2.1.info % 16) = .ok type ∧
      nameOrError stbMap (p.2.1.info / 16) = .ok bind) :
    ∃ lines, e.dumpSymbolCu (some e) = (symbolTitles :: lines, none) ∧
      All2 (fun p line => ∃ sh name type bind vis, SectionColumn e p.1.2.1.shndx sh ∧ e.symName p.1.2.1 = .ok name ∧
        nameOrError sttMap (p.1.2.1.info % 16) = .ok type ∧ nameOrError stbMap (p.1.2.1.info / 16) = .ok bind ∧
        nameOrError stvMap (p.1.2.1.other % 4) = .ok vis ∧ SymbolLine sh type bind vis name p.1.2.2 p.1.2.1 p.2 line) d.zipIdx lines := by
  have h' : ∀ p ∈ d.map Prod.snd, ∃ sh name type bind, SectionColumn e p.1.shndx sh ∧ e.symName p.1 = .ok name ∧
      nameOrError sttMap (p.1.info % 16) = .ok type ∧ nameOrError stbMap (p.1.info / 16) = .ok bind := by
    intro p hp
    obtain ⟨s, hs, rfl⟩ := List.mem_map.mp hp
    exact h s hs
  obtain ⟨lines, h1, h2⟩ := C100_symbols_partial e _ h'
  refine ⟨lines, ?_, ?_⟩
  · unfold ElfFile.dumpSymbolCu
    rw [hd]
    exact h1
  · rw [List.zipIdx_map] at h2
    exact All2.of_map_left h2

/-- **C100** (violated) called on an object of the imported module, the listing of symbols ends before the first symbol. -/
theorem C100_imported (e : ElfFile) (syms : List (RawSym × Option Str)) (h : syms ≠ []) :
    e.dumpSymbols none syms = ([symbolTitles], some .nameError) := by
  cases syms with
  | nil => exact absurd rfl h
  | cons s t => rfl

/-- **C100** (violated) so does the one of a file with symbols. -/
theorem C100_imported_table (e : ElfFile) (l : List RawSym) (hl : e.symbols = .ok l) (h : l ≠ []) :
    e.dumpSymbolTable none = ([symbolTitles], some .nameError) := by
  unfold ElfFile.dumpSymbolTable
  rw [hl]
  exact C100_imported e _ (by simpa using h)

/-- **C100** (violated) a symbol whose type has no name ends the listing. -/
theorem C100_unnamed_type (e : ElfFile) (s : RawSym) (cu : Option Str) (sh : Str) (t : List (RawSym × Option Str)) (hs : SectionColumn e s.shndx sh)
    (ht : s.type ∈ [8, 9, 11, 14]) : e.dumpSymbols (some e) ((s, cu) :: t) = ([symbolTitles], some .keyError) := by
  have h := C99_symbols_raise s.type ht
  rw [← sectionOf_iff] at hs
  have hl : e.symbolLine (some e) ((s, cu), 0) = .error .keyError := by
    unfold ElfFile.symbolLine
    simp only [hs, h, bind, Except.bind]
  unfold ElfFile.dumpSymbols
  rw [List.zipIdx_cons]
  simp only [printEach, hl]
  rfl

/-- A file with a table of names and one more section. -/
def exDumpElf : ElfFile :=
  { file := [0, 46, 116, 0, 46, 115, 0], order := .little, cls := .c32, ehdr := { exEhdr with shnum := 2, shstrndx := 1 },
    shdrs := [⟨1, 1, 6, 0x40080000, 0x20, 4096, 0, 0, 0, 0⟩, ⟨4, 3, 0, 0, 0, 7, 0, 0, 0, 0⟩] }

example : exDumpElf.dumpSections = ([sectionTitles,
    str "0   .t                             PROGBITS        0x40080000 0x000020 0x001000",
    str "1   .s                             STRTAB          0x00000000 0x000000 0x000007"], none) := by decide +kernel

example : ∀ s ∈ exDumpElf.shdrs, ∃ n, exDumpElf.shdrName s = .ok n := by
  intro s hs
  simp only [exDumpElf, List.mem_cons, List.not_mem_nil, or_false] at hs
  rcases hs with rfl | rfl
  · exact ⟨str ".t", by decide +kernel⟩
  · exact ⟨str ".s", by decide +kernel⟩

example : exDumpElf.dumpSymbols (some exDumpElf) [(⟨1, 1, 0x40080010, 12, 0x12, 0, 0⟩, some (str "a.c")), (⟨1, 4, 3, 0, 0, 2, 0xfff1⟩, none)] =
    ([symbolTitles,
      str "0       0x40080010      12 FUNC       GLOBAL     DEFAULT         0 .t                   .t a.c",
      str "1       0x00000003       0 NOTYPE     LOCAL      HIDDEN      65521 SPECIAL              .s NOCU"], none) := by decide +kernel

/-- The symbols of a file without a symbol table: none of them, as `C100_symbol_table_partial` says. -/
example : exDumpElf.symbols = .ok [] ∧ exDumpElf.dumpSymbolTable (some exDumpElf) = ([symbolTitles], none) := by decide +kernel

/-- A name outside of the table of names. -/
example : ({ exDumpElf with shdrs := exDumpElf.shdrs ++ [⟨9, 1, 0, 0, 0, 0, 0, 0, 0, 0⟩] } : ElfFile).dumpSections.1.length = 3 ∧
    ({ exDumpElf with shdrs := exDumpElf.shdrs ++ [⟨9, 1, 0, 0, 0, 0, 0, 0, 0, 0⟩] } : ElfFile).dumpSections.2 ≠ none := by decide +kernel

/-- **C100** (violated) a symbol of a type that only processors define, 14. -/
example : exDumpElf.dumpSymbols (some exDumpElf) [(⟨1, 1, 0, 0, 0x1e, 0, 0⟩, none)] = ([symbolTitles], some .keyError) :=
  C100_unnamed_type _ _ _ (str ".t") _ (.inl ⟨_, rfl, by decide +kernel⟩) (by decide +kernel)

end EspSize
