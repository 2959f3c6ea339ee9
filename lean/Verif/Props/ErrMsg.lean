import Verif.Spec.ErrMsg
import Verif.Props.MapMsg
import Verif.Props.GetInputs
/-! # C120: errors that are reported without ending the program -/
namespace EspSize

/-! ### The cross reference table -/

theorem crtProblem_iff : ∀ (ls : List Str) (f h : Bool) (s : Option Str) (crt : Crt),
    crtLoop ls f h s crt = .error .indexError ↔ ∃ l, crtProblem ls f h = some l := by
  intro ls
  induction ls with
  | nil => intro f h s crt; exact ⟨fun h => (by cases h), fun ⟨_, h⟩ => (by cases h)⟩
  | cons l ls ih =>
    intro f h s crt
    unfold crtLoop crtProblem
    split
    · exact ih _ _ _ _
    · split
      · exact ih _ _ _ _
      · split
        · exact ⟨fun h => (by cases h), fun ⟨_, h⟩ => (by cases h)⟩
        · split
          · split
            · rename_i e d hd
              rw [hd]
              simpa using ih _ _ _ _
            · rename_i hne
              have : (splitN 1 l).length ≠ 2 := by
                intro h2
                match hs : splitN 1 l, h2 with
                | [a, b], _ => exact hne a b hs
              rw [if_pos this]
              exact ⟨fun _ => ⟨l, rfl⟩, fun _ => rfl⟩
          · cases s with
            | none => exact ih _ _ _ _
            | some s => exact ih _ _ _ _

/-- An entry is reported exactly if reading the map file fails with `IndexError`. -/
theorem C120_entry_iff (lines : List Str) : parseMap lines = .error .indexError ↔ ∃ l, crtErr lines = some l := by
  unfold parseMap crtErr
  cases hr : getMemoryRegions lines with
  | error x =>
    have := C30_regions_partial lines x hr
    refine ⟨fun h => ?_, fun ⟨_, h⟩ => (by cases h)⟩
    cases h
    exact absurd this (by decide)
  | ok v =>
    obtain ⟨r, rest⟩ := v
    simp only [bind, Except.bind]
    cases hs : getSections rest with
    | error x =>
      have := C30_sections_partial rest x hs
      refine ⟨fun h => ?_, fun ⟨_, h⟩ => (by cases h)⟩
      cases h
      exact absurd this (by decide)
    | ok v =>
      obtain ⟨os, rest'⟩ := v
      simp only [getCrt, bind, Except.bind]
      rw [← crtProblem_iff rest' false false none []]
      cases hc : crtLoop rest' false false none [] with
      | ok c => exact ⟨fun h => (by cases h), fun h => (by cases h)⟩
      | error x =>
        constructor <;> (intro h; injection h with h; rw [h])

theorem entryLine_iff {l : Str} : EntryLine l ↔ l ≠ [] ∧ startsWithAny l [str " ", str "\t"] = false := by
  unfold EntryLine
  have : startsWithAny l [str " ", str "\t"] = (startsWith l (str " ") || startsWith l (str "\t")) := by simp [startsWithAny]
  rw [this, Bool.or_eq_false_iff, ← Bool.not_eq_true, ← Bool.not_eq_true, startsWith_iff, startsWith_iff]

theorem crtProblem_first : ∀ (ls : List Str) (f : Bool) (l : Str),
    (crtProblem ls f true = some l → ∃ b c, ls = b ++ l :: c ∧ EntryLine l ∧ (split l).length < 2 ∧
      ∀ x ∈ b, crossRef <+: x ∨ x ≠ [] ∧ (EntryLine x → 2 ≤ (split x).length)) ∧
    (crtProblem ls f false = some l → FirstWithout ls l) := by
  intro ls
  induction ls with
  | nil => intro f l; exact ⟨fun h => (by cases h), fun h => (by cases h)⟩
  | cons x ls ih =>
    intro f l
    have cons_first : FirstWithout ls l → FirstWithout (x :: ls) l := by
      rintro ⟨a, h, b, c, e, r⟩
      exact ⟨x :: a, h, b, c, by rw [e]; rfl, r⟩
    constructor
    · intro h
      unfold crtProblem at h
      have step : ∀ {f'}, crtProblem ls f' true = some l → (crossRef <+: x ∨ x ≠ [] ∧ (EntryLine x → 2 ≤ (split x).length)) →
          ∃ b c, x :: ls = b ++ l :: c ∧ EntryLine l ∧ (split l).length < 2 ∧ ∀ y ∈ b, crossRef <+: y ∨ y ≠ [] ∧ (EntryLine y → 2 ≤ (split y).length) := by
        intro f' h' hx
        obtain ⟨b, c, e, h1, h2, h3⟩ := (ih f' l).1 h'
        exact ⟨x :: b, c, by rw [e]; rfl, h1, h2, List.forall_mem_cons.mpr ⟨hx, h3⟩⟩
      split at h
      · rename_i hc
        rw [Bool.and_eq_true] at hc
        exact step h (.inl (startsWith_iff.mp hc.2))
      · rw [if_neg (by decide)] at h
        split at h
        · cases h
        · rename_i hne
          have hlen := splitN_length 1 x
          split at h
          · rename_i hsym
            have hs : EntryLine x := entryLine_iff.mpr ⟨hne, by simpa using hsym⟩
            split at h
            · rename_i h2
              cases h
              exact ⟨[], ls, rfl, hs, by omega, fun y hy => (by cases hy)⟩
            · rename_i h2
              exact step h (.inr ⟨hne, fun _ => by omega⟩)
          · rename_i hsym
            refine step h (.inr ⟨hne, fun hs => ?_⟩)
            rw [(entryLine_iff.mp hs).2] at hsym
            exact absurd rfl hsym
    · intro h
      unfold crtProblem at h
      split at h
      · exact cons_first ((ih _ _).2 h)
      · rw [if_pos (by decide)] at h
        cases hh : startsWith x (str "Symbol") with
        | false => rw [hh] at h; exact cons_first ((ih _ _).2 h)
        | true =>
          rw [hh] at h
          obtain ⟨b, c, e, h1, h2, h3⟩ := (ih _ _).1 h
          exact ⟨[], x, b, c, by rw [e]; rfl, startsWith_iff.mp hh, h1, h2, h3⟩

theorem restFrom_suffix (p : Str) : ∀ ls : List Str, restFrom p ls <:+ ls := by
  intro ls
  induction ls with
  | nil => exact List.suffix_refl _
  | cons l ls ih =>
    unfold restFrom
    split
    · exact List.suffix_refl _
    · split
      · rename_i h
        rw [List.isEmpty_iff.mp h]
        exact List.suffix_refl _
      · exact ih.trans (List.suffix_cons _ _)

/-- The entry that is reported is a line of the file, the first of its table that has a symbol without a definition. -/
theorem C120_entry_true (lines : List Str) (l : Str) (h : crtErr lines = some l) : ∃ pre table, lines = pre ++ table ∧ FirstWithout table l := by
  unfold crtErr at h
  cases hr : getMemoryRegions lines with
  | error x => rw [hr] at h; cases h
  | ok v =>
    obtain ⟨r, rest⟩ := v
    rw [hr] at h
    simp only at h
    cases hs : getSections rest with
    | error x => rw [hs] at h; cases h
    | ok v =>
      obtain ⟨os, rest'⟩ := v
      rw [hs] at h
      simp only at h
      have h1 : rest <:+ lines := by
        unfold getMemoryRegions at hr
        obtain ⟨⟨a, b⟩, _, hr⟩ := bind_ok hr
        simp only at hr
        split at hr
        · cases hr; exact restFrom_suffix _ _
        · cases hr
      have h2 : rest' <:+ rest := by
        unfold getSections at hs
        obtain ⟨a, _, hs⟩ := bind_ok hs
        split at hs
        · cases hs; exact restFrom_suffix _ _
        · cases hs
      obtain ⟨pre, e⟩ := h2.trans h1
      exact ⟨pre, rest', e.symm, (crtProblem_first rest' false l).2 h⟩

/-! ### The whole call -/

theorem getMap_of_load {n : Nat} {w : World} {fn : Str} {ls : Bool} {ud : Option Bool} {mf : Option MapFile} {e : Option ElfData} {x : Err}
    (h : load w fn ud mf = .error x) : getMap n w fn ls ud mf e = some (.error x) := by
  unfold getMap
  rw [h]

/-- (Violated) after the message about an entry the call does not go on, but ends with `IndexError`. -/
theorem C120_entry_crash (n : Nat) (w : World) (fn : Str) (ls : Bool) (ud : Option Bool) (mf : Option MapFile) (e : Option ElfData) (l : Str)
    (h : getErr w fn mf = some (.entry l)) :
    getMap n w fn ls ud mf e = some (.error .indexError) ∧ mf = none ∧ ∃ lines, w.lines fn = .ok lines ∧ crtErr lines = some l := by
  have elf_not : ∀ d, elfErr w fn d ≠ some (.entry l) := by
    intro d h
    unfold elfErr at h
    simp only [] at h
    split at h
    · cases h
    · split at h
      · cases h
      · split at h
        · cases h
        · unfold loadErr at h
          split at h <;> cases h
  unfold getErr at h
  cases hd : descTarget (getProjDesc w fn) with
  | error x => rw [hd] at h; cases h
  | ok t =>
    rw [hd] at h
    simp only at h
    cases hm : mapErr w fn mf with
    | none =>
      rw [hm] at h
      simp only at h
      split at h
      · cases h
      · split at h
        · cases h
        · exact absurd h (elf_not _)
    | some l' =>
      rw [hm] at h
      cases h
      cases mf with
      | some f => cases hm
      | none =>
        unfold mapErr at hm
        cases hl : w.lines fn with
        | error x => rw [hl] at hm; cases hm
        | ok lines =>
          rw [hl] at hm
          refine ⟨getMap_of_load ?_, rfl, lines, rfl, hm⟩
          have hp := (C120_entry_iff lines).mpr ⟨l, hm⟩
          unfold load useMap loadMap
          simp only [hd, hl, hp, bind, Except.bind, wrapMap]

theorem nonempty_of_app {d : ProjDesc} {app : Str} (h : d.appElf = some app) : d.nonempty = true := by
  unfold ProjDesc.nonempty; rw [h]; rfl

theorem elfErr_names {w : World} {fn : Str} {p : ErrProblem} (h : elfErr w fn (getProjDesc w fn) = some p) :
    ∃ path r, DescElf w fn path ∧ w.elf path = some r ∧ loadErr path r = some p := by
  unfold elfErr at h
  cases hg : getProjDesc w fn with
  | none => simp only [hg] at h; cases h
  | some d =>
    simp only [hg] at h
    rw [show (if d.nonempty = true then some d else some d) = some d by split <;> rfl] at h
    simp only at h
    cases ha : d.appElf with
    | none => rw [ha] at h; cases h
    | some app =>
      rw [ha] at h
      simp only at h
      cases he : w.elf (pathJoin (dirname fn) app) with
      | none => rw [he] at h; cases h
      | some r => rw [he] at h; exact ⟨_, r, ⟨d, app, hg, ha, rfl⟩, he, h⟩

/-- The message about an ELF file has the path that the project description names, and tells whether the file cannot be read or has no right format. -/
theorem C120_elf_true (w : World) (fn : Str) (mf : Option MapFile) (path : Str) :
    (getErr w fn mf = some (.elfRead path) → DescElf w fn path ∧ (w.elf path = some (.error .osError) ∨ w.elf path = some (.error .valueError))) ∧
    (getErr w fn mf = some (.elfParse path) → DescElf w fn path ∧ w.elf path = some (.error .elf)) := by
  have of_get : ∀ p, (∀ l, p ≠ .entry l) → getErr w fn mf = some p → elfErr w fn (getProjDesc w fn) = some p := by
    intro p hp h
    unfold getErr at h
    split at h
    · cases h
    · split at h
      · rename_i l _
        injection h with h
        exact absurd h.symm (hp l)
      · split at h
        · cases h
        · split at h
          · cases h
          · exact h
  constructor
  · intro h
    obtain ⟨q, r, h1, h2, h3⟩ := elfErr_names (of_get _ (fun l h => (by cases h)) h)
    unfold loadErr at h3
    split at h3 <;> cases h3
    · exact ⟨h1, .inl h2⟩
    · exact ⟨h1, .inr h2⟩
  · intro h
    obtain ⟨q, r, h1, h2, h3⟩ := elfErr_names (of_get _ (fun l h => (by cases h)) h)
    unfold loadErr at h3
    split at h3 <;> cases h3
    exact ⟨h1, h2⟩

theorem getElf_without {w : World} {fn path : Str} {x : Err} (hx : x ∈ [Err.osError, .valueError, .elf]) (h : w.elf path = some (.error x))
    (d : Option ProjDesc) : getElf (w.without path) fn d = getElf w fn d := by
  have hp : getProjDesc (w.without path) fn = getProjDesc w fn := rfl
  have rest : ∀ d' : Option ProjDesc, (match d' with
      | none => .ok none
      | some d => do
        let app ← getKey d.appElf
        match (w.without path).elf (pathJoin (dirname fn) app) with
        | none => .ok none
        | some r => loadElf r : Except Err (Option ElfData)) = (match d' with
      | none => .ok none
      | some d => do
        let app ← getKey d.appElf
        match w.elf (pathJoin (dirname fn) app) with
        | none => .ok none
        | some r => loadElf r : Except Err (Option ElfData)) := by
    intro d'
    cases d' with
    | none => rfl
    | some d' =>
      cases ha : d'.appElf with
      | none => simp only [ha]; rfl
      | some app =>
        simp only [ha, getKey, bind, Except.bind]
        by_cases hq : pathJoin (dirname fn) app = path
        · have : (w.without path).elf (pathJoin (dirname fn) app) = none := by unfold World.without; simp only [if_pos hq]
          rw [this, hq, h]
          simp only [List.mem_cons, List.not_mem_nil, or_false] at hx
          rcases hx with rfl | rfl | rfl <;> rfl
        · have : (w.without path).elf (pathJoin (dirname fn) app) = w.elf (pathJoin (dirname fn) app) := by unfold World.without; simp only [if_neg hq]
          rw [this]
  unfold getElf
  simp only [hp]
  cases d with
  | none => exact rest (getProjDesc w fn)
  | some d => exact rest (if d.nonempty then some d else getProjDesc w fn)

/-- After a message about an ELF file the call goes on as if there was no such file. -/
theorem C120_elf_goes_on (n : Nat) (w : World) (fn : Str) (ls : Bool) (ud : Option Bool) (mf : Option MapFile) (e : Option ElfData) (path : Str)
    (h : getErr w fn mf = some (.elfRead path) ∨ getErr w fn mf = some (.elfParse path)) :
    getMap n w fn ls ud mf e = getMap n (w.without path) fn ls ud mf e ∧ getErr (w.without path) fn mf = none := by
  have hx : ∃ x, x ∈ [Err.osError, .valueError, .elf] ∧ w.elf path = some (.error x) := by
    rcases h with h | h
    · rcases ((C120_elf_true w fn mf path).1 h).2 with h | h
      · exact ⟨_, by decide, h⟩
      · exact ⟨_, by decide, h⟩
    · exact ⟨_, by decide, ((C120_elf_true w fn mf path).2 h).2⟩
  obtain ⟨x, hx, hp⟩ := hx
  have hload : load w fn ud mf = load (w.without path) fn ud mf := by
    have h1 : getProjDesc (w.without path) fn = getProjDesc w fn := rfl
    have h2 : useMap (w.without path) fn mf = useMap w fn mf := by cases mf <;> rfl
    have h3 : wantDwarf (w.without path) fn ud = wantDwarf w fn ud := by cases ud <;> rfl
    unfold load
    simp only [h1, h2, h3, getElf_without hx hp]
    rfl
  have hnames : DescElf w fn path := by
    rcases h with h | h
    · exact ((C120_elf_true w fn mf path).1 h).1
    · exact ((C120_elf_true w fn mf path).2 h).1
  refine ⟨?_, ?_⟩
  · unfold getMap
    rw [hload]
  · have hmap : mapErr (w.without path) fn mf = mapErr w fn mf := by cases mf <;> rfl
    have h1 : getProjDesc (w.without path) fn = getProjDesc w fn := rfl
    have h2 : useMap (w.without path) fn mf = useMap w fn mf := by cases mf <;> rfl
    cases hg : getErr (w.without path) fn mf with
    | none => rfl
    | some q =>
      exfalso
      have hno : ∀ r, DescElf (w.without path) fn r → (w.without path).elf r = none := by
        rintro r ⟨d, app, h3, h4, rfl⟩
        obtain ⟨d', app', h5, h6, h7⟩ := hnames
        rw [h1, h5] at h3
        cases h3
        rw [h6] at h4
        cases h4
        unfold World.without
        simp only [if_pos h7.symm]
      cases q with
      | entry l =>
        have h0 : getErr w fn mf = some (.entry l) := by
          unfold getErr at hg ⊢
          rw [h1, hmap] at hg
          revert hg
          cases descTarget (getProjDesc w fn) with
          | error x => exact fun hg => (by cases hg)
          | ok t =>
            cases mapErr w fn mf with
            | some l' => exact fun hg => hg
            | none =>
              simp only [h2]
              cases useMap w fn mf with
              | error x => exact fun hg => (by cases hg)
              | ok f =>
                simp only
                cases warnInvalid f with
                | error x => exact fun hg => (by cases hg)
                | ok _ =>
                  intro hg
                  obtain ⟨r, v, h3, h4, _⟩ := elfErr_names (w := w.without path) hg
                  rw [hno r h3] at h4
                  cases h4
        rw [h0] at h
        rcases h with h | h <;> cases h
      | elfRead r =>
        obtain ⟨h3, h4⟩ := (C120_elf_true _ fn mf r).1 hg
        rw [hno r h3] at h4
        rcases h4 with h4 | h4 <;> cases h4
      | elfParse r =>
        obtain ⟨h3, h4⟩ := (C120_elf_true _ fn mf r).2 hg
        rw [hno r h3] at h4
        cases h4

/-- An ELF file that exists and is not used is reported: a project is read without an ELF file in silence only if there is none. -/
theorem C120_elf_told (w : World) (fn : Str) (ud : Option Bool) (mf : Option MapFile) (l : GetIn) (h : load w fn ud mf = .ok l) (hl : l.elf = none)
    (hs : getErr w fn mf = none) (path : Str) (hp : DescElf w fn path) : w.elf path = none := by
  obtain ⟨d, app, hd, ha, rfl⟩ := hp
  obtain ⟨t, m, elf, ss, h1, h2, h3, h4, _, _, _, h8⟩ := load_ok h
  have helf : elf = none := by rw [h8] at hl; exact hl
  cases he : w.elf (pathJoin (dirname fn) app) with
  | none => rfl
  | some r =>
    exfalso
    have hne := nonempty_of_app ha
    have h4' : loadElf r = .ok none := by
      rw [helf, hd] at h4
      unfold getElf at h4
      simp only [hne, if_true, ha, getKey, bind, Except.bind, he] at h4
      exact h4
    have huse : useMap w fn mf = .ok m := by
      rcases h2 with h2 | ⟨h2, lines, hl', hp⟩
      · rw [h2]; rfl
      · rw [h2]; unfold useMap loadMap; rw [hl']; simp only [hp]; rfl
    have hmap : mapErr w fn mf = none := by
      cases hm : mapErr w fn mf with
      | none => rfl
      | some l' =>
        exfalso
        have : getErr w fn mf = some (.entry l') := by unfold getErr; rw [h1]; simp only [hm]
        rw [this] at hs
        cases hs
    unfold getErr at hs
    rw [h1] at hs
    simp only [hmap, huse, h3, elfErr, hd, hne, if_true, ha, he] at hs
    cases r with
    | ok y => cases h4'
    | error x => cases x <;> first | (cases h4'; done) | (cases hs; done)

/-- A message is shown as it is if nothing in it looks like markup. -/
theorem C120_shown_partial (r : Str) (p : ErrProblem) (h : p.plain r) : render (p.text r) = p.text r := by
  have lit : ∀ {s : Str}, s.all (fun c => c != '[' && c != '\\') = true → ∀ t, render (s ++ t) = s ++ render t := fun h t => render_neutral (neutral_lit h) t
  cases p with
  | entry l =>
    have e : (ErrProblem.entry l).text r = str "unexpected format of cross reference table entry \"" ++ (l ++ '"' :: []) := by simp [ErrProblem.text, str]
    rw [e, lit (by decide), render_noMarkup h (by decide) (by decide) (by decide), render_nil]
  | elfRead fn =>
    have e : (ErrProblem.elfRead fn).text r = str "cannot read project ELF file " ++ (fn ++ ':' :: (str " " ++ r)) := by simp [ErrProblem.text, str]
    rw [e, lit (by decide), render_noMarkup h.1 (by decide) (by decide) (by decide), lit (by decide), NoMarkup.shown h.2]
  | elfParse fn =>
    have e : (ErrProblem.elfParse fn).text r = str "cannot parse ELF file " ++ (fn ++ ':' :: (str " " ++ r)) := by simp [ErrProblem.text, str]
    rw [e, lit (by decide), render_noMarkup h.1 (by decide) (by decide) (by decide), lit (by decide), NoMarkup.shown h.2]

/-- A part of an entry in brackets is not shown. -/
theorem C120_hidden : render (ErrProblem.text [] (.entry (str "f[abi:cxx11]"))) = ErrProblem.text [] (.entry (str "f")) := by decide +kernel

/-! ### Each message occurs -/

example : crtErr (okConfig ++ [str "Linker script and memory map", str "Cross Reference Table", str "Symbol File", str "main"]) = some (str "main") := by decide
example : getErr { exWorld with
    json := fun p => if p = str "/b/project_description.json" then some ⟨some (str "x.elf"), some (str "espx"), none, none, true⟩ else none
    elf := fun p => if p = str "/b/x.elf" then some (.error .elf) else none } (str "/b/x.map") none = some (.elfParse (str "/b/x.elf")) := by decide +kernel

end EspSize
