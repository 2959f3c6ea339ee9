import Verif.Spec.GetMsg
import Verif.Props.GetInputs
import Verif.Props.DescJson
import Verif.Props.MapMsg
import Verif.Props.SymMsg
/-! # C119: the message with which a project is refused -/
namespace EspSize

/-! ### Steps that do not raise `MemMapException` -/

theorem getKey_not {α : Type} (x : Option α) : getKey x ≠ .error .memMap := by cases x <;> (intro h; cases h)

theorem descTarget_not (d : Option ProjDesc) : descTarget d ≠ .error .memMap := by
  unfold descTarget
  split
  · intro h; cases h
  · split
    · exact getKey_not _
    · intro h; cases h

theorem warnInvalid_not (f : MapFile) : warnInvalid f ≠ .error .memMap := by
  intro h
  unfold warnInvalid at h
  have hr := validate_raises f.sections
  cases hv : validateSections f.sections with
  | ok y => rw [hv] at h; cases h
  | error y =>
    have := hr y hv
    rw [hv] at h
    simp only [List.mem_cons, List.not_mem_nil, or_false] at this
    rcases this with rfl | rfl <;> cases h

theorem getElf_not {w : World} (hw : Expected w) (fn : Str) (d : Option ProjDesc) : getElf w fn d ≠ .error .memMap := by
  unfold getElf
  simp only []
  split
  · intro h; cases h
  · rename_i d' _
    intro h
    cases ha : d'.appElf with
    | none => rw [ha] at h; cases h
    | some app =>
      rw [ha] at h
      simp only [getKey, bind, Except.bind] at h
      split at h
      · cases h
      · rename_i r hr
        cases r with
        | ok y => cases h
        | error y =>
          have := hw.elf _ _ hr y rfl
          simp only [List.mem_cons, List.not_mem_nil, or_false] at this
          rcases this with rfl | rfl | rfl <;> cases h

theorem dwarfSections_not {w : World} (hw : Expected w) {fn : Str} {d : Option ProjDesc} {elf : Option ElfData} (helf : getElf w fn d = .ok elf)
    (u : Bool) (os : List OSec) : dwarfSections u d elf os ≠ .error .memMap := by
  have : Raises [Err.valueError, .keyError] (dwarfSections u d elf os) := by
    have hk : ∀ {α : Type} (x : Option α), Raises [Err.valueError, .keyError] (getKey x) := by
      intro α x
      cases x with
      | none => exact .error (by decide)
      | some y => exact .ok
    unfold dwarfSections
    refine raises_ite ?_ .ok
    split
    · obtain ⟨cu, hcu⟩ := getElf_cu hw helf
      rw [hcu]
      refine .bind .ok fun _ _ => .bind (hk _) fun _ _ => .bind (hk _) fun _ _ => ?_
      exact (expand_raises _ _ _).mono (by decide)
    · exact .ok
  intro h
  exact absurd (this _ h) (by decide)

/-! ### Steps that do -/

theorem useProblem_iff {w : World} (hw : Expected w) (fn : Str) (mf : Option MapFile) :
    useMap w fn mf = .error .memMap ↔ ∃ p, useProblem w fn mf = some p := by
  cases mf with
  | some f => exact ⟨fun h => (by cases h), fun ⟨p, h⟩ => (by cases h)⟩
  | none =>
    unfold useMap useProblem loadMap
    cases hl : w.lines fn with
    | error x =>
      have := hw.lines _ _ hl
      simp only [List.mem_cons, List.not_mem_nil, or_false] at this
      rcases this with rfl | rfl <;> exact ⟨fun _ => ⟨_, rfl⟩, fun _ => rfl⟩
    | ok lines =>
      simp only
      have hi := C114_iff lines
      constructor
      · intro h
        have : parseMap lines = .error .mapFile := by
          cases hp : parseMap lines with
          | ok f => rw [hp] at h; cases h
          | error x =>
            have hx := C30_errors_partial lines x hp
            rw [hp] at h
            simp only [List.mem_cons, List.not_mem_nil, or_false] at hx
            rcases hx with rfl | rfl | rfl | rfl | rfl <;> first | rfl | cases h
        obtain ⟨p, hp⟩ := hi.mp this
        exact ⟨.map p, by rw [hp]; rfl⟩
      · rintro ⟨p, hp⟩
        cases hm : mapProblem lines with
        | none => rw [hm] at hp; cases hp
        | some q => rw [hi.mpr ⟨q, hm⟩]; rfl

theorem chipProblem_iff {w : World} (hw : Expected w) (t : Str) :
    (getMemoryTypes w t = .error .memMap ∧ chipProblem w t = some (.chip t) ∧ (w.chip (t ++ str ".yaml") = .error .osError ∨ w.chip (t ++ str ".yaml") = .error .valueError)) ∨
      (∃ ty, getMemoryTypes w t = .ok ty) ∧ chipProblem w t = none := by
  unfold getMemoryTypes chipProblem
  cases hl : w.chip (t ++ str ".yaml") with
  | error x =>
    have := hw.chip _ _ hl
    simp only [List.mem_cons, List.not_mem_nil, or_false] at this
    rcases this with rfl | rfl
    · exact .inl ⟨rfl, rfl, .inl rfl⟩
    · exact .inl ⟨rfl, rfl, .inr rfl⟩
  | ok y => exact .inr ⟨⟨_, rfl⟩, rfl⟩

theorem symbolProblem_iff (ls : Bool) (elf : Option ElfData) (ss : List OSec) :
    symbolStep ls elf (filterMapSections ss (elfHeaders (elf.map (·.shdrs)))) = .error .memMap ↔ ∃ p, symbolProblem ls elf ss = some p := by
  cases ls with
  | false => exact ⟨fun h => (by cases h), fun ⟨p, h⟩ => (by cases h)⟩
  | true =>
    cases elf with
    | none => exact ⟨fun h => (by cases h), fun ⟨p, h⟩ => (by cases h)⟩
    | some e =>
      have hs := (C115_symbols e.syms (filterMapSections ss (elfHeaders (some e.shdrs)))).1
      show addSymbols (some e.syms) (filterMapSections ss (elfHeaders (some e.shdrs))) = _ ↔ _
      rw [hs]
      unfold symbolProblem
      simp only
      constructor
      · rintro ⟨p, h⟩; exact ⟨.symbol p, by rw [h]; rfl⟩
      · rintro ⟨p, h⟩
        cases hq : symProblem e.syms (filterMapSections ss (elfHeaders (some e.shdrs))) with
        | none => rw [hq] at h; cases h
        | some q => exact ⟨q, rfl⟩

theorem build_memMap {n : Nat} {fn : Str} {ls : Bool} {l : GetIn} (hb : build n fn ls l ≠ none) :
    build n fn ls l = some (.error .memMap) ↔ ∃ p, symbolProblem ls l.elf l.sections = some p := by
  rw [← symbolProblem_iff]
  unfold build at hb ⊢
  simp only [] at hb ⊢
  cases hs : splitMemoryRegions n l.types (filterMemoryRegions l.regions) [] [] with
  | none => rw [hs] at hb; exact absurd rfl hb
  | some r =>
    obtain ⟨regs, ws⟩ := r
    simp only [Option.some.injEq]
    cases hx : symbolStep ls l.elf (filterMapSections l.sections (elfHeaders (l.elf.map (·.shdrs)))) with
    | error y =>
      simp only [bind, Except.bind]
      constructor <;> (intro h; injection h with h; rw [h])
    | ok os =>
      obtain ⟨d', goes, h1, h2⟩ := memTypeMap_ok l.types regs (addArchives (splitMapSections os regs))
        (isAlias_of (splitRegions_fromTable (by intro p hp; cases hp) hs)) abb_addArchives
      simp only [bind, Except.bind, h1]
      constructor <;> (intro h; cases h)

/-! ### C119 -/

/-- A project is refused with a message exactly if there is a problem to report. -/
theorem C119_iff (n : Nat) (w : World) (hw : Expected w) (fn : Str) (ls : Bool) (ud : Option Bool) (mf : Option MapFile) (e : Option ElfData)
    (hn : getMap n w fn ls ud mf e ≠ none) :
    getMap n w fn ls ud mf e = some (.error .memMap) ↔ ∃ p, getProblem w fn ls ud mf = some p := by
  have none_iff : ∀ {x : Err} {q : Option GetProblem}, x ≠ .memMap → q = none →
      ((some (.error x) : Option (Except Err MemMap)) = some (.error .memMap) ↔ ∃ p, q = some p) := by
    intro x q hx hq
    rw [hq]
    exact ⟨fun h => absurd (by injection h with h; injection h) hx, fun ⟨p, h⟩ => (by cases h)⟩
  unfold getMap load at hn ⊢
  unfold getProblem
  simp only [bind, Except.bind] at hn ⊢
  cases hd : descTarget (getProjDesc w fn) with
  | error x => exact none_iff (fun h => descTarget_not _ (h ▸ hd)) rfl
  | ok t =>
    rw [hd] at hn
    simp only at hn ⊢
    have hu := useProblem_iff hw fn mf
    cases hp : useProblem w fn mf with
    | some p =>
      rw [hu.mpr ⟨p, hp⟩]
      exact ⟨fun _ => ⟨p, rfl⟩, fun _ => rfl⟩
    | none =>
      cases hm : useMap w fn mf with
      | error x =>
        refine none_iff (fun h => ?_) rfl
        obtain ⟨p, h'⟩ := hu.mp (h ▸ hm)
        rw [hp] at h'
        cases h'
      | ok f =>
        rw [hm] at hn
        simp only at hn ⊢
        cases hv : warnInvalid f with
        | error x => exact none_iff (fun h => warnInvalid_not _ (h ▸ hv)) rfl
        | ok _ =>
          rw [hv] at hn
          simp only at hn ⊢
          cases he : getElf w fn (getProjDesc w fn) with
          | error x => exact none_iff (fun h => getElf_not hw _ _ (h ▸ he)) rfl
          | ok elf =>
            rw [he] at hn
            simp only at hn ⊢
            cases hss : dwarfSections (wantDwarf w fn ud) (getProjDesc w fn) elf (f.sections.map toOSec) with
            | error x => exact none_iff (fun h => dwarfSections_not hw he _ _ (h ▸ hss)) rfl
            | ok ss =>
              rw [hss] at hn
              simp only [targetProblem, pickTarget] at hn ⊢
              generalize (if t = [] then f.target else t) = tg at hn ⊢
              by_cases ht : tg = []
              · rw [if_pos ht, if_pos ht]
                exact ⟨fun _ => ⟨_, rfl⟩, fun _ => rfl⟩
              · simp only [if_neg ht] at hn ⊢
                rcases chipProblem_iff hw tg with ⟨h1, h2, _⟩ | ⟨⟨ty, h1⟩, h2⟩
                · rw [h1, h2]
                  exact ⟨fun _ => ⟨_, rfl⟩, fun _ => rfl⟩
                · rw [h1] at hn
                  rw [h1, h2]
                  exact build_memMap (l := ⟨tg, ty, elf, f.regions, ss⟩) hn

theorem useMap_uses {w : World} {fn : Str} {mf : Option MapFile} {f : MapFile} (h : useMap w fn mf = .ok f) : UsesMap w fn mf f := by
  cases mf with
  | some g => cases h; exact .inl rfl
  | none =>
    unfold useMap at h
    cases hp : loadMap w fn with
    | error x => rw [hp] at h; cases x <;> cases h
    | ok g =>
      rw [hp] at h
      cases h
      unfold loadMap at hp
      cases hl : w.lines fn with
      | error x => rw [hl] at hp; cases x <;> cases hp
      | ok lines => rw [hl] at hp; exact .inr ⟨rfl, lines, hl, hp⟩

theorem descTarget_names {w : World} {fn t : Str} (h : descTarget (getProjDesc w fn) = .ok t) (s : Str) : DescNames w fn s ↔ s = t ∧ t ≠ [] := by
  unfold DescNames
  cases hd : getProjDesc w fn with
  | none =>
    rw [hd] at h
    cases h
    exact ⟨fun ⟨_, d, hh, _⟩ => (by cases hh), fun ⟨_, hh⟩ => absurd rfl hh⟩
  | some d =>
    rw [hd] at h
    unfold descTarget at h
    simp only at h
    cases ht : d.target with
    | none =>
      rw [ht] at h
      have : t = [] := by
        split at h
        · cases h
        · cases h; rfl
      exact ⟨fun ⟨_, d', hh, h2⟩ => (by cases hh; rw [ht] at h2; cases h2), fun ⟨_, hh⟩ => absurd this hh⟩
    | some t' =>
      have hne : d.nonempty = true := by unfold ProjDesc.nonempty; rw [ht]; simp
      rw [ht] at h
      simp only [hne, if_true] at h
      cases h
      constructor
      · rintro ⟨h0, d', hh, h2⟩
        cases hh
        rw [ht] at h2
        cases h2
        exact ⟨rfl, h0⟩
      · rintro ⟨rfl, h0⟩
        exact ⟨h0, d, rfl, ht⟩

/-- What the message says is so. -/
theorem C119_true (w : World) (hw : Expected w) (fn : Str) (ls : Bool) (ud : Option Bool) (mf : Option MapFile) (p : GetProblem)
    (h : getProblem w fn ls ud mf = some p) : Cause w fn ud mf p := by
  unfold getProblem at h
  cases hd : descTarget (getProjDesc w fn) with
  | error x => rw [hd] at h; cases h
  | ok t =>
    rw [hd] at h
    simp only at h
    cases hp : useProblem w fn mf with
    | some q =>
      rw [hp] at h
      cases h
      cases mf with
      | some f => cases hp
      | none =>
        unfold useProblem at hp
        cases hl : w.lines fn with
        | error x =>
          have := hw.lines _ _ hl
          rw [hl] at hp
          simp only [List.mem_cons, List.not_mem_nil, or_false] at this
          rcases this with rfl | rfl
          · cases hp; exact ⟨rfl, .inl hl⟩
          · cases hp; exact ⟨rfl, .inr hl⟩
        | ok lines =>
          rw [hl] at hp
          simp only at hp
          cases hm : mapProblem lines with
          | none => rw [hm] at hp; cases hp
          | some q => rw [hm] at hp; cases hp; exact ⟨rfl, lines, hl, hm⟩
    | none =>
      rw [hp] at h
      simp only at h
      cases hm : useMap w fn mf with
      | error x => rw [hm] at h; cases h
      | ok f =>
        rw [hm] at h
        simp only at h
        have hf := useMap_uses hm
        cases hv : warnInvalid f with
        | error x => rw [hv] at h; cases h
        | ok _ =>
          rw [hv] at h
          simp only at h
          cases he : getElf w fn (getProjDesc w fn) with
          | error x => rw [he] at h; cases h
          | ok elf =>
            rw [he] at h
            simp only at h
            cases hss : dwarfSections (wantDwarf w fn ud) (getProjDesc w fn) elf (f.sections.map toOSec) with
            | error x => rw [hss] at h; cases h
            | ok ss =>
              rw [hss] at h
              simp only [targetProblem] at h
              have hnames := descTarget_names hd
              have hpick : pickTarget t f.target = if (if t = [] then f.target else t) = [] then .error .memMap else .ok (if t = [] then f.target else t) := rfl
              by_cases ht : (if t = [] then f.target else t) = []
              · rw [if_pos ht] at h
                cases h
                by_cases h0 : t = []
                · rw [if_pos h0] at ht
                  exact ⟨⟨f, hf, ht⟩, fun ⟨s, hs⟩ => ((hnames s).mp hs).2 h0⟩
                · rw [if_neg h0] at ht; exact absurd ht h0
              · rw [if_neg ht] at h hpick
                rcases chipProblem_iff hw (if t = [] then f.target else t) with ⟨h1, h2, h3⟩ | ⟨⟨ty, h1⟩, h2⟩
                · rw [h2] at h
                  cases h
                  refine ⟨⟨f, hf, ?_⟩, h3⟩
                  by_cases h0 : t = []
                  · rw [if_pos h0] at ht ⊢
                    exact .inr ⟨fun ⟨s, hs⟩ => ((hnames s).mp hs).2 h0, rfl, ht⟩
                  · rw [if_neg h0]
                    exact .inl ((hnames t).mpr ⟨rfl, h0⟩)
                · rw [h2, h1] at h
                  simp only at h
                  cases ls with
                  | false => cases h
                  | true =>
                    cases elf with
                    | none => cases h
                    | some e =>
                      unfold symbolProblem at h
                      simp only at h
                      cases hq : symProblem e.syms (filterMapSections ss (elfHeaders (some e.shdrs))) with
                      | none => rw [hq] at h; cases h
                      | some q =>
                        rw [hq] at h
                        cases h
                        refine ⟨⟨if t = [] then f.target else t, ty, some e, f.regions, ss⟩, e, ?_, rfl, hq⟩
                        unfold load
                        simp only [bind, Except.bind, hd, hm, hv, he, hss, hpick, h1]

theorem usesMap_inj {w : World} {fn : Str} {mf : Option MapFile} {f g : MapFile} (h : UsesMap w fn mf f) (h' : UsesMap w fn mf g) : f = g := by
  rcases h with h | ⟨h, l, hl, hp⟩ <;> rcases h' with h' | ⟨h', l', hl', hp'⟩
  · rw [h] at h'; exact Option.some.inj h'
  · rw [h] at h'; cases h'
  · rw [h'] at h; cases h
  · rw [hl] at hl'; cases hl'; rw [hp] at hp'; exact Except.ok.inj hp'

/-- At most one message is true. -/
theorem C119_one (w : World) (fn : Str) (ud : Option Bool) (mf : Option MapFile) (p q : GetProblem) (h : Cause w fn ud mf p) (h' : Cause w fn ud mf q) :
    p = q := by
  have names_inj : ∀ {s t : Str}, DescNames w fn s → DescNames w fn t → s = t := by
    rintro s t ⟨_, d, h1, h2⟩ ⟨_, d', h3, h4⟩
    rw [h1] at h3
    cases h3
    rw [h2] at h4
    exact Option.some.inj h4
  have unread_uses : (mf = none ∧ (w.lines fn = .error .osError ∨ w.lines fn = .error .valueError)) → ∀ f, ¬ UsesMap w fn mf f := by
    rintro ⟨h0, h1⟩ f (h2 | ⟨_, l, hl, _⟩)
    · rw [h0] at h2; cases h2
    · rw [hl] at h1; rcases h1 with h1 | h1 <;> cases h1
  have map_uses : (∃ p, mf = none ∧ ∃ lines, w.lines fn = .ok lines ∧ mapProblem lines = some p) → ∀ f, ¬ UsesMap w fn mf f := by
    rintro ⟨p, h0, lines, h1, h3⟩ f (h2 | ⟨_, l, hl, hp⟩)
    · rw [h0] at h2; cases h2
    · rw [h1] at hl
      cases hl
      rw [(C114_iff lines).mpr ⟨p, h3⟩] at hp
      cases hp
  have sym_parts : ∀ {l : GetIn}, load w fn ud mf = .ok l → ∃ f, UsesMap w fn mf f ∧ l.target ≠ [] ∧
      (DescNames w fn l.target ∨ (¬ ∃ t', DescNames w fn t') ∧ f.target = l.target) ∧ w.chip (l.target ++ str ".yaml") = .ok l.types := by
    intro l hl
    obtain ⟨t, m, elf, ss, h1, h2, _, _, _, h6, h7, _⟩ := load_ok hl
    have hnames := descTarget_names h1
    unfold pickTarget at h6
    simp only [] at h6
    refine ⟨m, h2, ?_⟩
    by_cases hne : (if t = [] then m.target else t) = []
    · rw [if_pos hne] at h6; cases h6
    · rw [if_neg hne] at h6
      injection h6 with h6
      rw [h6] at hne
      refine ⟨hne, ?_, ?_⟩
      · by_cases h0 : t = []
        · rw [if_pos h0] at h6
          exact .inr ⟨fun ⟨s, hs⟩ => ((hnames s).mp hs).2 h0, h6⟩
        · rw [if_neg h0] at h6
          rw [← h6]
          exact .inl ((hnames t).mpr ⟨rfl, h0⟩)
      · unfold getMemoryTypes at h7
        cases hc : w.chip (l.target ++ str ".yaml") with
        | ok y => rw [hc] at h7; cases h7; rfl
        | error x => rw [hc] at h7; cases x <;> cases h7
  have target_sym : Cause w fn ud mf .target → ∀ r, ¬ Cause w fn ud mf (.symbol r) := by
    rintro ⟨⟨f, hf, h0⟩, hno⟩ r ⟨l, e, hl, _⟩
    obtain ⟨g, hg, h1, h2, _⟩ := sym_parts hl
    rcases h2 with h2 | ⟨_, h2⟩
    · exact hno ⟨_, h2⟩
    · rw [usesMap_inj hg hf, h0] at h2; exact h1 h2.symm
  have target_chip : Cause w fn ud mf .target → ∀ t, ¬ Cause w fn ud mf (.chip t) := by
    rintro ⟨⟨f, hf, h0⟩, hno⟩ t ⟨⟨g, hg, h2⟩, _⟩
    rcases h2 with h2 | ⟨_, h2, h3⟩
    · exact hno ⟨_, h2⟩
    · rw [usesMap_inj hg hf, h0] at h2; exact h3 h2.symm
  have chip_sym : ∀ t, Cause w fn ud mf (.chip t) → ∀ r, ¬ Cause w fn ud mf (.symbol r) := by
    rintro t ⟨⟨g, hg, h2⟩, hc⟩ r ⟨l, e, hl, _⟩
    obtain ⟨f, hf, h1, h3, h4⟩ := sym_parts hl
    have : l.target = t := by
      rcases h2 with h2 | ⟨hno, h2, _⟩ <;> rcases h3 with h3 | ⟨hno', h3⟩
      · exact names_inj h3 h2
      · exact absurd ⟨_, h2⟩ hno'
      · exact absurd ⟨_, h3⟩ hno
      · rw [← h3, ← h2, usesMap_inj hf hg]
    rw [this] at h4
    rw [h4] at hc
    rcases hc with hc | hc <;> cases hc
  have uses_of : ∀ {r}, Cause w fn ud mf r → (∃ f, UsesMap w fn mf f) ∨ r = .unread ∨ ∃ s, r = .map s := by
    intro r hr
    cases r with
    | unread => exact .inr (.inl rfl)
    | map s => exact .inr (.inr ⟨s, rfl⟩)
    | target => obtain ⟨⟨f, hf, _⟩, _⟩ := hr; exact .inl ⟨f, hf⟩
    | chip t => obtain ⟨⟨f, hf, _⟩, _⟩ := hr; exact .inl ⟨f, hf⟩
    | symbol s => obtain ⟨l, e, hl, _⟩ := hr; obtain ⟨f, hf, _⟩ := sym_parts hl; exact .inl ⟨f, hf⟩
  have unread_map : Cause w fn ud mf .unread → ∀ s, ¬ Cause w fn ud mf (.map s) := by
    rintro ⟨_, h1⟩ s ⟨_, lines, hl, _⟩
    rw [hl] at h1
    rcases h1 with h1 | h1 <;> cases h1
  have fin : ∀ {r}, Cause w fn ud mf r → Cause w fn ud mf .unread → r = .unread := by
    intro r hr hu
    rcases uses_of hr with ⟨f, hf⟩ | rfl | ⟨s, rfl⟩
    · exact absurd hf (unread_uses hu f)
    · rfl
    · exact absurd hr (unread_map hu s)
  have fin2 : ∀ {r s}, Cause w fn ud mf r → Cause w fn ud mf (.map s) → r = .map s := by
    intro r s hr hs
    rcases uses_of hr with ⟨f, hf⟩ | rfl | ⟨s', rfl⟩
    · exact absurd hf (map_uses ⟨s, hs⟩ f)
    · exact absurd hs (unread_map hr s)
    · obtain ⟨_, l, hl, hp⟩ := hs
      obtain ⟨_, l', hl', hp'⟩ := hr
      rw [hl] at hl'
      cases hl'
      rw [hp] at hp'
      cases hp'
      rfl
  cases p with
  | unread => exact (fin h' h).symm
  | map s => exact (fin2 h' h).symm
  | target =>
    cases q with
    | unread => exact fin h h'
    | map s => exact fin2 h h'
    | target => rfl
    | chip t => exact absurd h' (target_chip h t)
    | symbol s => exact absurd h' (target_sym h s)
  | chip t =>
    cases q with
    | unread => exact fin h h'
    | map s => exact fin2 h h'
    | target => exact absurd h (target_chip h' t)
    | chip t' =>
      obtain ⟨⟨f, hf, h2⟩, _⟩ := h
      obtain ⟨⟨g, hg, h3⟩, _⟩ := h'
      have : t = t' := by
        rcases h2 with h2 | ⟨hno, h2, _⟩ <;> rcases h3 with h3 | ⟨hno', h3, _⟩
        · exact names_inj h2 h3
        · exact absurd ⟨_, h2⟩ hno'
        · exact absurd ⟨_, h3⟩ hno
        · rw [← h3, ← h2, usesMap_inj hf hg]
      rw [this]
    | symbol s => exact absurd h' (chip_sym t h s)
  | symbol s =>
    cases q with
    | unread => exact fin h h'
    | map s => exact fin2 h h'
    | target => exact absurd h (target_sym h' s)
    | chip t => exact absurd h (chip_sym t h' s)
    | symbol s' =>
      obtain ⟨l, e, hl, he, hp⟩ := h
      obtain ⟨l', e', hl', he', hp'⟩ := h'
      rw [hl] at hl'
      cases hl'
      rw [he] at he'
      cases he'
      rw [hp] at hp'
      cases hp'
      rfl

/-- A refused project has exactly one message that is true, and it is the one reported. -/
theorem C119_message (n : Nat) (w : World) (hw : Expected w) (fn : Str) (ls : Bool) (ud : Option Bool) (mf : Option MapFile) (e : Option ElfData)
    (h : getMap n w fn ls ud mf e = some (.error .memMap)) :
    ∃ p, getProblem w fn ls ud mf = some p ∧ ∀ q, Cause w fn ud mf q ↔ q = p := by
  obtain ⟨p, hp⟩ := (C119_iff n w hw fn ls ud mf e (by rw [h]; exact fun x => (by cases x))).mp h
  have ht := C119_true w hw fn ls ud mf p hp
  exact ⟨p, hp, fun q => ⟨fun hq => C119_one w fn ud mf q p hq ht, fun hq => hq ▸ ht⟩⟩

/-- The kind of problem that a text is about. -/
def kindOf (s : Str) : Nat :=
  if s.take 13 = str "cannot read l" then 0
  else if s.take 13 = str "cannot determ" then 2
  else if s.take 13 = str "cannot read m" then 3
  else if s.take 13 = str "cannot find i" ∨ s.take 13 = str "symbol name: " then 4
  else 1

theorem kindOf_text (fn r : Str) (p : GetProblem) : kindOf (p.text fn r) = p.kind := by
  cases p with
  | unread => rfl
  | map p =>
    cases p with
    | line k l n => cases k <;> rfl
    | config => rfl
    | script => rfl
  | target => rfl
  | chip t => rfl
  | symbol p => cases p <;> rfl

/-- Messages about problems of different kinds are different. -/
theorem C119_kinds (fn fn' r r' : Str) (p q : GetProblem) (h : p.text fn r = q.text fn' r') : p.kind = q.kind := by
  rw [← kindOf_text fn r p, ← kindOf_text fn' r' q, h]

/-- A message is shown as it is if nothing in it looks like markup. -/
theorem C119_shown_partial (fn r : Str) (p : GetProblem) (h : p.plain fn r) : render (p.text fn r) = p.text fn r := by
  have lit : ∀ {s : Str}, s.all (fun c => c != '[' && c != '\\') = true → ∀ t, render (s ++ t) = s ++ render t := fun h t => render_neutral (neutral_lit h) t
  cases p with
  | unread => unfold GetProblem.text; rw [lit (by decide), NoMarkup.shown h]
  | map p =>
    cases p with
    | line k l n => exact C114_shown_partial n h.1 h.2
    | config =>
      have e : MapProblem.text fn .config = str "cannot parse \"Memory Configuration\" section in \"" ++ (fn ++ '"' :: str " map file") := by
        simp [MapProblem.text, str]
      show render (MapProblem.text fn .config) = MapProblem.text fn .config
      rw [e, lit (by decide), render_noMarkup h (by decide) (by decide) (by decide), shown_lit (by decide)]
    | script => exact shown_lit (s := str "cannot parse \"Linker script and memory map\" section in \"{self.fn}\" map file") (by decide)
  | target => exact shown_lit (s := str "cannot determine chip target") (by decide)
  | chip t => unfold GetProblem.text; rw [lit (by decide), NoMarkup.shown h]
  | symbol p => exact C115_shown_partial.2 p h

/-- Nothing in the message about the target tells the project: two different files give the same. -/
theorem C119_target_unnamed (fn fn' r r' : Str) : GetProblem.text fn r .target = GetProblem.text fn' r' .target := rfl

/-- A name in brackets is not shown. -/
theorem C119_hidden : render (GetProblem.text [] (str "[Errno 2] No such file or directory: 'a[b].map'") .unread) =
    str "cannot read linker map file: [Errno 2] No such file or directory: 'a.map'" := by decide +kernel

/-! ### Every kind of problem occurs -/

example : getProblem exWorld (str "/b/x.map") false none none = none := by decide +kernel
example : getProblem exWorld (str "/b/y.map") false none none = some .unread := by decide +kernel
example : getProblem { exWorld with lines := fun _ => .ok [] } (str "/b/x.map") false none none = some (.map .config) := by decide +kernel
example : getProblem { exWorld with json := fun _ => none } (str "/b/x.map") false none (some ⟨[], [], [], none⟩) = some .target := by decide +kernel
example : getProblem { exWorld with chip := fun _ => .error .osError } (str "/b/x.map") false none none = some (.chip (str "espx")) := by decide +kernel

/-- The example with an ELF file in which a symbol is outside of all sections. -/
example : getProblem { exWorld with
    json := fun p => if p = str "/b/project_description.json" then some ⟨some (str "x.elf"), some (str "espx"), none, none, true⟩ else none
    elf := fun p => if p = str "/b/x.elf" then some (.ok ⟨[⟨str ".iram0.text", 1, 2, 32⟩], [⟨str "f", 0x7fffffff, 4, 2, 1⟩], .ok []⟩) else none }
    (str "/b/x.map") true none none = some (.symbol (.lost ⟨str "f", 0x7fffffff, 4, 2, 1⟩)) := by decide +kernel

/-- A reason as the operating system gives it, shown as it is. -/
example : render (GetProblem.text [] (str "[Errno 2] No such file or directory: 'a.map'") .unread) =
    str "cannot read linker map file: [Errno 2] No such file or directory: 'a.map'" := by decide +kernel
example : GetProblem.plain [] (str "No such file or directory: 'a.map'") .unread := NoMarkup.of_noBracket (by decide)

end EspSize
