import Verif.Model.RunMsg
import Verif.Props.GetMsg
import Verif.Props.Influence
import Verif.Props.Run
/-! # C119: the message with which a run ends -/
namespace EspSize

theorem loadMap_problem {w : World} (hw : Expected w) (fn : Str) :
    (loadMap w fn = .error .mapFile ↔ ∃ p, useProblem w fn none = some p) ∧ loadMap w fn ≠ .error .memMap := by
  have h := useProblem_iff hw fn none
  have hl : Raises [.mapFile, .valueError, .typeError, .nameError, .indexError] (loadMap w fn) := by
    intro x hx
    unfold loadMap at hx
    cases hf : w.lines fn with
    | ok lines => rw [hf] at hx; exact C30_errors_partial lines x hx
    | error y =>
      have := hw.lines _ _ hf
      rw [hf] at hx
      simp only [List.mem_cons, List.not_mem_nil, or_false] at this
      rcases this with rfl | rfl <;> cases hx <;> decide
  have hnot : loadMap w fn ≠ .error .memMap := fun hm => absurd (hl _ hm) (by decide)
  refine ⟨?_, hnot⟩
  rw [← h]
  unfold useMap
  cases hm : loadMap w fn with
  | ok f => exact ⟨fun h => (by cases h), fun h => (by cases h)⟩
  | error x =>
    rw [hm] at hnot
    constructor
    · intro h; cases h; rfl
    · intro h
      cases x <;> first | rfl | (cases h; done) | exact absurd rfl hnot

theorem getMap_not_mapFile {n : Nat} {w : World} (hw : Expected w) {fn : Str} {ls : Bool} {ud : Option Bool} {mf : Option MapFile} {e : Option ElfData} :
    getMap n w fn ls ud mf e ≠ some (.error .mapFile) := fun h => absurd (C59_errors_partial n w hw fn ls ud mf e _ h) (by decide)

/-- What ends a run with a message about a project. -/
def EndsByProject {α : Type} (r : Option (Except Err α)) : Prop := r = some (.error .mapFile) ∨ r = some (.error .memMap)

theorem ends_not {α : Type} {r : Option (Except Err α)} {q : Option (Str × GetProblem)} (h1 : r ≠ some (.error .mapFile)) (h2 : r ≠ some (.error .memMap)) (h3 : q = none) :
    EndsByProject r ↔ ∃ x, q = some x := by
  rw [h3]
  exact ⟨fun h => absurd h (not_or.mpr ⟨h1, h2⟩), fun ⟨x, h⟩ => (by cases h)⟩

/-- A run ends with a message about a project exactly if there is a problem to report. -/
theorem C119_run_iff (R : RunIn) (hw : Expected R.w) (input : Str) (args : Args) (hn : prepared R input args ≠ none) :
    EndsByProject (prepared R input args) ↔ ∃ q, runProblem R input args = some q := by
  obtain ⟨hl, hl'⟩ := loadMap_problem hw input
  unfold prepared at hn ⊢
  unfold runProblem
  cases hu : useProblem R.w input none with
  | some p =>
    rw [hl.mpr ⟨p, hu⟩]
    exact ⟨fun _ => ⟨_, rfl⟩, fun _ => .inl rfl⟩
  | none =>
    simp only
    cases hm : loadMap R.w input with
    | error x =>
      refine ends_not (fun h => ?_) (fun h => ?_) rfl
      · cases h
        obtain ⟨p, hp⟩ := hl.mp hm
        rw [hu] at hp
        cases hp
      · cases h; exact hl' hm
    | ok mf =>
      rw [hm] at hn
      simp only at hn ⊢
      cases he : getElf R.w input none with
      | error x =>
        refine ends_not (fun h => ?_) (fun h => ?_) rfl
        · cases h; exact absurd (getElf_raises hw input none _ he) (by decide)
        · cases h; exact getElf_not hw input none he
      | ok elf =>
        rw [he] at hn
        simp only at hn ⊢
        cases hg : getMap R.n R.w input (loadSymbolsOf args) (useDwarfOf args) (some mf) elf with
        | none => rw [hg] at hn; exact absurd rfl hn
        | some r =>
          have hi := C119_iff R.n R.w hw input (loadSymbolsOf args) (useDwarfOf args) (some mf) elf (by rw [hg]; exact fun h => (by cases h))
          rw [hg] at hn hi
          cases r with
          | error x =>
            simp only at hn ⊢
            cases hp : getProblem R.w input (loadSymbolsOf args) (useDwarfOf args) (some mf) with
            | some p =>
              have := hi.mpr ⟨p, hp⟩
              injection this with this
              injection this with this
              rw [this]
              exact ⟨fun _ => ⟨_, rfl⟩, fun _ => .inr rfl⟩
            | none =>
              refine ends_not (fun h => ?_) (fun h => ?_) rfl
              · cases h; exact getMap_not_mapFile hw hg
              · cases h
                obtain ⟨p, hp'⟩ := hi.mp rfl
                rw [hp] at hp'
                cases hp'
          | ok m =>
            have hp : getProblem R.w input (loadSymbolsOf args) (useDwarfOf args) (some mf) = none := by
              cases hp : getProblem R.w input (loadSymbolsOf args) (useDwarfOf args) (some mf) with
              | none => rfl
              | some p => have := hi.mpr ⟨p, hp⟩; cases this
            have wm : m.WF := by
              obtain ⟨_, _, _, _, _, _, hw, _⟩ := C58_accounted _ _ _ _ _ _ _ _ hg
              exact hw
            have fine : ∀ ref : MemMap, ref.WF → ∃ d, prepare args m ref = .ok d := fun ref wr => by
              obtain ⟨d, _, h, _⟩ := prepare_flash args false wm wr
              exact ⟨d, h⟩
            simp only [hp] at hn ⊢
            unfold referenceMap at hn ⊢
            match hd : args.diff with
            | none =>
              obtain ⟨d, h⟩ := fine m wm
              simp only [h]
              exact ends_not (fun h => (by cases h)) (fun h => (by cases h)) rfl
            | some [] =>
              obtain ⟨d, h⟩ := fine m wm
              simp only [h]
              exact ends_not (fun h => (by cases h)) (fun h => (by cases h)) rfl
            | some (c :: fn) =>
              simp only [hd] at hn ⊢
              cases hg' : getMap R.n R.w (c :: fn) (loadSymbolsOf args) (useDwarfOf args) none none with
              | none => rw [hg'] at hn; exact absurd rfl hn
              | some r =>
                have hi' := C119_iff R.n R.w hw (c :: fn) (loadSymbolsOf args) (useDwarfOf args) none none (by rw [hg']; exact fun h => (by cases h))
                rw [hg'] at hi'
                cases r with
                | error x =>
                  simp only
                  cases hp' : getProblem R.w (c :: fn) (loadSymbolsOf args) (useDwarfOf args) none with
                  | some p =>
                    have := hi'.mpr ⟨p, hp'⟩
                    injection this with this
                    injection this with this
                    rw [this]
                    exact ⟨fun _ => ⟨_, rfl⟩, fun _ => .inr rfl⟩
                  | none =>
                    refine ends_not (fun h => ?_) (fun h => ?_) rfl
                    · cases h; exact getMap_not_mapFile hw hg'
                    · cases h
                      obtain ⟨p, hp''⟩ := hi'.mp rfl
                      rw [hp'] at hp''
                      cases hp''
                | ok ref =>
                  have wr : ref.WF := by
                    obtain ⟨_, _, _, _, _, _, hw, _⟩ := C58_accounted _ _ _ _ _ _ _ _ hg'
                    exact hw
                  obtain ⟨d, h⟩ := fine ref wr
                  simp only [h]
                  refine ends_not (fun h => (by cases h)) (fun h => (by cases h)) ?_
                  cases hp' : getProblem R.w (c :: fn) (loadSymbolsOf args) (useDwarfOf args) none with
                  | none => rfl
                  | some p => have := hi'.mpr ⟨p, hp'⟩; cases this

theorem cause_loaded {w : World} {fn : Str} {ud : Option Bool} {mf : MapFile} {p : GetProblem} (hm : loadMap w fn = .ok mf) (h : Cause w fn ud (some mf) p) :
    Cause w fn ud none p := by
  have huse : useMap w fn none = .ok mf := by unfold useMap; rw [hm]; rfl
  have hu : ∀ f, UsesMap w fn (some mf) f → UsesMap w fn none f := by
    rintro f (h | ⟨h, _⟩)
    · cases h; exact useMap_uses huse
    · cases h
  have hload : load w fn ud (some mf) = load w fn ud none := by
    unfold load
    rw [huse]
    rfl
  cases p with
  | unread => cases h.1
  | map p => cases h.1
  | target => obtain ⟨⟨f, hf, h1⟩, h2⟩ := h; exact ⟨⟨f, hu f hf, h1⟩, h2⟩
  | chip t => obtain ⟨⟨f, hf, h1⟩, h2⟩ := h; exact ⟨⟨f, hu f hf, h1⟩, h2⟩
  | symbol p => obtain ⟨l, e, h1, h2⟩ := h; exact ⟨l, e, hload ▸ h1, h2⟩

/-- The message is true of the project that it is about, the one given or the one compared with. The second is blamed only if the first is loaded. -/
theorem C119_run_true (R : RunIn) (hw : Expected R.w) (input : Str) (args : Args) (fn : Str) (p : GetProblem) (h : runProblem R input args = some (fn, p)) :
    Cause R.w fn (useDwarfOf args) none p ∧
      (fn = input ∨ args.diff = some fn ∧ ∃ mf elf m, loadMap R.w input = .ok mf ∧ getElf R.w input none = .ok elf ∧
        getMap R.n R.w input (loadSymbolsOf args) (useDwarfOf args) (some mf) elf = some (.ok m)) := by
  unfold runProblem at h
  cases hu : useProblem R.w input none with
  | some q =>
    rw [hu] at h
    cases h
    refine ⟨?_, .inl rfl⟩
    unfold useProblem at hu
    cases hf : R.w.lines input with
    | ok lines =>
      rw [hf] at hu
      simp only at hu
      cases hm : mapProblem lines with
      | none => rw [hm] at hu; cases hu
      | some q => rw [hm] at hu; cases hu; exact ⟨rfl, lines, hf, hm⟩
    | error y =>
      have := hw.lines _ _ hf
      rw [hf] at hu
      simp only [List.mem_cons, List.not_mem_nil, or_false] at this
      rcases this with rfl | rfl
      · cases hu; exact ⟨rfl, .inl hf⟩
      · cases hu; exact ⟨rfl, .inr hf⟩
  | none =>
    rw [hu] at h
    simp only at h
    cases hm : loadMap R.w input with
    | error x => rw [hm] at h; cases h
    | ok mf =>
      rw [hm] at h
      simp only at h
      cases he : getElf R.w input none with
      | error x => rw [he] at h; cases h
      | ok elf =>
        rw [he] at h
        simp only at h
        cases hp : getProblem R.w input (loadSymbolsOf args) (useDwarfOf args) (some mf) with
        | some q =>
          rw [hp] at h
          cases h
          exact ⟨cause_loaded hm (C119_true _ hw _ _ _ _ _ hp), .inl rfl⟩
        | none =>
          rw [hp] at h
          simp only at h
          split at h
          · rename_i m c t hg hd
            cases hq : getProblem R.w (c :: t) (loadSymbolsOf args) (useDwarfOf args) none with
            | none => rw [hq] at h; cases h
            | some q =>
              rw [hq] at h
              cases h
              exact ⟨C119_true _ hw _ _ _ _ _ hq, .inr ⟨hd, mf, elf, m, rfl, rfl, hg⟩⟩
          · cases h

/-- Such a run ends with exit status 1, and no file is changed. -/
theorem C119_run_exit (R : RunIn) (hw : Expected R.w) (input : Str) (args : Args) (q : Str × GetProblem) (h : runProblem R input (effectiveArgs args) = some q)
    (r : Except Err Report) (hr : makeReport R input args = some r) (draw : Report → List UInt8) (wr : Writing) (fs : Files) :
    finishRun r none draw wr fs args = (fs, .error .exit) := by
  rw [makeReport_presented] at hr
  have hn : prepared R input (effectiveArgs args) ≠ none := by intro h; rw [h] at hr; cases hr
  rcases (C119_run_iff R hw input (effectiveArgs args) hn).mpr ⟨q, h⟩ with h | h
  · rw [h] at hr; cases hr; exact C43_handled _ _ _ _ _ _ _ (.inr (.inl rfl)) (.inr ⟨rfl, rfl⟩)
  · rw [h] at hr; cases hr; exact C43_handled _ _ _ _ _ _ _ (.inl rfl) (.inr ⟨rfl, rfl⟩)

/-- The project compared with is blamed. -/
example : runProblem (exRun exWorld) (str "/b/x.map") { diff := some (str "/b/y.map") } = some (str "/b/y.map", .unread) := by decide +kernel
example : runProblem (exRun exWorld) (str "/b/y.map") { diff := some (str "/b/x.map") } = some (str "/b/y.map", .unread) := by decide +kernel
example : runProblem (exRun exWorld) (str "/b/x.map") {} = none := by decide +kernel

/-- The example with two projects, one of which, `bad`, has no target. -/
def exUnnamedWorld (bad : Str) : World :=
  { exWorld with lines := fun fn => .ok (if fn = bad then exMapLines.filter (· ≠ str " IDF_TARGET_ESPX = 0x0") else exMapLines) }

/-- **C119** in a comparison of two given projects the message does not tell which of them is refused. -/
theorem C119_run_ambiguous (r r' : Str) :
    runProblem (exRun (exUnnamedWorld (str "/b/x.map"))) (str "/b/x.map") { diff := some (str "/b/y.map") } = some (str "/b/x.map", .target) ∧
    runProblem (exRun (exUnnamedWorld (str "/b/y.map"))) (str "/b/x.map") { diff := some (str "/b/y.map") } = some (str "/b/y.map", .target) ∧
    GetProblem.text (str "/b/x.map") r .target = GetProblem.text (str "/b/y.map") r' .target :=
  ⟨by decide +kernel, by decide +kernel, rfl⟩

end EspSize
