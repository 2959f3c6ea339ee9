import Verif.Spec.RunEnds
import Verif.Props.Run
/-! # C101: runs end -/
namespace EspSize

theorem build_mono {n : Nat} {fn : Str} {ls : Bool} {l : GetIn} {x} (h : build n fn ls l = some x) (k : Nat) : build (n + k) fn ls l = some x := by
  unfold build at h ⊢
  simp only at h ⊢
  cases hs : splitMemoryRegions n l.types (filterMemoryRegions l.regions) [] [] with
  | none => rw [hs] at h; cases h
  | some y => rw [hs] at h; rw [splitRegions_mono hs k]; exact h

theorem getMap_mono {n : Nat} {w : World} {fn : Str} {ls : Bool} {ud : Option Bool} {mf : Option MapFile} {e : Option ElfData} {x}
    (h : getMap n w fn ls ud mf e = some x) (k : Nat) : getMap (n + k) w fn ls ud mf e = some x := by
  unfold getMap at h ⊢
  split at h
  · exact h
  · exact build_mono h k

theorem getMap_unique {n n' : Nat} {w : World} {fn : Str} {ls : Bool} {ud : Option Bool} {mf : Option MapFile} {e : Option ElfData} {x y}
    (h : getMap n w fn ls ud mf e = some x) (h' : getMap n' w fn ls ud mf e = some y) : x = y := by
  have h1 := getMap_mono h n'
  have h2 := getMap_mono h' n
  rw [Nat.add_comm, h1] at h2
  exact Option.some.inj h2

theorem getMap_ends {w : World} {fn : Str} {ls : Bool} {ud : Option Bool} {mf : Option MapFile} {e : Option ElfData} :
    (∃ n, (getMap n w fn ls ud mf e).isSome = true) ↔ ProjectEnds w fn ud mf := by
  unfold getMap ProjectEnds
  cases h : load w fn ud mf with
  | error x => exact ⟨fun _ l hl => (by cases hl), fun _ => ⟨0, rfl⟩⟩
  | ok l =>
    have key := C15_terminates_iff l.types (filterMemoryRegions l.regions)
    have hb : ∀ n, (build n fn ls l).isSome = (splitMemoryRegions n l.types (filterMemoryRegions l.regions) [] []).isSome := by
      intro n
      unfold build
      simp only
      cases splitMemoryRegions n l.types (filterMemoryRegions l.regions) [] [] <;> rfl
    simp only [hb]
    rw [key]
    constructor
    · intro hk l' hl' regions hreg
      cases hl'
      rw [hreg]
      exact hk
    · intro hk
      exact hk l rfl _ rfl

/-- **C101** the number of steps a model run is allowed does not influence the report. -/
theorem C101_steps (R : RunIn) (input : Str) (args : Args) (n k : Nat) (x : Except Err Report)
    (h : makeReport { R with n := n } input args = some x) : makeReport { R with n := n + k } input args = some x := by
  unfold makeReport at h ⊢
  simp only at h ⊢
  cases h1 : loadMap R.w input with
  | error y => rw [h1] at h; exact h
  | ok mf =>
    rw [h1] at h
    simp only at h ⊢
    cases h2 : getElf R.w input none with
    | error y => rw [h2] at h; exact h
    | ok elf =>
      rw [h2] at h
      simp only at h ⊢
      cases h3 : getMap n R.w input (loadSymbolsOf (effectiveArgs args)) (useDwarfOf (effectiveArgs args)) (some mf) elf with
      | none => rw [h3] at h; cases h
      | some z =>
        rw [h3] at h
        rw [getMap_mono h3 k]
        cases z with
        | error y => exact h
        | ok m =>
          simp only at h ⊢
          have href : ∀ z, referenceMap (effectiveArgs args) m (fun fn => getMap n R.w fn (loadSymbolsOf (effectiveArgs args)) (useDwarfOf (effectiveArgs args)) none none) = some z →
              referenceMap (effectiveArgs args) m (fun fn => getMap (n + k) R.w fn (loadSymbolsOf (effectiveArgs args)) (useDwarfOf (effectiveArgs args)) none none) = some z := by
            intro z hz
            unfold referenceMap at hz ⊢
            split at hz
            · exact getMap_mono hz k
            · exact hz
          cases h4 : referenceMap (effectiveArgs args) m (fun fn => getMap n R.w fn (loadSymbolsOf (effectiveArgs args)) (useDwarfOf (effectiveArgs args)) none none) with
          | none => rw [h4] at h; cases h
          | some z =>
            rw [h4] at h
            rw [href z h4]
            exact h

/-- **C101** (exact criterion) a run ends if and only if no region of the input is `Stuck`, nor one of the reference if it comes to
it. -/
theorem C101_ends_iff (R : RunIn) (input : Str) (args : Args) :
    RunEnds R input args ↔ ∀ mf elf, loadMap R.w input = .ok mf → getElf R.w input none = .ok elf →
      ProjectEnds R.w input (useDwarfOf (effectiveArgs args)) (some mf) ∧
      ∀ n m fn, getMap n R.w input (loadSymbolsOf (effectiveArgs args)) (useDwarfOf (effectiveArgs args)) (some mf) elf = some (.ok m) →
        (effectiveArgs args).diff = some fn → fn ≠ [] → ProjectEnds R.w fn (useDwarfOf (effectiveArgs args)) none := by
  cases h1 : loadMap R.w input with
  | error y => exact ⟨fun _ mf elf h => (by cases h), fun _ => ⟨0, by unfold makeReport; simp only [h1]; rfl⟩⟩
  | ok mf =>
    cases h2 : getElf R.w input none with
    | error y => exact ⟨fun _ mf elf _ h => (by cases h), fun _ => ⟨0, by unfold makeReport; simp only [h1, h2]; rfl⟩⟩
    | ok elf =>
      have hin := getMap_ends (ls := loadSymbolsOf (effectiveArgs args)) (e := elf) (w := R.w) (fn := input) (ud := useDwarfOf (effectiveArgs args)) (mf := some mf)
      constructor
      · rintro ⟨n, h⟩ mf' elf' e1 e2
        cases e1; cases e2
        unfold makeReport at h
        simp only [h1, h2] at h
        cases h3 : getMap n R.w input (loadSymbolsOf (effectiveArgs args)) (useDwarfOf (effectiveArgs args)) (some mf) elf with
        | none => rw [h3] at h; cases h
        | some z =>
          rw [h3] at h
          refine ⟨hin.mp ⟨n, by rw [h3]; rfl⟩, ?_⟩
          intro n' m fn hm hd hne
          have := getMap_unique h3 hm
          subst this
          simp only at h
          cases fn with
          | nil => exact absurd rfl hne
          | cons c t =>
            refine (getMap_ends (ls := loadSymbolsOf (effectiveArgs args)) (e := none)).mp ⟨n, ?_⟩
            simp only [referenceMap, hd] at h
            cases h4 : getMap n R.w (c :: t) (loadSymbolsOf (effectiveArgs args)) (useDwarfOf (effectiveArgs args)) none none with
            | none => rw [h4] at h; cases h
            | some z => rfl
      · intro h
        obtain ⟨hp, hq⟩ := h mf elf rfl rfl
        obtain ⟨n, hn⟩ := hin.mpr hp
        cases h3 : getMap n R.w input (loadSymbolsOf (effectiveArgs args)) (useDwarfOf (effectiveArgs args)) (some mf) elf with
        | none => rw [h3] at hn; cases hn
        | some z =>
          cases z with
          | error y => exact ⟨n, by unfold makeReport; simp only [h1, h2, h3]; rfl⟩
          | ok m =>
            have fin : ∀ k z, getMap k R.w input (loadSymbolsOf (effectiveArgs args)) (useDwarfOf (effectiveArgs args)) (some mf) elf = some (.ok m) →
                referenceMap (effectiveArgs args) m (fun fn => getMap k R.w fn (loadSymbolsOf (effectiveArgs args)) (useDwarfOf (effectiveArgs args)) none none) = some z →
                (makeReport { R with n := k } input args).isSome = true := by
              intro k z ha hb
              unfold makeReport
              simp only [h1, h2, ha, hb]
              cases z with
              | error y => rfl
              | ok ref =>
                simp only
                cases prepare (effectiveArgs args) m ref <;> rfl
            cases hd : (effectiveArgs args).diff with
            | none => exact ⟨n, fin n (.ok m) h3 (by simp only [referenceMap, hd])⟩
            | some fn =>
              cases fn with
              | nil => exact ⟨n, fin n (.ok m) h3 (by simp only [referenceMap, hd])⟩
              | cons c t =>
                obtain ⟨n', hn'⟩ := (getMap_ends (ls := loadSymbolsOf (effectiveArgs args)) (e := none)).mpr (hq n m _ h3 hd (by simp))
                obtain ⟨z, hz⟩ := Option.isSome_iff_exists.mp hn'
                refine ⟨n + n', fin (n + n') z (getMap_mono h3 n') ?_⟩
                simp only [referenceMap, hd]
                rw [Nat.add_comm]
                exact getMap_mono hz n

/-- All regions of the project lie in memory types of the chip. -/
def ProjectCovered (w : World) (fn : Str) (useDwarf : Option Bool) (mf : Option MapFile) : Prop :=
  ∀ l, load w fn useDwarf mf = .ok l → ∀ r ∈ l.regions, r.name ≠ str "*default*" → FullyCovered l.types r ∧ (r.length < 0 → CoveredAddr l.types r.origin)

theorem covered_ends {w : World} {fn : Str} {ud : Option Bool} {mf : Option MapFile} (h : ProjectCovered w fn ud mf) : ProjectEnds w fn ud mf := by
  intro l hl regions hreg pre r post n out ws he _ hs
  have hm : r ∈ regions := by rw [he]; simp
  rw [hreg] at hm
  obtain ⟨h1, h2⟩ := List.mem_filter.mp hm
  obtain ⟨hc, hn⟩ := h l hl r h1 (by simpa using h2)
  rcases hs.1 with ⟨g, g1, g2, g3, _⟩ | ⟨h3, h4⟩
  · exact g3 (hc g g1 g2)
  · exact h4 (hn h3)

/-- **C101** a run over projects whose regions lie in memory types of the chip ends. -/
theorem C101_covered_partial (R : RunIn) (input : Str) (args : Args)
    (hl : ∀ mf, loadMap R.w input = .ok mf → ProjectCovered R.w input (useDwarfOf (effectiveArgs args)) (some mf))
    (hr : ∀ fn, (effectiveArgs args).diff = some fn → ProjectCovered R.w fn (useDwarfOf (effectiveArgs args)) none) :
    RunEnds R input args := by
  rw [C101_ends_iff R input args]
  intro mf elf h1 _
  exact ⟨covered_ends (hl mf h1), fun n m fn _ hd _ => covered_ends (hr fn hd)⟩

/-- A project with a region that ends where another one does, and begins before all memory types. -/
def exStuckWorld : World :=
  { exWorld with
    lines := fun fn => if fn = str "/b/x.map" then .ok [str "Memory Configuration", str "Name Origin Length", str "iram0_0_seg 0x100 0x80 xrw",
      str "dram0_0_seg 0xf8 0x88 rw", str "Linker script and memory map", str " IDF_TARGET_ESPX = 0x0", []] else .error .osError
    chip := fun fn => if fn = str "espx.yaml" then .ok exTypes else .error .osError }

/-- **C101** (violated) the run for this project never ends. -/
theorem C101_diverges (F : FloatOps) (ord : List Str → List Str) : ¬ RunEnds { n := 0, F := F, ord := ord, w := exStuckWorld } (str "/b/x.map") {} := by
  rintro ⟨n, h⟩
  have key : (match loadMap exStuckWorld (str "/b/x.map") with
      | .error _ => false
      | .ok mf => match load exStuckWorld (str "/b/x.map") none (some mf) with
        | .error _ => false
        | .ok l => decide (l.types = exTypes ∧ filterMemoryRegions l.regions =
            [⟨str "iram0_0_seg", 256, 128, str "xrw"⟩, ⟨str "dram0_0_seg", 248, 136, str "rw"⟩])) = true := by decide +kernel
  split at key
  · cases key
  · rename_i mf h1
    split at key
    · cases key
    · rename_i l h2
      obtain ⟨h3, h4⟩ := of_decide_eq_true key
      unfold makeReport at h
      simp only [h1] at h
      have h5 : getElf exStuckWorld (str "/b/x.map") none = .ok none := by decide +kernel
      simp only [h5] at h
      have h6 : ∀ ls, getMap n exStuckWorld (str "/b/x.map") ls (useDwarfOf (effectiveArgs {})) (some mf) none = none := by
        intro ls
        unfold getMap
        rw [show useDwarfOf (effectiveArgs {}) = none from rfl, h2]
        simp only [build, h3, h4, C15_diverges n]
      simp only [h6] at h
      cases h

/-- With the first region alone it ends. -/
example : (makeReport (exRun exWorld) (str "/b/x.map") {}).isSome = true := by decide +kernel

end EspSize
