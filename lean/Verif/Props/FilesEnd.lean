import Verif.Spec.FilesEnd
import Verif.Props.Refused
import Verif.Props.RunEnds
import Verif.Props.Files
/-! # C112: outcomes of runs over the files -/
namespace EspSize

theorem buildAt_mono {n : Nat} {fn : Str} {ls : Bool} {l : GetInAt} {x} (h : buildAt n fn ls l = some x) (k : Nat) : buildAt (n + k) fn ls l = some x := by
  unfold buildAt at h ⊢
  cases hh : headersOf l.elf with
  | error y => rw [hh] at h; exact h
  | ok hdrs =>
    rw [hh] at h
    simp only at h ⊢
    cases hs : splitMemoryRegions n l.types (filterMemoryRegions l.regions) [] [] with
    | none => rw [hs] at h; cases h
    | some y => rw [hs] at h; rw [splitRegions_mono hs k]; exact h

variable {zero : Str → Bool} {w : World} {json : Str → Option JVal} {files : Str → Option (Except Err ElfFile)}

theorem getOf_mono {n : Nat} {fn : Str} {ls : Bool} {ud : Option Bool} {mf : Option MapFile} {x}
    (h : getOf zero n w json files fn ls ud mf = some x) (k : Nat) : getOf zero (n + k) w json files fn ls ud mf = some x := by
  unfold getOf at h ⊢
  split at h
  · exact h
  · exact buildAt_mono h k

theorem getOf_unique {n n' : Nat} {fn : Str} {ls : Bool} {ud : Option Bool} {mf : Option MapFile} {x y}
    (h : getOf zero n w json files fn ls ud mf = some x) (h' : getOf zero n' w json files fn ls ud mf = some y) : x = y := by
  have h1 := getOf_mono h n'
  have h2 := getOf_mono h' n
  rw [Nat.add_comm, h1] at h2
  exact Option.some.inj h2

theorem getOf_ends {fn : Str} {ls : Bool} {ud : Option Bool} {mf : Option MapFile} :
    (∃ n, (getOf zero n w json files fn ls ud mf).isSome = true) ↔ ProjectEndsOf zero w json files fn ud mf := by
  unfold getOf ProjectEndsOf
  cases h : loadOf zero w json files fn ud mf with
  | error x => exact ⟨fun _ l hl => (by cases hl), fun _ => ⟨0, rfl⟩⟩
  | ok l =>
    cases hh : headersOf l.elf with
    | error x =>
      refine ⟨fun _ l' hl' hx => ?_, fun _ => ⟨0, by simp only [buildAt, hh]; rfl⟩⟩
      cases hl'
      obtain ⟨_, hx⟩ := hx
      rw [hh] at hx
      cases hx
    | ok hdrs =>
      have key := C15_terminates_iff l.types (filterMemoryRegions l.regions)
      have hb : ∀ n, (buildAt n fn ls l).isSome = (splitMemoryRegions n l.types (filterMemoryRegions l.regions) [] []).isSome := by
        intro n
        unfold buildAt
        simp only [hh]
        cases splitMemoryRegions n l.types (filterMemoryRegions l.regions) [] [] <;> rfl
      simp only [hb]
      rw [key]
      constructor
      · intro hk l' hl' _
        cases hl'
        exact hk
      · intro hk
        exact hk l rfl ⟨hdrs, hh⟩

/-- **C112** the number of steps a model run is allowed does not influence the report. -/
theorem C112_steps (zero : Str → Bool) (cwd : Str) (R : RunIn) (json : Str → Option JVal) (files : Str → Option (Except Err ElfFile)) (input : Str) (args : Args)
    (n k : Nat) (x : Except Err Report) (h : reportOf zero cwd { R with n := n } json files input args = some x) :
    reportOf zero cwd { R with n := n + k } json files input args = some x := by
  unfold reportOf at h ⊢
  simp only at h ⊢
  cases h1 : loadMap R.w input with
  | error y => rw [h1] at h; exact h
  | ok mf =>
    rw [h1] at h
    simp only at h ⊢
    cases h2 : getElfOf json files input none with
    | error y => rw [h2] at h; exact h
    | ok elf =>
      rw [h2] at h
      simp only at h ⊢
      cases h3 : getOf zero n R.w json files (abspath cwd input) (loadSymbolsOf (effectiveArgs args)) (useDwarfOf (effectiveArgs args)) (some mf) with
      | none => rw [h3] at h; cases h
      | some z =>
        rw [h3] at h
        rw [getOf_mono h3 k]
        cases z with
        | error y => exact h
        | ok m =>
          simp only at h ⊢
          have href : ∀ z, referenceMap (effectiveArgs args) m (fun fn => getOf zero n R.w json files (abspath cwd fn) (loadSymbolsOf (effectiveArgs args)) (useDwarfOf (effectiveArgs args)) none) = some z →
              referenceMap (effectiveArgs args) m (fun fn => getOf zero (n + k) R.w json files (abspath cwd fn) (loadSymbolsOf (effectiveArgs args)) (useDwarfOf (effectiveArgs args)) none) = some z := by
            intro z hz
            unfold referenceMap at hz ⊢
            split at hz
            · exact getOf_mono hz k
            · exact hz
          cases h4 : referenceMap (effectiveArgs args) m (fun fn => getOf zero n R.w json files (abspath cwd fn) (loadSymbolsOf (effectiveArgs args)) (useDwarfOf (effectiveArgs args)) none) with
          | none => rw [h4] at h; cases h
          | some z =>
            rw [h4] at h
            rw [href z h4]
            exact h

/-- **C112** (exact criterion) a run ends if and only if no region of the input is `Stuck`, nor one of the other project if it comes to it. -/
theorem C112_ends_iff (zero : Str → Bool) (cwd : Str) (R : RunIn) (json : Str → Option JVal) (files : Str → Option (Except Err ElfFile)) (input : Str) (args : Args) :
    FilesRunEnds zero cwd R json files input args ↔ ∀ mf elf, loadMap R.w input = .ok mf → getElfOf json files input none = .ok elf →
      ProjectEndsOf zero R.w json files (abspath cwd input) (useDwarfOf (effectiveArgs args)) (some mf) ∧
      ∀ n m fn, getOf zero n R.w json files (abspath cwd input) (loadSymbolsOf (effectiveArgs args)) (useDwarfOf (effectiveArgs args)) (some mf) = some (.ok m) →
        (effectiveArgs args).diff = some fn → fn ≠ [] → ProjectEndsOf zero R.w json files (abspath cwd fn) (useDwarfOf (effectiveArgs args)) none := by
  cases h1 : loadMap R.w input with
  | error y => exact ⟨fun _ mf elf h => (by cases h), fun _ => ⟨0, by unfold reportOf; simp only [h1]; rfl⟩⟩
  | ok mf =>
    cases h2 : getElfOf json files input none with
    | error y => exact ⟨fun _ mf elf _ h => (by cases h), fun _ => ⟨0, by unfold reportOf; simp only [h1, h2]; rfl⟩⟩
    | ok elf =>
      have hin := getOf_ends (zero := zero) (json := json) (files := files) (ls := loadSymbolsOf (effectiveArgs args)) (w := R.w) (fn := abspath cwd input)
        (ud := useDwarfOf (effectiveArgs args)) (mf := some mf)
      constructor
      · rintro ⟨n, h⟩ mf' elf' e1 e2
        cases e1; cases e2
        unfold reportOf at h
        simp only [h1, h2] at h
        cases h3 : getOf zero n R.w json files (abspath cwd input) (loadSymbolsOf (effectiveArgs args)) (useDwarfOf (effectiveArgs args)) (some mf) with
        | none => rw [h3] at h; cases h
        | some z =>
          rw [h3] at h
          refine ⟨hin.mp ⟨n, by rw [h3]; rfl⟩, ?_⟩
          intro n' m fn hm hd hne
          have := getOf_unique h3 hm
          subst this
          simp only at h
          cases fn with
          | nil => exact absurd rfl hne
          | cons c t =>
            refine (getOf_ends (ls := loadSymbolsOf (effectiveArgs args))).mp ⟨n, ?_⟩
            simp only [referenceMap, hd] at h
            cases h4 : getOf zero n R.w json files (abspath cwd (c :: t)) (loadSymbolsOf (effectiveArgs args)) (useDwarfOf (effectiveArgs args)) none with
            | none => rw [h4] at h; cases h
            | some z => rfl
      · intro h
        obtain ⟨hp, hq⟩ := h mf elf rfl rfl
        obtain ⟨n, hn⟩ := hin.mpr hp
        cases h3 : getOf zero n R.w json files (abspath cwd input) (loadSymbolsOf (effectiveArgs args)) (useDwarfOf (effectiveArgs args)) (some mf) with
        | none => rw [h3] at hn; cases hn
        | some z =>
          cases z with
          | error y => exact ⟨n, by unfold reportOf; simp only [h1, h2, h3]; rfl⟩
          | ok m =>
            have fin : ∀ k z, getOf zero k R.w json files (abspath cwd input) (loadSymbolsOf (effectiveArgs args)) (useDwarfOf (effectiveArgs args)) (some mf) = some (.ok m) →
                referenceMap (effectiveArgs args) m (fun fn => getOf zero k R.w json files (abspath cwd fn) (loadSymbolsOf (effectiveArgs args)) (useDwarfOf (effectiveArgs args)) none) = some z →
                (reportOf zero cwd { R with n := k } json files input args).isSome = true := by
              intro k z ha hb
              unfold reportOf
              simp only [h1, h2, ha, hb]
              cases z with
              | error y => rfl
              | ok ref =>
                simp only
                cases prepare (effectiveArgs args) m ref <;> rfl
            cases hd : (effectiveArgs args).diff with
            | none => exact ⟨n, fin n (.ok m) h3 (by simp only [referenceMap, hd])⟩
            | some fn =>
              cases fn with
              | nil => exact ⟨n, fin n (.ok m) h3 (by simp only [referenceMap, hd])⟩
              | cons c t =>
                obtain ⟨n', hn'⟩ := (getOf_ends (ls := loadSymbolsOf (effectiveArgs args))).mpr (hq n m _ h3 hd (by simp))
                obtain ⟨z, hz⟩ := Option.isSome_iff_exists.mp hn'
                refine ⟨n + n', fin (n + n') z (getOf_mono h3 n') ?_⟩
                simp only [referenceMap, hd]
                rw [Nat.add_comm]
                exact getOf_mono hz n

/-- What a run ends with: a report, an error message for one of the reasons of `Refused`, or one of the exceptions of `RunError`. -/
inductive RunOutcome (zero : Str → Bool) (cwd : Str) (R : RunIn) (json : Str → Option JVal) (files : Str → Option (Except Err ElfFile)) (input : Str) (args : Args) :
    Except Err Report → Prop
  | report (mf : MapFile) (elf : Option ElfFile) (d : MemMap) (r : Report) : RunLoaded zero cwd R json files input (effectiveArgs args) mf elf d →
      ¬ Refused mf.crt elf (effectiveArgs args) d → RunOutcome zero cwd R json files input args (.ok r)
  | message (mf : MapFile) (elf : Option ElfFile) (d : MemMap) : RunLoaded zero cwd R json files input (effectiveArgs args) mf elf d →
      Refused mf.crt elf (effectiveArgs args) d → RunOutcome zero cwd R json files input args (.error .exit)
  | raises (x : Err) : x ∈ runErrs → x ≠ .exit → RunError zero cwd json files input args x → RunOutcome zero cwd R json files input args (.error x)

/-- **C112** every run, whatever the bytes of the files, never ends, or ends with a report, an error message or an exception; which one does not depend on the number
of steps. -/
theorem C112_outcome (zero : Str → Bool) (cwd : Str) (long : Nat) (F : FloatOps) (ord : List Str → List Str) (hord : SetOrder ord) (fs : Files) (input : Str)
    (args : Args) (hf : args.format ∈ formats) :
    (∀ n, reportFiles zero cwd n long F ord fs input args = none) ∨
    ∃ x N, (∀ k, reportFiles zero cwd (N + k) long F ord fs input args = some x) ∧
      RunOutcome zero cwd ⟨N, F, ord, worldOf long fs⟩ (loadJson fs) (fun p => (fs p).map (openElf long)) input args x := by
  by_cases h : ∃ N, reportFiles zero cwd N long F ord fs input args ≠ none
  · obtain ⟨N, hN⟩ := h
    obtain ⟨x, hx⟩ := Option.ne_none_iff_exists'.mp hN
    refine .inr ⟨x, N, fun k => C112_steps zero cwd ⟨0, F, ord, worldOf long fs⟩ _ _ input args N k x hx, ?_⟩
    cases x with
    | ok r =>
      obtain ⟨mf, elf, d, h1, h2⟩ := C111_ok zero cwd N long F ord hord fs input args hf r hx
      exact .report mf elf d r h1 h2
    | error x =>
      by_cases he : x = .exit
      · subst he
        obtain ⟨mf, elf, d, h1, h2⟩ := (C111_exit zero cwd N long F ord hord fs input args hf).mp hx
        exact .message mf elf d h1 h2
      · obtain ⟨h1, h2⟩ := files_raise fs
        exact .raises x (C110_kinds_partial zero cwd N long F ord hord fs input args x hx) he
          (C110_errors_partial zero cwd ⟨N, F, ord, worldOf long fs⟩ hord _ _ input args h1 h2 x hx)
  · exact .inl fun n => Classical.byContradiction fun hn => h ⟨n, hn⟩

/-! ### Runs that do not end -/

/-- Two regions with a common end, the first of one byte at the origin of the first memory type, the second from address 0. -/
def stuckRegions (types : Dict Str MemTypeInfo) : List Region :=
  match types with
  | [] => []
  | p :: _ => [⟨str "a", p.2.primary, 1, []⟩, ⟨str "b", 0, p.2.primary + 1, []⟩]

/-- **C112** (violates `C101`) for every chip of the package there are two memory regions for which the program never ends. -/
theorem C112_chips_diverge : ∀ p ∈ chipTables, ∀ n, splitMemoryRegions n (memoryTypes p.2) (stuckRegions (memoryTypes p.2)) [] [] = none := by
  have key : ∀ p ∈ chipTables, findType (memoryTypes p.2) 0 = none ∧
      (match memoryTypes p.2 with
        | [] => false
        | t :: _ => decide (0 ≤ t.2.primary ∧ (splitMemoryRegions 1 (memoryTypes p.2) [⟨str "a", t.2.primary, 1, []⟩] [] []).map
            (fun x => x.1.map fun q => (q.origin, q.length)) = some [(t.2.primary, 1)])) = true := by decide +kernel
  intro p hp n
  obtain ⟨h0, h1⟩ := key p hp
  generalize memoryTypes p.2 = types at h0 h1
  cases types with
  | nil => cases h1
  | cons t ts =>
    simp only [decide_eq_true_eq] at h1
    obtain ⟨hpos, h1⟩ := h1
    cases hr : splitMemoryRegions n (t :: ts) (stuckRegions (t :: ts)) [] [] with
    | none => rfl
    | some x =>
      exfalso
      obtain ⟨y, hy, hy'⟩ := Option.map_eq_some_iff.mp h1
      obtain ⟨out, ws⟩ := y
      refine (C15_terminates_iff (t :: ts) (stuckRegions (t :: ts))).mp ⟨n, by rw [hr]; rfl⟩ [⟨str "a", t.2.primary, 1, []⟩] ⟨str "b", 0, t.2.primary + 1, []⟩ [] 1 out ws rfl hy ⟨.inl ⟨0, ?_⟩, ?_⟩
      · refine ⟨Int.le_refl _, by simp only []; omega, ?_, fun x hx hx' => absurd hx' (by simp only [] at hx; omega)⟩
        exact findType_none.mp h0
      · cases out with
        | nil => cases hy'
        | cons q qs =>
          simp only [List.map_cons, List.cons.injEq, Prod.mk.injEq] at hy'
          exact ⟨q, by simp, by simp only []; omega⟩

/-- The link map file of an ESP32 project, with nothing else in its directory. -/
def exStuckFiles : Files := fun p => if p = str "/b/x.map" then some (utf8 (str "Memory Configuration\nName Origin Length\na 0x40080000 0x1 xrw\nb 0x0 0x40080001 rw\nLinker script and memory map\n IDF_TARGET_ESP32 = 0x0\n\n")) else none

/-- **C112** (violates `C101`) a file for which the program never ends. -/
theorem C112_diverges (F : FloatOps) (ord : List Str → List Str) (n : Nat) :
    reportFiles (fun _ => false) (str "/") n 8 F ord exStuckFiles (str "/b/x.map") {} = none := by
  have key : (match loadMap (worldOf 8 exStuckFiles) (str "/b/x.map") with
      | .error _ => false
      | .ok mf => match loadOf (fun _ => false) (worldOf 8 exStuckFiles) (loadJson exStuckFiles) (fun p => (exStuckFiles p).map (openElf 8)) (str "/b/x.map") none (some mf) with
        | .error _ => false
        | .ok l => l.elf.isNone && decide (l.types = memoryTypes esp32 ∧ filterMemoryRegions l.regions =
            [⟨str "a", 0x40080000, 1, str "xrw"⟩, ⟨str "b", 0, 0x40080001, str "rw"⟩])) = true := by decide +kernel
  split at key
  · cases key
  · rename_i mf h1
    split at key
    · cases key
    · rename_i l h2
      simp only [Bool.and_eq_true, Option.isNone_iff_eq_none, decide_eq_true_eq] at key
      obtain ⟨h3, h4, h5⟩ := key
      have h6 : getElfOf (loadJson exStuckFiles) (fun p => (exStuckFiles p).map (openElf 8)) (str "/b/x.map") none = .ok none := by decide +kernel
      have h7 : abspath (str "/") (str "/b/x.map") = str "/b/x.map" := by decide +kernel
      have h8 : splitMemoryRegions n l.types (filterMemoryRegions l.regions) [] [] = none := by
        rw [h4, h5]
        cases hr : splitMemoryRegions n (memoryTypes esp32) [⟨str "a", 0x40080000, 1, str "xrw"⟩, ⟨str "b", 0, 0x40080001, str "rw"⟩] [] [] with
        | none => rfl
        | some x =>
          exfalso
          have h0 : findType (memoryTypes esp32) 0 = none := by decide +kernel
          have h9 : (splitMemoryRegions 1 (memoryTypes esp32) [⟨str "a", 0x40080000, 1, str "xrw"⟩] [] []).map (fun x => x.1.map fun q => (q.origin, q.length)) =
              some [(0x40080000, 1)] := by decide +kernel
          obtain ⟨⟨out, ws⟩, hy, hy'⟩ := Option.map_eq_some_iff.mp h9
          have hsome := congrArg Option.isSome hr
          refine (C15_terminates_iff _ _).mp ⟨n, hsome⟩ [⟨str "a", 0x40080000, 1, str "xrw"⟩] ⟨str "b", 0, 0x40080001, str "rw"⟩ [] 1 out ws rfl hy ⟨.inl ⟨0, Int.le_refl _, by decide, findType_none.mp h0, ?_⟩, ?_⟩
          · intro x hx hx'
            simp only [] at hx
            omega
          · cases out with
            | nil => cases hy'
            | cons q qs =>
              simp only [List.map_cons, List.cons.injEq, Prod.mk.injEq] at hy'
              exact ⟨q, by simp, by simp only []; omega⟩
      unfold reportFiles reportOf
      simp only [h1, h6, h7]
      have h10 : ∀ ls, getOf (fun _ => false) n (worldOf 8 exStuckFiles) (loadJson exStuckFiles) (fun p => (exStuckFiles p).map (openElf 8)) (str "/b/x.map") ls
          (useDwarfOf (effectiveArgs {})) (some mf) = none := by
        intro ls
        unfold getOf
        rw [show useDwarfOf (effectiveArgs {}) = none from rfl, h2]
        simp only [buildAt, h3, headersOf, h8]
      simp only [h10]

/-- Without the second region it ends with a report. -/
example : (match reportFiles (fun _ => false) (str "/") 2 8 exFloat (·) (fun p => if p = str "/b/x.map" then some (utf8 (str "Memory Configuration\nName Origin Length\na 0x40080000 0x1 xrw\nLinker script and memory map\n IDF_TARGET_ESP32 = 0x0\n\n")) else none) (str "/b/x.map") {} with
    | some (.ok _) => true | _ => false) = true := by decide +kernel

end EspSize
