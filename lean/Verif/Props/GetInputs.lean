import Verif.Props.GetTotals
/-! # C53, C59, C60: inputs and exceptions of `get` -/
namespace EspSize

/-! ### C53 -/

/-- **C53** a given map file is used: the file is not read. -/
theorem C53_map_file_partial (n : Nat) (w w' : World) (fn : Str) (ls : Bool) (ud : Option Bool) (f : MapFile) (e : Option ElfData)
    (hw : w' = { w with lines := w'.lines }) :
    getMap n w fn ls ud (some f) e = getMap n w' fn ls ud (some f) e := by
  rw [hw]
  rfl

/-- What `get` returns for a given map file is made of its regions and sections. -/
theorem C53_sections_partial (w : World) (fn : Str) (f : MapFile) (l : GetIn) (h : load w fn (some false) (some f) = .ok l) :
    l.regions = f.regions ∧ l.sections = f.sections.map toOSec := by
  obtain ⟨t, m, elf, ss, _, h2, _, _, h5, _, _, h8⟩ := load_ok h
  rcases h2 with h2 | ⟨h2, _⟩
  · cases h2
    rw [h8]
    refine ⟨rfl, ?_⟩
    unfold dwarfSections wantDwarf at h5
    simp only [Bool.false_eq_true, if_false] at h5
    cases h5
    rfl
  · cases h2

/-- A given ELF object is never used. -/
theorem C53_elf_ignored (n : Nat) (w : World) (fn : Str) (ls : Bool) (ud : Option Bool) (mf : Option MapFile) (e e' : Option ElfData) :
    getMap n w fn ls ud mf e = getMap n w fn ls ud mf e' := rfl

/-- An ELF file in which the only section of the example is not loaded. -/
def exElf : ElfData := { shdrs := [⟨str ".other", 1, 2, 100⟩], syms := [], cuSyms := .ok [] }

/-- **C53** (violated) with this ELF file given, the image size must be 100; the result is 32 as without it.
With the ELF file found through the project description the result is different. -/
theorem C53_elf_lost :
    getImageSize (elfHeaders (some exElf.shdrs)) [] = 100 ∧
    (∃ m, getMap 3 exWorld (str "/b/x.map") false none none (some exElf) = some (.ok m) ∧ m.imageSize = 32) ∧
    (∃ m, getMap 3 { exWorld with
        json := fun p => if p = str "/b/project_description.json" then some ⟨some (str "x.elf"), some (str "espx"), none, none, true⟩ else none
        elf := fun p => if p = str "/b/x.elf" then some (.ok exElf) else none } (str "/b/x.map") false none none none = some (.ok m) ∧
      m.imageSize = 100) := by
  refine ⟨by decide, ⟨exResult, ?_, rfl⟩, ⟨{ exResult with imageSize := 100, memoryTypes := [(str "IRAM", { size := 256, sizeDiff := 0, used := 0, usedDiff := 0, sections := [] })] }, ?_, rfl⟩⟩
  · rw [C53_elf_ignored _ _ _ _ _ _ (some exElf) none]; exact exWorld_get
  · decide +kernel

/-! ### C59 exceptions -/

/-- The exceptions `get` can raise by itself. -/
def getErrs : List Err := [.memMap, .valueError, .typeError, .nameError, .indexError, .keyError]

theorem raises_ite {α : Type} {es : List Err} {c : Prop} [Decidable c] {x y : Except Err α} (hx : Raises es x) (hy : Raises es y) :
    Raises es (if c then x else y) := by split <;> assumption

theorem getKey_raises {α : Type} (x : Option α) : Raises getErrs (getKey x) := by
  cases x with
  | none => exact .error (by decide)
  | some y => exact .ok

theorem useMap_raises (w : World) (fn : Str) (mf : Option MapFile)
    (hl : ∀ x, w.lines fn = .error x → x ∈ [Err.osError, Err.valueError]) : Raises getErrs (useMap w fn mf) := by
  cases mf with
  | some f => exact .ok
  | none =>
    intro x hx
    unfold useMap at hx
    have hload : Raises [.mapFile, .valueError, .typeError, .nameError, .indexError] (loadMap w fn) := by
      unfold loadMap
      split
      · exact C30_errors_partial _
      · exact .error (by decide)
      · exact .error (by decide)
      · rename_i e h1 h2 h3
        have := hl e h3
        simp only [List.mem_cons, List.not_mem_nil, or_false] at this
        rcases this with rfl | rfl
        · exact absurd rfl h1
        · exact absurd rfl h2
    cases h : loadMap w fn with
    | ok y => rw [h] at hx; cases hx
    | error y =>
      rw [h] at hx
      have := hload y h
      simp only [List.mem_cons, List.not_mem_nil, or_false] at this
      rcases this with rfl | rfl | rfl | rfl | rfl <;> cases hx <;> decide

theorem validate_raises (os : List POut) : Raises [.mapFile, .typeError] (validateSections os) := by
  have hin : ∀ (start : Option Int) (is : List PSec) (k : Int), Raises [Err.mapFile, .typeError] (validateInputs start is k) := by
    intro start is
    induction is with
    | nil => intro k; exact .ok
    | cons i is ih =>
      intro k
      unfold validateInputs
      split
      · exact ih k
      · split
        · split
          · exact .error (by decide)
          · exact ih _
        · exact .error (by decide)
        · exact .error (by decide)
  induction os with
  | nil => exact .ok
  | cons o os ih =>
    unfold validateSections
    split
    · exact ih
    · exact .bind (hin _ _ _) fun _ _ => ih

theorem warnInvalid_raises (f : MapFile) : Raises getErrs (warnInvalid f) := by
  intro x hx
  unfold warnInvalid at hx
  cases h : validateSections f.sections with
  | ok y => rw [h] at hx; cases hx
  | error y =>
    rw [h] at hx
    have := validate_raises f.sections y h
    simp only [List.mem_cons, List.not_mem_nil, or_false] at this
    rcases this with rfl | rfl <;> cases hx
    decide

theorem loadElf_raises {r : Except Err ElfData} (h : ∀ x, r = .error x → x ∈ [Err.osError, .valueError, .elf]) :
    Raises getErrs (loadElf r) := by
  intro x hx
  cases r with
  | ok y => cases hx
  | error y =>
    have := h y rfl
    simp only [List.mem_cons, List.not_mem_nil, or_false] at this
    rcases this with rfl | rfl | rfl <;> cases hx

theorem addSymbols_raises (elf : Option (List ElfSym)) (os : List OSec) : Raises [.memMap, .indexError] (addSymbols elf os) := by
  have hadv : ∀ (a : Int) (rest : List (Nat × ISec)) (cur : Slot) (done : List Slot), Raises [Err.memMap, .indexError] (advance a cur rest done) := by
    intro a rest
    induction rest with
    | nil => intro cur done; unfold advance; split; · exact .error (by decide)
             exact .ok
    | cons p rest ih =>
      intro cur done
      obtain ⟨i, n⟩ := p
      unfold advance
      split
      · exact ih _ _
      · exact .ok
  have hsw : ∀ (ys : List ElfSym) (cur : Slot) (rest : List (Nat × ISec)) (done : List Slot), Raises [Err.memMap, .indexError] (sweep ys cur rest done) := by
    intro ys
    induction ys with
    | nil => intro cur rest done; unfold sweep; exact .ok
    | cons y ys ih =>
      intro cur rest done
      unfold sweep
      refine .bind (hadv _ _ _ _) fun ⟨c, r, d⟩ _ => ?_
      exact raises_ite (.error (by decide)) (raises_ite (ih _ _ _) (ih _ _ _))
  unfold addSymbols
  split
  · exact .ok
  · simp only []
    split
    · exact .error (by decide)
    · refine .bind (hsw _ _ _ _) fun r _ => ?_
      exact .ok

theorem expand_raises (proj : Option (Str × List Comp)) (elf : Option (Dict Int CuSym)) (os : List OSec) :
    Raises [.valueError] (expandInputSections proj elf os) := by
  unfold expandInputSections
  split
  · refine .bind ?_ fun _ _ => .ok
    unfold expandSymbols
    refine .bind ?_ fun _ _ => .ok
    unfold sortedComponents
    refine .bind ?_ fun _ _ => .ok
    have : ∀ (l : List Comp) (build : Str), Raises [Err.valueError] (l.mapM fun c => do
        let rel ← relativeTo c.file build
        Except.ok (asPosix c.dir, rel)) := by
      intro l build
      induction l with
      | nil => exact .ok
      | cons c l ih =>
        rw [List.mapM_cons]
        refine .bind (.bind ?_ fun _ _ => .ok) fun _ _ => .bind ih fun _ _ => .ok
        unfold relativeTo
        split
        · exact .ok
        · exact .error (by decide)
    exact this _ _
  · exact .ok

/-- The reading of files fails only in the expected ways. -/
structure Expected (w : World) : Prop where
  lines : ∀ p x, w.lines p = .error x → x ∈ [Err.osError, .valueError]
  elf : ∀ p r, w.elf p = some r → ∀ x, r = .error x → x ∈ [Err.osError, .valueError, .elf]
  chip : ∀ p x, w.chip p = .error x → x ∈ [Err.osError, .valueError]
  cu : ∀ p e, w.elf p = some (.ok e) → ∃ d, e.cuSyms = .ok d

theorem getElf_raises {w : World} (hw : Expected w) (fn : Str) (d : Option ProjDesc) : Raises getErrs (getElf w fn d) := by
  unfold getElf
  simp only []
  split
  · exact .ok
  · refine .bind (getKey_raises _) fun app _ => ?_
    split
    · exact .ok
    · rename_i r hr
      exact loadElf_raises (hw.elf _ _ hr)

theorem getElf_cu {w : World} (hw : Expected w) {fn : Str} {d : Option ProjDesc} {e : ElfData} (h : getElf w fn d = .ok (some e)) :
    ∃ x, e.cuSyms = .ok x := by
  unfold getElf at h
  simp only [] at h
  split at h
  · cases h
  · obtain ⟨app, _, h⟩ := bind_ok h
    split at h
    · cases h
    · rename_i r hr
      cases r with
      | ok e' => cases h; exact hw.cu _ _ hr
      | error x => cases x <;> cases h

/-- **C59** exceptions of `get` when files fail only in the expected ways.  Partial: the property allows
`MemMapException` only; the others occur, see the theorems below and `C30_*`. -/
theorem C59_errors_partial (n : Nat) (w : World) (hw : Expected w) (fn : Str) (ls : Bool) (ud : Option Bool) (mf : Option MapFile)
    (e : Option ElfData) (x : Err) (h : getMap n w fn ls ud mf e = some (.error x)) :
    x ∈ [Err.memMap, .valueError, .typeError, .nameError, .indexError, .keyError] := by
  unfold getMap at h
  split at h
  · rename_i y hy
    have : x = y := by injection h with h; injection h with h; exact h.symm
    subst this
    revert hy
    have : Raises getErrs (load w fn ud mf) := by
      unfold load
      simp only []
      refine .bind ?_ fun t _ => .bind (useMap_raises w fn mf (hw.lines fn)) fun f _ => .bind (warnInvalid_raises f) fun _ _ =>
        .bind (getElf_raises hw _ _) fun elf helf => .bind ?_ fun ss _ => .bind ?_ fun tg _ => .bind ?_ fun ty _ => .ok
      · unfold descTarget
        split
        · exact .ok
        · exact raises_ite (getKey_raises _) .ok
      · unfold dwarfSections
        refine raises_ite ?_ .ok
        split
        · rename_i d el hd
          obtain ⟨cu, hcu⟩ := getElf_cu hw helf
          rw [hcu]
          refine .bind .ok fun _ _ => .bind (getKey_raises _) fun _ _ => .bind (getKey_raises _) fun _ _ => ?_
          exact (expand_raises _ _ _).mono (by decide)
        · exact .ok
      · unfold pickTarget
        exact raises_ite (.error (by decide)) .ok
      · intro z hz
        unfold getMemoryTypes at hz
        cases hc : w.chip (tg ++ str ".yaml") with
        | ok y => rw [hc] at hz; cases hz
        | error y =>
          rw [hc] at hz
          have := hw.chip _ _ hc
          simp only [List.mem_cons, List.not_mem_nil, or_false] at this
          rcases this with rfl | rfl <;> cases hz <;> decide
    exact this x
  · rename_i l hl
    unfold build at h
    simp only [] at h
    split at h
    · cases h
    · rename_i regs ws hs
      simp only [Option.some.injEq] at h
      have hsy : Raises getErrs (symbolStep ls l.elf (filterMapSections l.sections (elfHeaders (l.elf.map (·.shdrs))))) := by
        unfold symbolStep
        exact raises_ite ((addSymbols_raises _ _).mono (by decide)) .ok
      cases hx : symbolStep ls l.elf (filterMapSections l.sections (elfHeaders (l.elf.map (·.shdrs)))) with
      | error y =>
        rw [hx] at h
        cases h
        exact hsy x hx
      | ok os =>
        rw [hx] at h
        obtain ⟨d', goes, h1, h2⟩ := memTypeMap_ok l.types regs (addArchives (splitMapSections os regs))
          (isAlias_of (splitRegions_fromTable (by intro p hp; cases hp) hs)) abb_addArchives
        simp only [bind, Except.bind, h1] at h
        cases h

/-- **C59** (violated) an ELF file that shares no section with the map file, and symbols wanted: `IndexError`. -/
theorem C59_index_error :
    getMap 3 { exWorld with
        json := fun p => if p = str "/b/project_description.json" then some ⟨some (str "x.elf"), some (str "espx"), none, none, true⟩ else none
        elf := fun p => if p = str "/b/x.elf" then some (.ok exElf) else none } (str "/b/x.map") true none none none =
      some (.error .indexError) := by decide +kernel

/-- **C59** (violated) a project description without target: `KeyError`. -/
theorem C59_key_error :
    getMap 3 { exWorld with json := fun _ => some ⟨some (str "x.elf"), none, none, none, false⟩ } (str "/b/x.map") true none none none =
      some (.error .keyError) := by decide +kernel

example : Expected exWorld where
  lines := by
    intro p x h
    unfold exWorld at h
    simp only [] at h
    split at h
    · cases h
    · cases h; decide
  elf := by intro p r h; cases h
  chip := by
    intro p x h
    unfold exWorld at h
    simp only [] at h
    split at h
    · cases h
    · cases h; decide
  cu := by intro p e h; cases h

/-! ### C60 the chip information file -/

/-- Path of the chip information file, `memorymap.py:1435-1436`. -/
def chipPath (package target : Str) : Str := pathJoin (pathJoin package (str "chip_info")) (target ++ str ".yaml")

/-- **C60** a target without slash names a file in the directory of the chip tables.  Partial: see below. -/
theorem C60_inside_partial (package target : Str) (hp : DirPath package) (ht : '/' ∉ target) :
    ∃ name, chipPath package target = package ++ str "/chip_info/" ++ name ∧ '/' ∉ name := by
  have hd : DirPath (package ++ str "/chip_info") := by
    refine ⟨by simp [str], ?_⟩
    rintro ⟨t, h⟩
    have := congrArg List.getLast? h
    simp [str] at this
  have hn : '/' ∉ target ++ str ".yaml" := by
    intro h
    rcases List.mem_append.mp h with h | h
    · exact ht h
    · exact absurd h (by decide)
  refine ⟨target ++ str ".yaml", ?_, hn⟩
  unfold chipPath
  have h1 : pathJoin package (str "chip_info") = package ++ str "/chip_info" := by
    rw [join_of hp (by decide)]; rfl
  rw [h1, join_of hd ?_]
  · simp [str]
  · rintro ⟨t, h⟩
    apply hn
    rw [← h]
    simp

/-- **C60** (violated) the map file can name any file: here `/tmp/evil.yaml`, whose entries are evaluated as
Python expressions (`memorymap.py:1445-1449`). -/
theorem C60_outside :
    ∃ f, parseMap [str "Memory Configuration", str "Name Origin Length", str "Linker script and memory map",
        str "IDF_TARGET_/tmp/evil ="] = .ok f ∧
      chipPath (str "/lib/esp_idf_size") f.target = str "/tmp/evil.yaml" :=
  ⟨{ regions := [], target := str "/tmp/evil", sections := [], crt := none }, by decide, by decide⟩

end EspSize
