import Verif.Model.Run
import Verif.Props.GetInputs
import Verif.Props.SummaryTable
import Verif.Props.Ops
/-! # C43, C44, C63: runs of the program -/
namespace EspSize

/-! ### C43: the output file -/

/-- **C43** (all failures but one while the bytes are written): a failed run leaves every file as it was; a
successful run writes exactly the whole report; it succeeds if the report was made and writing works; other files
are never changed. -/
theorem C43_output_file_partial (report : Except Err Report) (abort : Option Err) (draw : Report → List UInt8)
    (wr : Writing) (fs fs' : Files) (args : Args) (res : Except Err Unit) (c : Char) (fn : Str)
    (ha : args.outputFile = some (c :: fn)) (h : finishRun report abort draw wr fs args = (fs', res)) :
    (res = .ok () → abort = none ∧ ∃ r, report = .ok r ∧ fs' (c :: fn) = some (draw r)) ∧
    (∀ e, res = .error e → (∀ k e, wr ≠ .bytes k e) → fs' = fs) ∧
    (∀ e, res = .error e → fs' ≠ fs → abort = none ∧ ∃ r, report = .ok r) ∧
    (∀ p, p ≠ c :: fn → fs' p = fs p) ∧
    (∀ r, report = .ok r → abort = none → wr = .fine → res = .ok ()) := by
  unfold finishRun at h
  cases abort with
  | some e => cases h; simp
  | none =>
    cases report with
    | error e => cases h; simp
    | ok r =>
      simp only [ha] at h
      cases wr with
      | fine =>
        cases h
        refine ⟨fun _ => ⟨rfl, r, rfl, by simp [writeOutputFile, Files.set]⟩, fun e he => by simp [writeOutputFile, Except.mapError] at he,
          fun e he => by simp [writeOutputFile, Except.mapError] at he, fun p hp => ?_, fun _ _ _ _ => rfl⟩
        simp [writeOutputFile, Files.set, hp]
      | mkdir e => cases h; simp [writeOutputFile, Except.mapError]
      | opening e => cases h; simp [writeOutputFile, Except.mapError]
      | bytes k e =>
        cases h
        refine ⟨fun he => by simp [writeOutputFile, Except.mapError] at he, fun _ _ hw => absurd rfl (hw k e),
          fun _ _ _ => ⟨rfl, r, rfl⟩, fun p hp => ?_, fun _ _ _ hw => by cases hw⟩
        simp [writeOutputFile, Files.set, hp]

/-- **C43** the exceptions of the map file and the memory map, and an interrupt, end the run with exit status 1: none of
them escapes. -/
theorem C43_handled (report : Except Err Report) (abort : Option Err) (draw : Report → List UInt8) (wr : Writing)
    (fs : Files) (args : Args) (e : Err) (he : e = .memMap ∨ e = .mapFile ∨ e = .interrupt)
    (h : abort = some e ∨ (abort = none ∧ report = .error e)) :
    finishRun report abort draw wr fs args = (fs, .error .exit) := by
  rcases h with rfl | ⟨rfl, rfl⟩ <;> rcases he with rfl | rfl | rfl <;> rfl

/-- Without `--output-file` no file is written. -/
theorem C43_no_output_file (report : Except Err Report) (abort : Option Err) (draw : Report → List UInt8)
    (wr : Writing) (fs : Files) (args : Args) (ha : truthy args.outputFile = false) :
    (finishRun report abort draw wr fs args).1 = fs := by
  unfold finishRun
  cases abort with
  | some e => rfl
  | none =>
    cases report with
    | error e => rfl
    | ok r =>
      cases ho : args.outputFile with
      | none => rfl
      | some s =>
        cases s with
        | nil => rfl
        | cons c t => rw [ho] at ha; cases ha

/-- **C43** (violated for a failure, such as a full disk or an interrupt, while the bytes are written): the file
is neither the previous one nor the report. -/
theorem C43_truncated (draw : Report → List UInt8) (r : Report) (fs : Files) (args : Args) (fn : Str) (e : Err) (k : Nat)
    (ha : args.outputFile = some ('f' :: fn)) (old : List UInt8) (ho : k < old.length)
    (hk : k < (draw r).length) :
    fs ('f' :: fn) = some old → ∃ x new, (finishRun (.ok r) none draw (.bytes k e) fs args) = (x, .error (handled (writeError e))) ∧
      x ('f' :: fn) = some new ∧ new ≠ old ∧ new ≠ draw r := by
  intro _
  refine ⟨fs.set ('f' :: fn) ((draw r).take k), (draw r).take k, ?_, ?_, ?_, ?_⟩
  · simp only [finishRun, ha]; rfl
  · simp [Files.set]
  · intro h; have := congrArg List.length h; simp at this; omega
  · intro h; have := congrArg List.length h; simp at this; omega

example : (finishRun (.ok .nothing) none (fun _ => [1, 2, 3]) .fine (fun _ => some [7]) { outputFile := some (str "f") }).1 (str "f") = some [1, 2, 3] ∧
    (finishRun (.error .memMap) none (fun _ => [1, 2, 3]) .fine (fun _ => some [7]) { outputFile := some (str "f") }).1 (str "f") = some [7] ∧
    (finishRun (.ok .nothing) none (fun _ => [1, 2, 3]) (.bytes 1 .osError) (fun _ => some [7, 7]) { outputFile := some (str "f") }).1 (str "f") =
      some [1] := by decide

/-! ### C44: options -/

/-- **C44** with `--unify` the abbreviated names are used, whatever `--no-abbrev` says. -/
theorem C44_unify_abbrev (args : Args) (h : args.unify = true) : (effectiveArgs args).abbrev_ = true := by
  unfold effectiveArgs
  cases hn : args.noAbbrev <;> cases ha : args.archiveDependencies <;> cases hd : truthy args.diff <;> simp [h, hn, ha, hd]

/-- Without `--unify` they are used unless `--no-abbrev` is given. -/
theorem C44_abbrev (args : Args) (h : args.unify = false) : (effectiveArgs args).abbrev_ = !args.noAbbrev := by
  unfold effectiveArgs
  cases hn : args.noAbbrev <;> cases ha : args.archiveDependencies <;> cases hd : truthy args.diff <;> simp [h, hn, ha, hd]

/-- **C44** with `--archive-dependencies` the reference project of `--diff` has no influence: the run is the one
without `--diff`. -/
theorem C44_dependencies_no_diff (R : RunIn) (input : Str) (args : Args) (d : Option Str) (h : args.archiveDependencies = true) :
    truthy (effectiveArgs { args with diff := d }).diff = false ∧
    (truthy d = true → makeReport R input { args with diff := d } = makeReport R input { args with diff := none }) := by
  constructor
  · unfold effectiveArgs
    cases hn : args.noAbbrev <;> cases hu : args.unify <;> cases hd : truthy d <;> simp [h, hd] <;> rfl
  · intro hd
    have ht : truthy none = false := rfl
    have : effectiveArgs { args with diff := d } = effectiveArgs { args with diff := none } := by
      unfold effectiveArgs
      cases hn : args.noAbbrev <;> cases hu : args.unify <;> simp [h, hd, ht]
    simp only [makeReport, this]

/-- The reports of the options `--archives`, `--files`, `--archive-details`, `--format raw`. -/
def Detailed (args : Args) : Prop :=
  args.archives = true ∨ args.files = true ∨ truthy args.archiveDetails = true ∨ args.format = str "raw"

/-- The files, with other debug information: `c` is what reading it gives for the ELF files. -/
def withDwarf (c : Str → Except Err (Dict Int CuSym)) (w : World) : World :=
  { w with elf := fun p => (w.elf p).map (Except.map fun e => { e with cuSyms := c p }) }

theorem loadElf_withDwarf (c : Except Err (Dict Int CuSym)) (r : Except Err ElfData) :
    loadElf (r.map fun e => { e with cuSyms := c }) = (loadElf r).map (Option.map fun e => { e with cuSyms := c }) := by
  cases r with
  | ok e => rfl
  | error x => cases x <;> rfl

/-- The second half of `getElf`. -/
def elfOf (w : World) (fn : Str) : Option ProjDesc → Except Err (Option ElfData)
  | none => .ok none
  | some d => do
    let app ← getKey d.appElf
    match w.elf (pathJoin (dirname fn) app) with
    | none => .ok none
    | some r => loadElf r

theorem getElf_withDwarf (c : Str → Except Err (Dict Int CuSym)) (w : World) (fn : Str) (d : Option ProjDesc) :
    ∃ q, getElf (withDwarf c w) fn d = (getElf w fn d).map (Option.map fun e => { e with cuSyms := q }) := by
  have key : ∀ x : Option ProjDesc, ∃ q, elfOf (withDwarf c w) fn x = (elfOf w fn x).map (Option.map fun e => { e with cuSyms := q }) := by
    intro x
    cases x with
    | none => exact ⟨.ok [], rfl⟩
    | some d =>
      simp only [elfOf, bind, Except.bind]
      cases getKey d.appElf with
      | error x => exact ⟨.ok [], rfl⟩
      | ok app =>
        refine ⟨c (pathJoin (dirname fn) app), ?_⟩
        simp only [withDwarf]
        cases w.elf (pathJoin (dirname fn) app) with
        | none => rfl
        | some r => exact loadElf_withDwarf _ _
  exact key (match d with | some d => if d.nonempty then some d else getProjDesc w fn | none => getProjDesc w fn)

theorem load_withDwarf (c : Str → Except Err (Dict Int CuSym)) (w : World) (fn : Str) (mf : Option MapFile) :
    ∃ q, load (withDwarf c w) fn (some false) mf =
      (load w fn (some false) mf).map fun l => { l with elf := l.elf.map fun e => { e with cuSyms := q } } := by
  obtain ⟨q, hq⟩ := getElf_withDwarf c w fn (getProjDesc w fn)
  refine ⟨q, ?_⟩
  have hp : getProjDesc (withDwarf c w) fn = getProjDesc w fn := rfl
  have hu : useMap (withDwarf c w) fn mf = useMap w fn mf := by cases mf <;> rfl
  have ht : ∀ t, getMemoryTypes (withDwarf c w) t = getMemoryTypes w t := fun _ => rfl
  unfold load
  simp only [hp, hu, ht, hq, bind, Except.bind]
  cases descTarget (getProjDesc w fn) with
  | error x => rfl
  | ok t =>
    cases useMap w fn mf with
    | error x => rfl
    | ok m =>
      simp only
      cases warnInvalid m with
      | error x => rfl
      | ok u =>
        simp only
        cases getElf w fn (getProjDesc w fn) with
        | error x => rfl
        | ok e =>
          simp only [Except.map, dwarfSections, wantDwarf, Bool.false_eq_true, if_false]
          cases pickTarget t m.target with
          | error x => rfl
          | ok t =>
            simp only
            cases getMemoryTypes w t <;> rfl

theorem symbolStep_withDwarf (ls : Bool) (elf : Option ElfData) (q : Except Err (Dict Int CuSym)) (k : List OSec) :
    symbolStep ls (elf.map fun e => { e with cuSyms := q }) k = symbolStep ls elf k := by
  cases elf <;> rfl

theorem getMap_withDwarf (c : Str → Except Err (Dict Int CuSym)) (n : Nat) (w : World) (fn : Str) (ls : Bool) (mf : Option MapFile)
    (e e' : Option ElfData) : getMap n (withDwarf c w) fn ls (some false) mf e = getMap n w fn ls (some false) mf e' := by
  obtain ⟨q, hq⟩ := load_withDwarf c w fn mf
  unfold getMap
  rw [hq]
  cases load w fn (some false) mf with
  | error x => rfl
  | ok l =>
    simp only [Except.map, build, symbolStep_withDwarf]
    cases hl : l.elf <;> rfl

theorem useDwarf_eff (args : Args) : useDwarfOf (effectiveArgs args) = useDwarfOf args := by
  unfold effectiveArgs useDwarfOf
  cases hn : args.noAbbrev <;> cases hu : args.unify <;> cases ha : args.archiveDependencies <;> cases hd : truthy args.diff <;>
    simp [hn, hu, ha, hd]

/-- **C44** (for an explicit `--use-dwarf` or `--no-use-dwarf`) debug information has no influence unless a detailed
report is made with `--use-dwarf`: the run is the same for all debug information, readable or not. -/
theorem C44_dwarf_partial (R : RunIn) (input : Str) (args : Args) (c : Str → Except Err (Dict Int CuSym))
    (h : args.useDwarf = some false ∨ (args.useDwarf = some true ∧ ¬ Detailed args)) :
    makeReport { R with w := withDwarf c R.w } input args = makeReport R input args := by
  have hu : useDwarfOf (effectiveArgs args) = some false := by
    rw [useDwarf_eff]
    rcases h with h | ⟨h, hd⟩
    · simp [useDwarfOf, h]
    · simp only [Detailed, not_or] at hd
      simp [useDwarfOf, h, hd.1, hd.2.1, hd.2.2.1, hd.2.2.2]
  have hl : loadMap (withDwarf c R.w) input = loadMap R.w input := rfl
  obtain ⟨q, hq⟩ := getElf_withDwarf c R.w input none
  unfold makeReport
  simp only [hl, hq, hu]
  cases loadMap R.w input with
  | error x => rfl
  | ok mf =>
    simp only
    cases getElf R.w input none with
    | error x => rfl
    | ok elf =>
      simp only [Except.map]
      rw [getMap_withDwarf c _ _ _ _ _ _ elf]
      cases getMap R.n R.w input (loadSymbolsOf (effectiveArgs args)) (some false) (some mf) elf with
      | none => rfl
      | some r =>
        cases r with
        | error x => rfl
        | ok m =>
          simp only
          have hg : (fun fn => getMap R.n (withDwarf c R.w) fn (loadSymbolsOf (effectiveArgs args)) (some false) none none) =
              fun fn => getMap R.n R.w fn (loadSymbolsOf (effectiveArgs args)) (some false) none none :=
            funext fun fn => getMap_withDwarf c _ _ _ _ _ _ _
          rw [hg]
          cases referenceMap (effectiveArgs args) m fun fn => getMap R.n R.w fn (loadSymbolsOf (effectiveArgs args)) (some false) none none with
          | none => rfl
          | some r =>
            cases r with
            | error x => rfl
            | ok ref =>
              simp only
              cases prepare (effectiveArgs args) m ref with
              | error x => rfl
              | ok d => cases elf <;> rfl

/-- A project built with link-time optimisation whose debug information cannot be read. -/
def exLto : World :=
  { exWorld with
    json := fun p => if p = str "/b/project_description.json" then some ⟨some (str "x.elf"), some (str "espx"), some (str "/b"), some [], true⟩ else none
    sdkconfig := fun p => if p = str "/b/config/sdkconfig.json" then some true else none
    elf := fun p => if p = str "/b/x.elf" then some (.ok { exElf with cuSyms := .error .structError }) else none }

def exRun (w : World) : RunIn := { n := 3, F := exFloat, ord := id, w := w }

def Report.isError : Option (Except Err Report) → Option Err
  | some (.error e) => some e
  | _ => none

/-- **C44** (violated) when neither `--use-dwarf` nor `--no-use-dwarf` is given, the debug information of such a project
is read for a summary, and the run fails because of it. -/
theorem C44_dwarf_for_summary :
    ¬ Detailed {} ∧
    Report.isError (makeReport (exRun exLto) (str "/b/x.map") {}) = some .structError ∧
    Report.isError (makeReport (exRun exLto) (str "/b/x.map") { useDwarf := some true }) = none ∧
    Report.isError (makeReport (exRun (withDwarf (fun _ => .ok []) exLto)) (str "/b/x.map") {}) = none := by
  refine ⟨by unfold Detailed; decide, by decide +kernel, by decide +kernel, by decide +kernel⟩

/-- Which formatter made a report. -/
inductive Made : Str → Report → Prop
  | table {f t} : f = str "table" ∨ f = str "text" → Made f (.table t)
  | csv {l} : Made (str "csv") (.csv l)
  | summary {s} : Made (str "json2") (.summary s)
  | entries {e} : Made (str "json2") (.entries e)
  | deps {d} : Made (str "json2") (.deps d)
  | rawDeps {d} : Made (str "raw") (.deps d)
  | raw {m} : Made (str "raw") (.raw m)
  | tree {m} : Made (str "tree") (.tree m)
  | depsTree {d} : Made (str "tree") (.depsTree d)
  | dot {l} : Made (str "dot") (.dot l)

/-- The choices of `--format`, `main.py:174`. -/
def formats : List Str := [str "text", str "table", str "json2", str "raw", str "csv", str "tree", str "dot"]

theorem exceptMap_ok {α β : Type} {x : Except Err α} {f : α → β} {y : β} (h : (do let a ← x; Except.ok (f a)) = .ok y) : ∃ a, x = .ok a ∧ y = f a := by
  cases x with
  | error e => cases h
  | ok a => cases h; exact ⟨a, rfl, rfl⟩

theorem showReport_made (R : RunIn) (crt : Option Crt) (elf : Option (List ElfSym)) (args : Args) (m : MemMap) (r : Report)
    (hf : args.format ∈ formats) (h : showReport R crt elf args m = .ok r) : Made args.format r := by
  unfold showReport at h
  split at h
  · rename_i h1
    obtain ⟨t, _, rfl⟩ := exceptMap_ok h
    exact .table h1
  · rename_i h1
    split at h
    · rename_i h2
      rw [h2]
      unfold showJson at h
      split at h
      · obtain ⟨t, _, rfl⟩ := exceptMap_ok h; exact .entries
      · split at h
        · obtain ⟨t, _, rfl⟩ := exceptMap_ok h; exact .entries
        · split at h
          · obtain ⟨t, _, rfl⟩ := exceptMap_ok h; exact .deps
          · split at h
            · obtain ⟨t, _, rfl⟩ := exceptMap_ok h; exact .entries
            · cases h; exact .summary
    · rename_i h2
      split at h
      · rename_i h3
        rw [h3]
        split at h
        · obtain ⟨t, _, rfl⟩ := exceptMap_ok h; exact .rawDeps
        · cases h; exact .raw
      · rename_i h3
        split at h
        · rename_i h4
          rw [h4]
          obtain ⟨t, _, rfl⟩ := exceptMap_ok h; exact .csv
        · rename_i h4
          split at h
          · rename_i h5
            rw [h5]
            split at h
            · obtain ⟨t, _, rfl⟩ := exceptMap_ok h; exact .depsTree
            · cases h; exact .tree
          · rename_i h5
            split at h
            · rename_i h6
              rw [h6]
              obtain ⟨t, _, rfl⟩ := exceptMap_ok h; exact .dot
            · rename_i h6
              simp only [not_or] at h1
              simp [formats, h1.1, h1.2, h2, h3, h4, h5, h6] at hf

theorem eff_format (args : Args) : (effectiveArgs args).format = args.format := by
  unfold effectiveArgs
  cases hn : args.noAbbrev <;> cases hu : args.unify <;> cases ha : args.archiveDependencies <;> cases hd : truthy args.diff <;> simp [hn, hu, ha, hd]

/-- The successful runs: what was read and what was shown. -/
theorem makeReport_ok {R : RunIn} {input : Str} {args : Args} {r : Report} (h : makeReport R input args = some (.ok r)) :
    ∃ mf elf m ref d, loadMap R.w input = .ok mf ∧ getElf R.w input none = .ok elf ∧
      getMap R.n R.w input (loadSymbolsOf (effectiveArgs args)) (useDwarfOf args) (some mf) elf = some (.ok m) ∧
      referenceMap (effectiveArgs args) m (fun fn => getMap R.n R.w fn (loadSymbolsOf (effectiveArgs args)) (useDwarfOf args) none none) = some (.ok ref) ∧
      prepare (effectiveArgs args) m ref = .ok d ∧ showReport R mf.crt (elf.map (·.syms)) (effectiveArgs args) d = .ok r := by
  unfold makeReport at h
  simp only [useDwarf_eff] at h
  split at h
  · cases h
  · rename_i mf h1
    split at h
    · cases h
    · rename_i elf h2
      split at h
      · cases h
      · cases h
      · rename_i m h3
        split at h
        · cases h
        · cases h
        · rename_i ref h4
          split at h
          · cases h
          · rename_i d h5
            exact ⟨mf, elf, m, ref, d, h1, h2, h3, h4, h5, Option.some.inj h⟩

/-- **C44** a run that succeeds shows one report, made by the formatter of the chosen format. -/
theorem C44_formatter (R : RunIn) (input : Str) (args : Args) (r : Report) (hf : args.format ∈ formats)
    (h : makeReport R input args = some (.ok r)) : Made args.format r := by
  obtain ⟨mf, elf, m, ref, d, _, _, _, _, _, h6⟩ := makeReport_ok h
  rw [← eff_format args] at hf ⊢
  exact showReport_made R _ _ _ _ _ hf h6

/-! ### C63: comparing a project with itself -/

theorem getMap_self {n : Nat} {w : World} {fn : Str} {ls : Bool} {ud : Option Bool} {mf : MapFile} {e e' : Option ElfData}
    (h : loadMap w fn = .ok mf) : getMap n w fn ls ud none e = getMap n w fn ls ud (some mf) e' := by
  have : useMap w fn none = useMap w fn (some mf) := by simp [useMap, h, wrapMap]
  unfold getMap load
  rw [this]

/-- The options of a comparison of `input` with itself. -/
structure SelfCompare (input : Str) (args : Args) : Prop where
  diff : args.diff = some input
  notEmpty : input ≠ []
  noDeps : args.archiveDependencies = false
  noUnify : args.unify = false

theorem selfCompare_eff {input : Str} {args : Args} (h : SelfCompare input args) :
    effectiveArgs args = { args with abbrev_ := !args.noAbbrev } := by
  unfold effectiveArgs
  simp [h.noDeps, h.noUnify]

theorem makeReport_self {R : RunIn} {input : Str} {args : Args} {r : Report} (hs : SelfCompare input args)
    (h : makeReport R input args = some (.ok r)) :
    ∃ (mf : MapFile) (elf : Option ElfData) (m d : MemMap), getMap R.n R.w input (loadSymbolsOf args) (useDwarfOf args) none none = some (.ok m) ∧
      prepare (effectiveArgs args) m m = .ok d ∧ showReport R mf.crt (elf.map ElfData.syms) (effectiveArgs args) d = .ok r := by
  obtain ⟨mf, elf, m, ref, d, h1, _, h3, h4, h5, h6⟩ := makeReport_ok h
  have hl : loadSymbolsOf (effectiveArgs args) = loadSymbolsOf args := by rw [selfCompare_eff hs]; rfl
  rw [hl] at h3 h4
  have h3' := h3
  rw [← getMap_self (e := none) h1] at h3'
  have hd : (effectiveArgs args).diff = some input := by rw [selfCompare_eff hs]; exact hs.diff
  have : ref = m := by
    unfold referenceMap at h4
    cases input with
    | nil => exact absurd rfl hs.notEmpty
    | cons c t =>
      rw [hd] at h4
      simp only [h3'] at h4
      cases h4; rfl
  subst this
  exact ⟨mf, elf, ref, d, h3', h5, h6⟩

/-- **C63** (all differences but the totals of flash types) a run that compares a project with itself and shows the raw
map reports no difference in the usage of memory types, in sections, archives, object files and symbols, nor in the
total of types other than flash. -/
theorem C63_self_compare_partial (R : RunIn) (input : Str) (args : Args) (d : MemMap) (hs : SelfCompare input args)
    (hr : args.format = str "raw") (hf : args.useFlashSize = false) (h : makeReport R input args = some (.ok (.raw d))) :
    (∀ t, ¬ IsFlash t → orZero MType.sizeDiff (getType d t) = 0) ∧
    (∀ t, orZero MType.usedDiff (getType d t) = 0) ∧
    (∀ t s, orZero Node.sizeDiff (getSec d t s) = 0) ∧
    (∀ t s a, orZero Node.sizeDiff (getArch d t s a) = 0) ∧
    (∀ t s a o, orZero Node.sizeDiff (getObj d t s a o) = 0) ∧
    (∀ t s a o y, orZero Sym.sizeDiff (getSym d t s a o y) = 0) := by
  obtain ⟨mf, elf, m, d', h1, h2, h3⟩ := makeReport_self hs h
  have hm : m.WF := by
    obtain ⟨_, _, _, _, _, _, hw, _⟩ := C58_accounted _ _ _ _ _ _ _ _ h1
    exact hw
  have hd : d' = d := by
    unfold showReport at h3
    rw [eff_format, hr, selfCompare_eff hs] at h3
    simp only [hs.noDeps] at h3
    exact Report.raw.inj (Except.ok.inj h3)
  rw [hd, selfCompare_eff hs] at h2
  obtain ⟨x, hx, p1, _, p3, p4, p5, p6, p7⟩ := C09_self_diff_partial { args with abbrev_ := !args.noAbbrev } m hm
    (by have := hs.diff; have := hs.notEmpty; cases input <;> simp_all [truthy]) hs.noUnify hf
  rw [h2] at hx
  cases hx
  exact ⟨p1, p3, p4, p5, p6, p7⟩

/-- **C63** with `--use-flash-size` there are no differences at all: the report is the map of the project, with every
difference zero. -/
theorem C63_self_compare_flash_size (R : RunIn) (input : Str) (args : Args) (d : MemMap) (hs : SelfCompare input args)
    (hr : args.format = str "raw") (hf : args.useFlashSize = true) (h : makeReport R input args = some (.ok (.raw d))) :
    ∃ m m', getMap R.n R.w input (loadSymbolsOf args) (useDwarfOf args) none none = some (.ok m) ∧
      m' = (if args.showUnused then m else removeUnused m) ∧
      d = { m'.zeroDiff with targetDiff := m'.target, projectPathDiff := m'.projectPath } := by
  obtain ⟨mf, elf, m, d', h1, h2, h3⟩ := makeReport_self hs h
  have hm : m.WF := by
    obtain ⟨_, _, _, _, _, _, hw, _⟩ := C58_accounted _ _ _ _ _ _ _ _ h1
    exact hw
  have hd : d' = d := by
    unfold showReport at h3
    rw [eff_format, hr, selfCompare_eff hs] at h3
    simp only [hs.noDeps] at h3
    exact Report.raw.inj (Except.ok.inj h3)
  refine ⟨m, _, h1, rfl, ?_⟩
  rw [hd, selfCompare_eff hs] at h2
  have ht : truthy args.diff = true := by
    have := hs.diff; have := hs.notEmpty; cases input <;> simp_all [truthy]
  unfold prepare at h2
  simp only [ht, hf, hs.noUnify, if_true, bind, Except.bind] at h2
  have hw : (if args.showUnused = true then m else removeUnused m).WF := by
    split
    · exact hm
    · exact wf_removeUnused hm
  rw [C03_diff_self _ hw] at h2
  simp only [Bool.false_eq_true, if_false] at h2
  exact (Except.ok.inj h2).symm

/-- A chip whose only memory is called flash. -/
def exFlashWorld : World :=
  { exWorld with chip := fun fn => if fn = str "espx.yaml" then .ok (exTypesX.map fun p => (p.1, { p.2 with name := str "Flash Code" })) else .error .osError }

def rawSizeDiff (t : Str) : Option (Except Err Report) → Option Int
  | some (.ok (.raw d)) => (getType d t).map MType.sizeDiff
  | _ => none

/-- **C63** (violated) comparing this project with itself shows that the flash memory became smaller by its whole size:
`ignore_flash_size` is applied to the map twice and to the reference not at all (`main.py:129-130`). -/
theorem C63_self_compare_nonzero :
    SelfCompare (str "/b/x.map") { diff := some (str "/b/x.map"), format := str "raw" } ∧
    rawSizeDiff (str "Flash Code") (makeReport (exRun exFlashWorld) (str "/b/x.map") { diff := some (str "/b/x.map"), format := str "raw" }) =
      some (-256) := by
  refine ⟨⟨rfl, by decide, rfl, rfl⟩, by decide +kernel⟩

example : rawSizeDiff (str "IRAM") (makeReport (exRun exWorld) (str "/b/x.map") { diff := some (str "/b/x.map"), format := str "raw" }) = some 0 := by
  decide +kernel

end EspSize
