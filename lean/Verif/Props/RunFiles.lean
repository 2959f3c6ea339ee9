import Verif.Model.RunFiles
import Verif.Spec.RunFiles
import Verif.Spec.Influence
import Verif.Props.Options
import Verif.Props.DescJson
import Verif.Props.DwarfErrors
/-! # C110: a run over the files as they are -/
namespace EspSize

/-! ### Descriptions of the expected types -/

theorem want_typed {zero : Str → Bool} (w : World) {json : Str → Option JVal} {fn : Str} {ud : Option Bool} (hs : ud = none → TypedConfig (json (configPath fn))) :
    wantDwarfJ zero json fn ud = .ok (wantDwarf (typedWorld w json) fn ud) := by
  cases ud with
  | some b => rfl
  | none =>
    unfold wantDwarfJ wantDwarf typedWorld
    have := hs rfl
    unfold configPath at this
    rcases this with (h | h) | ⟨v, b, h, hb⟩
    · simp only [h]; rfl
    · simp only [h]; rfl
    · simp only [h, Option.bind_some, hb, Option.getD_some]
      cases v with
      | obj l =>
        unfold ltoOf at hb
        simp only [] at hb ⊢
        cases hg : dget l (str "COMPILER_LTO_LINKTIME") with
        | none => rw [hg] at hb; cases hb; rfl
        | some x =>
          rw [hg] at hb
          cases x <;> cases hb
          rfl
      | _ => cases hb

theorem expandSymbolsAt_eq (b : Str) (cs : List Comp) (cu : Dict Nat (RawSym × Option Str)) :
    expandSymbolsAt b cs cu = ((cs.filter fun c => !c.file.isEmpty).mapM fun c => (do
      let rel ← relativeTo c.file b
      .ok (asPosix c.dir, rel) : Except Err (Str × Str))) >>= fun r =>
        .ok (expandFromAt (sortedBy (fun p => (p.1.length : Int)) true r) cu) := by
  unfold expandSymbolsAt sortedComponents
  generalize ((cs.filter fun c => !c.file.isEmpty).mapM fun c => (do
      let rel ← relativeTo c.file b
      .ok (asPosix c.dir, rel) : Except Err (Str × Str))) = r
  cases r with
  | error x => rfl
  | ok r => rfl

theorem dwarfAt_typed {zero : Str → Bool} {l : Dict Str JVal} {d : ProjDesc} (hb : dget l (str "build_dir") = d.build.map JVal.str)
    (hc : compsOf (dget l (str "build_component_info")) = some d.comps) (u : Bool) (elf : Option ElfFile) (ss : List OSec) :
    dwarfSectionsOf zero u (some l) elf ss = dwarfSectionsAt u (some d) elf ss := by
  unfold dwarfSectionsOf dwarfSectionsAt
  cases u with
  | false => rfl
  | true =>
    simp only [if_true]
    cases elf with
    | none => rfl
    | some e =>
      simp only []
      cases e.addCus with
      | error x => rfl
      | ok cu =>
        simp only [bind, Except.bind]
        cases hv : dget l (str "build_component_info") with
        | none =>
          rw [hv] at hc
          cases hd : d.comps with
          | none => rfl
          | some x => rw [hd] at hc; cases hc
        | some v =>
          rw [hv] at hc
          cases v with
          | obj cl =>
            unfold compsOf at hc
            simp only [Option.map_eq_some_iff] at hc
            obtain ⟨cs, hcs, hd⟩ := hc
            obtain ⟨vs, h1, h2⟩ := comps_typed (zero := zero) (mapM_opt_all hcs)
            rw [h1, ← hd]
            simp only [getKey]
            cases hbd : d.build with
            | none =>
              rw [hbd] at hb
              rw [hb]
              rfl
            | some b =>
              rw [hbd] at hb
              rw [hb]
              simp only [Option.map_some, JVal.asStr, compsJ_sorted h2, expandSymbolsAt_eq]
              generalize ((cs.filter fun c => !c.file.isEmpty).mapM fun c => (do
                let rel ← relativeTo c.file b
                .ok (asPosix c.dir, rel) : Except Err (Str × Str))) = r
              cases r <;> rfl
          | _ => cases hc

/-- **C110** for descriptions and configurations of the expected types, `get` is the function of `Model/Lazy`. -/
theorem getOf_typed (zero : Str → Bool) (n : Nat) (w : World) (json : Str → Option JVal) (files : Str → Option (Except Err ElfFile)) (fn : Str) (ls : Bool)
    (ud : Option Bool) (mf : Option MapFile) (hd : TypedDesc (json (descPath fn))) (hs : ud = none → TypedConfig (json (configPath fn))) :
    getOf zero n w json files fn ls ud mf = getAt n (typedWorld w json) files fn ls ud mf := by
  have hpick : ∀ (t : Str) (m : Str), targetJ zero w (some (.str t)) m = (do
      let tg ← pickTarget t m
      let ty ← getMemoryTypes (typedWorld w json) tg
      .ok (tg, ty)) := by
    intro t m
    unfold targetJ
    cases t with
    | nil => rfl
    | cons a s => rfl
  have hpick0 : ∀ (m : Str), targetJ zero w none m = (do
      let tg ← pickTarget [] m
      let ty ← getMemoryTypes (typedWorld w json) tg
      .ok (tg, ty)) := fun m => rfl
  have hmap : useMap (typedWorld w json) fn mf = useMap w fn mf := rfl
  have hload : loadOf zero w json files fn ud mf = loadAt (typedWorld w json) files fn ud mf := by
    unfold loadOf loadAt
    simp only [want_typed w hs, hmap]
    rcases desc_typed (w := w) hd with ⟨h1, h2⟩ | ⟨l, d, h1, h2, ha, ht, hb, hc, hne⟩
    · have helf : getElfOf json files fn none = getElfFile (typedWorld w json) files fn none := by
        unfold getElfOf getElfFile usedDescJ
        simp only [h1, h2]
        rfl
      have hdw : ∀ u elf ss, dwarfSectionsOf zero u none elf ss = dwarfSectionsAt u none elf ss := by
        intro u elf ss
        cases u <;> rfl
      simp only [h1, h2, bind, Except.bind, descTargetJ, descTarget, helf, hdw, hpick0]
      cases useMap w fn mf with
      | error x => rfl
      | ok m =>
        simp only []
        cases warnInvalid m with
        | error x => rfl
        | ok u =>
          simp only []
          cases getElfFile (typedWorld w json) files fn none with
          | error x => rfl
          | ok elf =>
            simp only []
            cases dwarfSectionsAt (wantDwarf (typedWorld w json) fn ud) none elf (m.sections.map toOSec) with
            | error x => rfl
            | ok ss =>
              simp only []
              cases pickTarget [] m.target with
              | error x => rfl
              | ok tg =>
                simp only []
                cases getMemoryTypes (typedWorld w json) tg <;> rfl
    · have helf : getElfOf json files fn (some l) = getElfFile (typedWorld w json) files fn (some d) := by
        have fin : elfFileOf files fn (some l) = (do
            let app ← getKey d.appElf
            match files (pathJoin (dirname fn) app) with
            | none => .ok none
            | some r => loadElfFile r : Except Err (Option ElfFile)) := by
          unfold elfFileOf
          simp only []
          rw [ha]
          cases d.appElf with
          | none => rfl
          | some a => rfl
        unfold getElfOf getElfFile usedDescJ
        simp only [hne]
        cases l with
        | nil =>
          simp only [h1, h2, List.isEmpty_nil, Bool.not_true, Bool.false_eq_true, if_false]
          exact fin
        | cons p t =>
          simp only [List.isEmpty_cons, Bool.not_false, if_true]
          exact fin
      simp only [h1, h2, bind, Except.bind, helf, dwarfAt_typed hb hc]
      have hdt : descTargetJ (some l) = (descTarget (some d)).map (fun t => if l.isEmpty then none else some (.str t)) := by
        unfold descTargetJ descTarget
        simp only [hne]
        cases l with
        | nil => rfl
        | cons p t =>
          simp only [List.isEmpty_cons, Bool.not_false, if_true, ht]
          cases d.target <;> rfl
      rw [hdt]
      cases htd : descTarget (some d) with
      | error x => rfl
      | ok t =>
        have hfin : ∀ m, targetJ zero w (if l.isEmpty then none else some (.str t)) m = (do
            let tg ← pickTarget t m
            let ty ← getMemoryTypes (typedWorld w json) tg
            .ok (tg, ty)) := by
          intro m
          cases l with
          | nil =>
            have : t = [] := by
              unfold descTarget at htd
              simp only [hne] at htd
              cases htd
              rfl
            subst this
            exact hpick0 m
          | cons p u => exact hpick t m
        simp only [Except.map]
        cases useMap w fn mf with
        | error x => rfl
        | ok m =>
          simp only []
          cases warnInvalid m with
          | error x => rfl
          | ok u =>
            simp only []
            cases getElfFile (typedWorld w json) files fn (some d) with
            | error x => rfl
            | ok elf =>
              simp only []
              cases dwarfSectionsAt (wantDwarf (typedWorld w json) fn ud) (some d) elf (m.sections.map toOSec) with
              | error x => rfl
              | ok ss =>
                simp only [hfin, bind, Except.bind]
                cases pickTarget t m.target with
                | error x => rfl
                | ok tg =>
                  simp only []
                  cases getMemoryTypes (typedWorld w json) tg <;> rfl
  unfold getOf getAt
  rw [hload]
  cases loadAt (typedWorld w json) files fn ud mf <;> rfl

/-! ### The ELF file of a project -/

theorem getElfOf_names {json : Str → Option JVal} {files : Str → Option (Except Err ElfFile)} {fn : Str} {desc : Option (Dict Str JVal)}
    (hd : desc = none ∨ getProjDescJ json fn = .ok desc) {e : ElfFile} (h : getElfOf json files fn desc = .ok (some e)) :
    ∃ p, NamesElf json fn p ∧ files p = some (.ok e) := by
  unfold getElfOf at h
  obtain ⟨o, ho, h⟩ := bind_ok h
  cases o with
  | none => cases h
  | some d =>
    have hj : json (descPath fn) = some (.obj d) := by
      apply getProjDescJ_obj
      unfold usedDescJ at ho
      rcases hd with rfl | hd
      · exact ho
      · split at ho
        · rename_i p d'
          cases ho
          exact hd
        · exact ho
    unfold elfFileOf at h
    obtain ⟨v, hv, h⟩ := bind_ok h
    obtain ⟨app, happ, h⟩ := bind_ok h
    have hv' : dget d (str "app_elf") = some v := by
      cases hg : dget d (str "app_elf") with
      | none => rw [hg] at hv; cases hv
      | some y => rw [hg] at hv; cases hv; rfl
    have hs : v = .str app := by
      cases v <;> cases happ
      rfl
    refine ⟨_, ⟨d, app, hj, by rw [hv', hs], rfl⟩, ?_⟩
    cases hf : files (pathJoin (dirname fn) app) with
    | none => rw [hf] at h; cases h
    | some r =>
      rw [hf] at h
      cases r with
      | ok e' => cases h; rfl
      | error z => cases z <;> cases h

theorem getElfFile_desc (w : World) (files : Str → Option (Except Err ElfFile)) (fn : Str) : getElfFile w files fn none = getElfFile w files fn (getProjDesc w fn) := by
  unfold getElfFile
  cases h : getProjDesc w fn with
  | none => rfl
  | some d => simp

theorem getElfOf_typed {w : World} {json : Str → Option JVal} {files : Str → Option (Except Err ElfFile)} {fn : Str} (h : TypedDesc (json (descPath fn))) :
    getElfOf json files fn none = getElfFile (typedWorld w json) files fn none := by
  rw [getElfFile_desc]
  rcases desc_typed (w := w) h with ⟨h1, h2⟩ | ⟨l, d, h1, h2, ha, _⟩
  · unfold getElfOf getElfFile usedDescJ
    simp only [h1, h2]
    rfl
  · unfold getElfOf getElfFile usedDescJ
    simp only [h1, h2]
    have e0 : (if d.nonempty then some d else some d) = some d := by split <;> rfl
    simp only [e0, bind, Except.bind]
    unfold elfFileOf
    simp only []
    rw [ha]
    cases d.appElf with
    | none => rfl
    | some a => rfl

/-! ### The report -/

theorem showReport_eq (R : RunIn) (crt : Option Crt) (elf : Option (List ElfSym)) (args : Args) (m : MemMap) :
    showReport R crt elf args m = showOf R.F (getArchivesDependencies R.ord crt m elf args) args m := rfl

/-- Without dependencies in the report, they are not looked at. -/
theorem showOf_skip {F : FloatOps} {d d' : Except Err Deps} {args : Args} {m : MemMap} (h : ¬ AsksDeps args) : showOf F d args m = showOf F d' args m := by
  unfold AsksDeps at h
  have hs : args.format ∈ [str "table", str "text", str "csv", str "json2"] → args.archives = true ∨ truthy args.archiveDetails = true ∨ args.archiveDependencies = false := by
    intro hf
    cases h1 : args.archives with
    | true => exact .inl rfl
    | false =>
      cases h2 : truthy args.archiveDetails with
      | true => exact .inr (.inl rfl)
      | false =>
        cases h3 : args.archiveDependencies with
        | false => exact .inr (.inr rfl)
        | true => exact absurd ⟨h3, fun _ => ⟨h1, h2⟩⟩ h
  have ht : args.format ∈ [str "table", str "text", str "csv", str "json2"] → selectTableOf F d args m = selectTableOf F d' args m := by
    intro hf
    unfold selectTableOf
    rcases hs hf with h1 | h1 | h1
    · simp only [h1, if_true]
    · simp only [h1, if_true]
    · simp only [h1, Bool.false_eq_true, if_false]
  have hj : args.format ∈ [str "table", str "text", str "csv", str "json2"] → showJsonOf d args m = showJsonOf d' args m := by
    intro hf
    unfold showJsonOf
    rcases hs hf with h1 | h1 | h1
    · simp only [h1, if_true]
    · simp only [h1, if_true]
    · simp only [h1, Bool.false_eq_true, if_false]
  have hn : args.format ∉ [str "table", str "text", str "csv", str "json2"] → args.archiveDependencies = false := by
    intro hf
    cases h3 : args.archiveDependencies with
    | false => rfl
    | true => exact absurd ⟨h3, fun h => absurd h hf⟩ h
  unfold showOf
  by_cases f1 : args.format = str "table" ∨ args.format = str "text"
  · rw [if_pos f1, if_pos f1, ht (by rcases f1 with f | f <;> simp [f])]
  · rw [if_neg f1, if_neg f1]
    by_cases f2 : args.format = str "json2"
    · rw [if_pos f2, if_pos f2, hj (by simp [f2])]
    · rw [if_neg f2, if_neg f2]
      by_cases f4 : args.format = str "csv"
      · have f3 : ¬ args.format = str "raw" := by rw [f4]; decide
        rw [if_neg f3, if_neg f3, if_pos f4, if_pos f4, ht (by simp [f4])]
      · have := hn (by
          intro hm
          simp only [List.mem_cons, List.not_mem_nil, or_false] at hm
          rcases hm with hm | hm | hm | hm
          · exact f1 (.inl hm)
          · exact f1 (.inr hm)
          · exact f4 hm
          · exact f2 hm)
        unfold showDotOf
        simp only [this, f4, Bool.false_eq_true, if_false, Bool.not_false, if_true]

theorem dependenciesAt_named {ord : List Str → List Str} {crt : Option Crt} {m : MemMap} {elf : Option ElfFile} {args : Args} {sn : ElfFile → RawShdr → Str}
    {yn : ElfFile → RawSym → Str} (h : ∀ e, elf = some e → LinkedRead e (yn e)) :
    dependenciesAt ord crt m elf args = getArchivesDependencies ord crt m ((elf.map fun e => e.named (sn e) (yn e)).map (·.syms)) args := by
  unfold dependenciesAt getArchivesDependencies
  have : ∀ (c : Crt) (a : Dict Str Entry), filterCrtAt c a elf = filterCrt c a ((elf.map fun e => e.named (sn e) (yn e)).map (·.syms)) := by
    intro c a
    cases elf with
    | none => rfl
    | some e =>
      obtain ⟨t, ht, hy⟩ := h e rfl
      exact C104_deps e t (yn e) (sn e) ht (fun y hy' h1 h2 => hy y hy' ⟨h1, h2⟩) c a
  simp only [this]
  cases crt <;> rfl

/-- **C110** a run over files whose descriptions and configurations have the expected types, and in which the *needed* names can be read, is the run of
`Model/RunAt` over the descriptions and the ELF files with these names (`sn`, `yn`; other names may be anything): all theorems on runs hold for it. -/
theorem C110_names (zero : Str → Bool) (cwd : Str) (R : RunIn) (json : Str → Option JVal) (files : Str → Option (Except Err ElfFile)) (input : Str) (args : Args)
    (sn : ElfFile → RawShdr → Str) (yn : ElfFile → RawSym → Str) (hi : TypedDesc (json (descPath input)))
    (ht : ∀ f, RunMap input args f → TypedDesc (json (descPath (abspath cwd f))) ∧ (args.useDwarf = none → TypedConfig (json (configPath (abspath cwd f)))))
    (hn : ∀ f, RunMap input args f → ∀ p e, NamesElf json (abspath cwd f) p → files p = some (.ok e) →
      NamesRead e (loadSymbolsOf args) (wantDwarf (typedWorld R.w json) (abspath cwd f) (useDwarfOf args)) (sn e) (yn e))
    (hd : AsksDeps args → ∀ p e, NamesElf json input p → files p = some (.ok e) → LinkedRead e (yn e)) :
    reportOf zero cwd R json files input args = makeReportAt cwd
      { R with w := { typedWorld R.w json with elf := fun p => (files p).map (Except.map fun e => e.named (sn e) (yn e)) } } input args := by
  generalize hW : ({ typedWorld R.w json with elf := fun p => (files p).map (Except.map fun e => e.named (sn e) (yn e)) } : World) = W
  have hlines : W.lines = R.w.lines := by rw [← hW]; rfl
  have hmap : loadMap W input = loadMap R.w input := by unfold loadMap; rw [hlines]
  have hus : useDwarfOf args = none → args.useDwarf = none := by
    unfold useDwarfOf
    split
    · intro h; cases h
    · exact id
  have hget : ∀ f, RunMap input args f → ∀ mf, getOf zero R.n R.w json files (abspath cwd f) (loadSymbolsOf args) (useDwarfOf args) mf =
      getMap R.n W (abspath cwd f) (loadSymbolsOf args) (useDwarfOf args) mf none := by
    intro f hf mf
    obtain ⟨h1, h2⟩ := ht f hf
    rw [getOf_typed zero R.n R.w json files _ _ _ mf h1 fun hu => h2 (hus hu), ← hW]
    refine C104_get _ _ _ _ _ _ _ sn yn ?_
    intro e he
    rw [← getElfFile_desc, ← getElfOf_typed h1] at he
    obtain ⟨p, hp, hpe⟩ := getElfOf_names (.inl rfl) he
    exact hn f hf p e hp hpe
  have helf : getElf W input none = (getElfOf json files input none).map (Option.map fun e => e.named (sn e) (yn e)) := by
    rw [← hW, getElf_named, getElfOf_typed (w := R.w) hi]
  have hls : loadSymbolsOf (effectiveArgs args) = loadSymbolsOf args := by rw [eff_eq]; rfl
  have hud : useDwarfOf (effectiveArgs args) = useDwarfOf args := by rw [eff_eq]; rfl
  have hask : AsksDeps (effectiveArgs args) → AsksDeps args := by rw [eff_eq]; exact id
  have hdiff : ∀ c f, (effectiveArgs args).diff = some (c :: f) → RunMap input args (c :: f) := by
    intro c f h
    rw [eff_eq] at h
    simp only [] at h
    split at h
    · cases h
    · rename_i hc
      refine .inr ⟨?_, h, by simp⟩
      cases ha : args.archiveDependencies with
      | false => rfl
      | true =>
        rw [ha, h] at hc
        exact absurd rfl hc
  unfold reportOf makeReportAt getMapAt
  simp only [hmap, helf, hls, hud]
  generalize effectiveArgs args = a at *
  cases loadMap R.w input with
  | error x => rfl
  | ok mf =>
    simp only []
    cases he : getElfOf json files input none with
    | error x => rfl
    | ok elf =>
      simp only [Except.map, hget input (.inl rfl)]
      have hgm : ∀ mf' e', getMap R.n W (abspath cwd input) (loadSymbolsOf args) (useDwarfOf args) mf' e' =
        getMap R.n W (abspath cwd input) (loadSymbolsOf args) (useDwarfOf args) mf' none := fun _ _ => rfl
      rw [hgm (some mf) (elf.map _)]
      cases getMap R.n W (abspath cwd input) (loadSymbolsOf args) (useDwarfOf args) (some mf) none with
      | none => rfl
      | some r =>
        cases r with
        | error x => rfl
        | ok m =>
          have href : (referenceMap a m fun fn => getOf zero R.n R.w json files (abspath cwd fn) (loadSymbolsOf args) (useDwarfOf args) none) =
              referenceMap a m fun fn => getMap R.n W (abspath cwd fn) (loadSymbolsOf args) (useDwarfOf args) none none := by
            unfold referenceMap
            split
            · rename_i c f hc
              exact hget _ (hdiff c f hc) none
            · rfl
          simp only [href]
          cases (referenceMap a m fun fn => getMap R.n W (abspath cwd fn) (loadSymbolsOf args) (useDwarfOf args) none none) with
          | none => rfl
          | some r =>
            cases r with
            | error x => rfl
            | ok ref =>
              simp only []
              cases prepare a m ref with
              | error x => rfl
              | ok d =>
                simp only [showReport_eq]
                by_cases hq : AsksDeps a
                · rw [dependenciesAt_named (sn := sn) (yn := yn)]
                  rintro e rfl
                  obtain ⟨p, hp, hpe⟩ := getElfOf_names (.inl rfl) he
                  exact hd (hask hq) p e hp hpe
                · rw [showOf_skip hq]

/-- **C110** if everything can be read, the run is the one over the views of the ELF files. -/
theorem C110_same (zero : Str → Bool) (cwd : Str) (R : RunIn) (json : Str → Option JVal) (files : Str → Option (Except Err ElfFile)) (input : Str) (args : Args)
    (hi : TypedDesc (json (descPath input)))
    (ht : ∀ f, RunMap input args f → TypedDesc (json (descPath (abspath cwd f))) ∧ (args.useDwarf = none → TypedConfig (json (configPath (abspath cwd f)))))
    (hv : ∀ p e, files p = some (.ok e) → ∃ v, e.view = .ok v) :
    reportOf zero cwd R json files input args =
      makeReportAt cwd { R with w := { typedWorld R.w json with elf := fun p => (files p).map fun r => r >>= ElfFile.view } } input args := by
  rw [C110_names zero cwd R json files input args (fun e s => nameOr (e.shdrName s)) (fun e y => nameOr (e.symName y)) hi ht]
  · congr 2
    simp only []
    congr 1
    funext p
    cases hp : files p with
    | none => rfl
    | some r =>
      cases r with
      | error x => rfl
      | ok e =>
        obtain ⟨v, hv⟩ := hv p e hp
        simp only [Option.map_some, bind, Except.bind, Except.map, hv, (view_names hv).2]
  · intro f _ p e _ hp
    obtain ⟨v, hv⟩ := hv p e hp
    exact (view_names hv).1 _ _
  · intro _ p e _ hp
    obtain ⟨v, hv⟩ := hv p e hp
    unfold ElfFile.view at hv
    obtain ⟨sh, _, hv⟩ := bind_ok hv
    obtain ⟨raw, h2, hv⟩ := bind_ok hv
    obtain ⟨sy, h3, _⟩ := bind_ok hv
    refine ⟨raw, h2, fun y hy _ => ?_⟩
    obtain ⟨z, hz⟩ := mapM_ok_all h3 y hy
    unfold ElfFile.symView at hz
    obtain ⟨nm, hn, _⟩ := bind_ok hz
    simp only [hn]
    rfl

/-- **C110** the same for the bytes of the files. -/
theorem C110_files (zero : Str → Bool) (cwd : Str) (n long : Nat) (F : FloatOps) (ord : List Str → List Str) (fs : Files) (input : Str) (args : Args)
    (hi : TypedDesc (loadJson fs (descPath input)))
    (ht : ∀ f, RunMap input args f → TypedDesc (loadJson fs (descPath (abspath cwd f))) ∧ (args.useDwarf = none → TypedConfig (loadJson fs (configPath (abspath cwd f)))))
    (hv : ∀ p b e, fs p = some b → openElf long b = .ok e → ∃ v, e.view = .ok v) :
    reportFiles zero cwd n long F ord fs input args = makeReportAt cwd ⟨n, F, ord, worldOf long fs⟩ input args := by
  unfold reportFiles
  rw [C110_same zero cwd _ _ _ input args hi ht]
  · have : ({ typedWorld (worldOf long fs) (loadJson fs) with elf := fun p => ((fs p).map (openElf long)).map fun r => r >>= ElfFile.view } : World) = worldOf long fs := by
      unfold typedWorld worldOf
      simp only []
      congr 1
      funext p
      cases fs p <;> rfl
    rw [this]
  · intro p e h
    obtain ⟨b, hb, h⟩ := Option.map_eq_some_iff.mp h
    exact hv p b e hb h

end EspSize
