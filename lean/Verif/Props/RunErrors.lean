import Verif.Props.RunFiles
import Verif.Props.DepsRun
/-! # C110: exceptions of a run over the files -/
namespace EspSize

/-! ### Loading a project -/

/-- The exceptions of `get` for the link map file `fn`. -/
inductive ProjectError (zero : Str → Bool) (json : Str → Option JVal) (files : Str → Option (Except Err ElfFile)) (fn : Str) (symbols : Bool)
    (useDwarf : Option Bool) (x : Err) : Prop where
  /-- The six of `C59`. -/
  | expected : x ∈ [Err.memMap, .valueError, .typeError, .nameError, .indexError, .keyError] → ProjectError zero json files fn symbols useDwarf x
  /-- A list, a number, … as description, configuration or components. -/
  | noAttr : x = .attributeError → NoAttribute json fn useDwarf → ProjectError zero json files fn symbols useDwarf x
  /-- Opening the ELF file raised something that is not caught. -/
  | opened (p : Str) : NamesElf json fn p → files p = some (.error x) → x ∉ [Err.osError, .valueError, .elf] →
      ProjectError zero json files fn symbols useDwarf x
  /-- Something that is needed of the ELF file cannot be read. -/
  | unread (p : Str) (e : ElfFile) (u : Bool) : NamesElf json fn p → files p = some (.ok e) → wantDwarfJ zero json fn useDwarf = .ok u →
      Unreadable e symbols u x → ProjectError zero json files fn symbols useDwarf x

theorem mem_expandFromAt {cs : List (Str × Str)} {d : Dict Nat (RawSym × Option Str)} {y : LSym} (hy : y ∈ expandFromAt cs d) :
    ∃ p ∈ d, y.sym = p.2.1 ∧ ∃ cu, p.2.2 = some cu ∧ cu ≠ [] ∧ p.2.1.size ≠ 0 := by
  unfold expandFromAt at hy
  rw [(sortedBy_stable _ _ _).perm.mem_iff, List.mem_filterMap] at hy
  obtain ⟨p, hp, hy⟩ := hy
  refine ⟨p, hp, ?_⟩
  split at hy
  · cases hy
  · rename_i cu hcu
    split at hy
    · cases hy
    · rename_i hne
      obtain ⟨c, _, rfl⟩ := Option.map_eq_some_iff.mp hy
      exact ⟨rfl, cu, hcu, fun h => hne (.inr h), fun h => hne (.inl h)⟩

theorem asStr_only {P : Err → Prop} (ht : P .typeError) (v : JVal) : Only P v.asStr := by
  cases v with
  | str s => exact .ok
  | _ => exact .error ht

theorem getElfOf_only {P : Err → Prop} {json : Str → Option JVal} {files : Str → Option (Except Err ElfFile)} {fn : Str}
    {desc : Option (Dict Str JVal)} (hd : desc = none ∨ getProjDescJ json fn = .ok desc) (ht : P .typeError) (hk : P .keyError)
    (hat : ∀ v, json (descPath fn) = some v → NotDict v → P .attributeError)
    (hop : ∀ p y, NamesElf json fn p → files p = some (.error y) → y ∉ [Err.osError, .valueError, .elf] → P y) : Only P (getElfOf json files fn desc) := by
  have hpd : Only P (getProjDescJ json fn) := by
    unfold getProjDescJ
    unfold descPath at hat
    split
    · exact .ok
    · exact .ok
    · refine .bind ?_ fun _ _ => .ok
      unfold appElfJ
      split
      · exact .ok
      · exact asStr_only ht _
    · rename_i v h1 h2 hv
      exact .error (hat v hv ⟨fun h => h1 (by rw [h]), fun d h => h2 d (by rw [h])⟩)
  unfold getElfOf
  refine .bind ?_ fun o ho => ?_
  · unfold usedDescJ
    split
    · exact .ok
    · exact hpd
  · unfold elfFileOf
    split
    · exact .ok
    · rename_i d
      have hj : json (descPath fn) = some (.obj d) := by
        apply getProjDescJ_obj
        unfold usedDescJ at ho
        rcases hd with rfl | hd
        · exact ho
        · split at ho
          · rename_i p d'
            cases ho
            exact hd
          · exact ho
      refine .bind ?_ fun v hv => .bind (asStr_only ht v) fun app happ => ?_
      · cases dget d (str "app_elf") with
        | none => exact .error hk
        | some v => exact .ok
      split
      · exact .ok
      · rename_i r hr
        have hv' : dget d (str "app_elf") = some v := by
          cases hg : dget d (str "app_elf") with
          | none => rw [hg] at hv; cases hv
          | some y => rw [hg] at hv; cases hv; rfl
        have hs : v = .str app := by
          cases v <;> cases happ
          rfl
        intro y hy
        cases r with
        | ok e => cases hy
        | error z => cases z <;> cases hy <;> exact hop _ _ ⟨d, app, hj, by rw [hv', hs], rfl⟩ hr (by decide)

theorem loadOf_elf {zero : Str → Bool} {w : World} {json : Str → Option JVal} {files : Str → Option (Except Err ElfFile)} {fn : Str} {ud : Option Bool}
    {mf : Option MapFile} {l : GetInAt} (h : loadOf zero w json files fn ud mf = .ok l) :
    (∃ u, wantDwarfJ zero json fn ud = .ok u) ∧ ∀ e, l.elf = some e → ∃ p, NamesElf json fn p ∧ files p = some (.ok e) := by
  unfold loadOf at h
  obtain ⟨desc, hdesc, h⟩ := bind_ok h
  obtain ⟨u, hu, h⟩ := bind_ok h
  obtain ⟨t, _, h⟩ := bind_ok h
  obtain ⟨f, _, h⟩ := bind_ok h
  obtain ⟨_, _, h⟩ := bind_ok h
  obtain ⟨elf, helf, h⟩ := bind_ok h
  obtain ⟨ss, _, h⟩ := bind_ok h
  obtain ⟨r, _, h⟩ := bind_ok h
  cases h
  refine ⟨⟨u, hu⟩, ?_⟩
  rintro e rfl
  exact getElfOf_names (.inr hdesc) helf

/-- **C110** (`C59`) the exceptions of `get` over the files as they are. -/
theorem C110_get_errors_partial (zero : Str → Bool) (n : Nat) (w : World) (json : Str → Option JVal) (files : Str → Option (Except Err ElfFile)) (fn : Str)
    (ls : Bool) (ud : Option Bool) (mf : Option MapFile) (hl : ∀ x, w.lines fn = .error x → x ∈ [Err.osError, .valueError])
    (hc : ∀ p x, w.chip p = .error x → x ∈ [Err.osError, .valueError]) (x : Err) (h : getOf zero n w json files fn ls ud mf = some (.error x)) :
    ProjectError zero json files fn ls ud x := by
  generalize hP : ProjectError zero json files fn ls ud = P
  have hin : ∀ y, y ∈ getErrs → P y := by
    intro y hy
    rw [← hP]
    exact .expected hy
  have hat : NoAttribute json fn ud → P .attributeError := by
    intro hy
    rw [← hP]
    exact .noAttr rfl hy
  have hun : ∀ e u y, (∃ p, NamesElf json fn p ∧ files p = some (.ok e)) → wantDwarfJ zero json fn ud = .ok u → Unreadable e ls u y → P y := by
    rintro e u y ⟨p, h1, h2⟩ h3 h4
    rw [← hP]
    exact .unread p e u h1 h2 h3 h4
  have hload : Only P (loadOf zero w json files fn ud mf) := by
    unfold loadOf
    refine .bind (getProjDescJ_only hin fun v h1 h2 => hat (.desc v h1 h2)) fun desc hdesc => .bind ?_ fun u hu => .bind ?_ fun t _ =>
      .bind ((useMap_raises w fn mf hl).only hin) fun f _ => .bind ((warnInvalid_raises f).only hin) fun _ _ =>
      .bind (getElfOf_only (.inr hdesc) (hin _ (by decide)) (hin _ (by decide)) (fun v h1 h2 => hat (.desc v h1 h2)) fun p y h1 h2 h3 => by rw [← hP]; exact .opened p h1 h2 h3) fun elf helf =>
      .bind ?_ fun ss _ => .bind ?_ fun r _ => .ok
    · cases ud with
      | some b => exact .ok
      | none =>
        unfold wantDwarfJ
        simp only []
        split
        · exact .ok
        · exact .ok
        · split <;> exact .ok
        · rename_i v h1 h2 hv
          exact .error (hat (.config v rfl hv ⟨fun h => h1 (by rw [h]), fun d h => h2 d (by rw [h])⟩))
    · unfold descTargetJ
      split
      · exact .ok
      · exact .ok
      · rename_i d _
        cases dget d (str "target") with
        | none => exact .error (hin _ (by decide))
        | some v => exact .ok
    · unfold dwarfSectionsOf
      refine only_ite (fun hu1 => ?_) fun _ => .ok
      split
      · rename_i d e _
        subst hu1
        have hnm := getElfOf_names (.inr hdesc) helf
        refine .bind (fun y hy => hun e true y hnm hu (.units rfl hy)) fun cu hcu => .bind ?_ fun comps _ => .bind ((getKey_raises _).only hin) fun b _ =>
          .bind ((asStr_raises b).only hin) fun build _ => .bind (only_mapM _ fun c _ => (compJ_raises build c).only hin) fun cs _ => ?_
        · have hne : ud ≠ some false := by
            rintro rfl
            cases hu
          cases hv : dget d (str "build_component_info") with
          | none => exact .error (hin _ (by decide))
          | some v =>
            have hbad : (∀ l, v ≠ .obj l) → P .attributeError := fun hl => hat (.comps d v hne (getProjDescJ_obj hdesc) hv hl)
            cases v with
            | obj l =>
              unfold compsJ
              simp only []
              exact .bind (only_mapM _ fun p _ => .bind ((item_raises _ _).only hin) fun _ _ => .ok) fun _ _ => .ok
            | _ => exact .error (hbad (by intro l hl; cases hl))
        · apply only_mapM
          intro o _
          unfold expandSectionAt
          refine .bind (only_foldlM _ (fun i _ new => ?_) _) fun _ _ => .ok
          refine only_ite (fun _ => .ok) fun _ => expandInputAt_only _ ?_ _ _
          intro y hy
          obtain ⟨p, hp, he, c, hc, hne, hsz⟩ := mem_expandFromAt hy
          rw [he]
          exact fun z hz => hun e true z hnm hu (.named rfl cu hcu p hp c hc hne hsz hz)
      · exact .ok
    · unfold targetJ
      refine .bind ?_ fun tg _ => .bind ?_ fun ty _ => .ok
      · have hp : Only P (pickTarget [] f.target) := by
          unfold pickTarget
          exact only_ite (fun _ => .error (hin _ (by decide))) fun _ => .ok
        unfold pickTargetJ
        split
        · exact only_ite (fun _ => (asStr_raises _).only hin) fun _ => hp
        · exact hp
      · intro z hz
        unfold getMemoryTypes at hz
        cases hcc : w.chip (tg ++ str ".yaml") with
        | ok y => rw [hcc] at hz; cases hz
        | error y =>
          rw [hcc] at hz
          have := hc _ _ hcc
          simp only [List.mem_cons, List.not_mem_nil, or_false] at this
          rcases this with rfl | rfl <;> cases hz <;> exact hin _ (by decide)
  unfold getOf at h
  split at h
  · rename_i y hy
    cases h
    exact hload _ hy
  · rename_i l hl'
    obtain ⟨⟨u, hu⟩, he⟩ := loadOf_elf hl'
    unfold buildAt at h
    split at h
    · rename_i y hy
      cases h
      cases hoe : l.elf with
      | none => rw [hoe] at hy; cases hy
      | some e =>
        rw [hoe] at hy
        have : Only P (headersOf (some e)) := by
          unfold headersOf
          refine .bind (only_foldlM _ ?_ _) fun _ _ => .ok
          intro s hs d
          unfold ElfFile.headerStep
          refine only_ite (fun _ => .ok) fun h0 => only_ite (fun _ => .ok) fun hf => .bind ?_ fun _ _ => .ok
          intro z hz
          refine hun e u z (he e hoe) hu (.section s hs ⟨h0, ?_⟩ hz)
          rw [and_two_eq_zero] at hf
          simpa using hf
        exact this _ hy
    · rename_i hdrs hh
      split at h
      · cases h
      · rename_i regs ws hs
        simp only [Option.some.injEq] at h
        have hsy : ∀ os, Only P (symbolStepAt ls l.elf os) := by
          intro os
          unfold symbolStepAt
          refine only_ite (fun hls => ?_) fun _ => .ok
          refine addSymbolsAt_only (hin _ (by decide)) (hin _ (by decide)) ?_ os
          intro e hoe
          exact ⟨fun y hy => hun e u y (he e hoe) hu (.table hls hy), fun t ht y hy hsz z hz => hun e u z (he e hoe) hu (.symbol hls t ht y hy hsz hz)⟩
        cases hx : symbolStepAt ls l.elf (filterMapSections l.sections hdrs) with
        | error y =>
          rw [hx] at h
          cases h
          exact hsy _ _ hx
        | ok os =>
          rw [hx] at h
          obtain ⟨d', goes, h1, h2⟩ := memTypeMap_ok l.types regs (addArchives (splitMapSections os regs))
            (isAlias_of (splitRegions_fromTable (by intro p hp; cases hp) hs)) abb_addArchives
          simp only [bind, Except.bind, h1] at h
          cases h

/-- The map of a project is well formed. -/
theorem buildAt_wf {n : Nat} {fn : Str} {ls : Bool} {l : GetInAt} {m : MemMap} (h : buildAt n fn ls l = some (.ok m)) : m.WF := by
  unfold buildAt at h
  split at h
  · cases h
  · rename_i hdrs _
    split at h
    · cases h
    · rename_i regs ws hs
      simp only [Option.some.injEq] at h
      obtain ⟨os, _, h⟩ := bind_ok h
      obtain ⟨d, hd, h⟩ := bind_ok h
      cases h
      obtain ⟨d', goes, h1, ok⟩ := memTypeMap_ok l.types regs (addArchives (splitMapSections os regs))
        (isAlias_of (splitRegions_fromTable (by intro p hp; cases hp) hs)) abb_addArchives
      rw [h1] at hd
      cases hd
      refine ⟨ok.nodup, ?_⟩
      intro p hp
      have hp' := dget_of_mem ok.nodup hp
      have ho := ok.holds p.1 p.2 hp'
      refine ⟨ho.nodup, ?_⟩
      intro q hq
      obtain ⟨pre, s, post, h1, _, h3, _⟩ := ho.last q.1 q.2 (dget_of_mem ho.nodup hq)
      rw [h3]
      obtain ⟨o, _, hao⟩ := (C23_archives (splitMapSections os regs)).mem_right (y := s) (by rw [h1]; simp)
      exact hao.wf

theorem getOf_wf {zero : Str → Bool} {n : Nat} {w : World} {json : Str → Option JVal} {files : Str → Option (Except Err ElfFile)} {fn : Str} {ls : Bool}
    {ud : Option Bool} {mf : Option MapFile} {m : MemMap} (h : getOf zero n w json files fn ls ud mf = some (.ok m)) : m.WF := by
  unfold getOf at h
  split at h
  · cases h
  · exact buildAt_wf h

/-- The steps between loading and showing do not fail. -/
theorem prepare_total {args : Args} {cur ref : MemMap} (wm : cur.WF) (wr : ref.WF) : ∃ d, prepare args cur ref = .ok d ∧ d.WF := by
  have w1 : ∀ {m : MemMap} (b : Bool), m.WF → (if b = true then m else removeUnused m).WF := by
    intro m b h; split
    · exact h
    · exact wf_removeUnused h
  have w2 : ∀ {m : MemMap} (b : Bool), m.WF → (if b = true then m else ignoreFlashSize m).WF := by
    intro m b h; split
    · exact h
    · exact wf_ignoreFlash h
  have w3 : ∀ {m : MemMap} (b : Bool), m.WF → (if b = true then unify m else m).WF := by
    intro m b h; split
    · exact wf_unify h
    · exact h
  unfold prepare
  cases ht : truthy args.diff with
  | false =>
    simp only [Bool.false_eq_true, if_false, bind, Except.bind]
    exact ⟨_, rfl, w3 _ (w2 _ (w1 _ wm))⟩
  | true =>
    simp only [if_true, bind, Except.bind]
    have wc := w2 args.useFlashSize (w2 args.useFlashSize (w1 args.showUnused wm))
    have wr' := w1 args.showUnused wr
    rw [diff_eq wc wr']
    exact ⟨_, rfl, w3 _ (wf_outMap wc wr')⟩

/-! ### Showing -/

theorem sortNumber_raises (headers : List Str) (s : Str) : Raises [.exit] (sortNumber headers s) := by
  unfold sortNumber
  split
  · exact raises_ite (.error (by decide)) .ok
  · split
    · exact .error (by decide)
    · exact .error (by decide)
    · exact .ok

theorem pyIndex_raises {α : Type} (l : List α) (i : Int) : Raises [.indexError] (pyIndex l i) := by
  unfold pyIndex
  simp only []
  refine raises_ite (.error (by decide)) ?_
  split
  · exact .ok
  · exact .error (by decide)

theorem sortRows_raises (args : Args) (n : Int) (rows : List (Str × List TCol)) : Raises [.exit] (sortRows args n rows) := by
  have h : Raises [.indexError] (rows.mapM fun r => (rowKey args n r).map fun k => (k, r)) := by
    apply raises_mapM
    intro r _ x hx
    have hk : Raises [.indexError] (rowKey args n r) := .bind (pyIndex_raises _ _) fun _ _ => .ok
    cases hr : rowKey args n r with
    | ok y => rw [hr] at hx; cases hx
    | error y => rw [hr] at hx; cases hx; exact hk _ hr
  unfold sortRows
  cases hm : rows.mapM fun r => (rowKey args n r).map fun k => (k, r) with
  | ok k => exact .ok
  | error x =>
    have := h x hm
    simp only [List.mem_cons, List.not_mem_nil, or_false] at this
    subst this
    exact .error (by decide)

theorem detailTable_raises (title : Str) (s : Dict Str Entry) (args : Args) : Raises [.exit] (detailTable title s args) := by
  unfold detailTable getTableSorted
  exact .bind (.bind (sortNumber_raises _ _) fun _ _ => .bind (sortRows_raises _ _ _) fun _ _ => .ok) fun _ _ => .ok

theorem archivesSummary_total {m : MemMap} (hm : m.WF) (args : Args) : ∃ R, getArchivesSummary m args = .ok R := by
  obtain ⟨E, R, h, _⟩ := C11_archives_summary m hm args
  exact ⟨R, h⟩

theorem filesSummary_total {m : MemMap} (hm : m.WF) (args : Args) : ∃ R, getObjectFilesSummary m args = .ok R := by
  obtain ⟨E, R, h, _⟩ := C12_files_summary_partial m hm args
  exact ⟨R, h⟩

theorem symbolsSummary_raises {m : MemMap} (hm : m.WF) (args : Args) : Raises [.exit] (getSymbolsSummary m args) := by
  obtain ⟨E, hE, _⟩ := summarize_inv (mtWF_summaryTypes hm) _ (symRecs_ok hm args.unify args.archiveDetails)
  unfold getSymbolsSummary
  simp only [hE, bind, Except.bind]
  exact raises_ite (.error (by decide)) .ok

theorem selectTableOf_only {P : Err → Prop} {F : FloatOps} {deps : Except Err Deps} {args : Args} {m : MemMap} (hm : m.WF) (hx : P .exit)
    (hd : Only P deps) : Only P (selectTableOf F deps args m) := by
  have hex : ∀ e ∈ [Err.exit], P e := by
    intro e he
    simp only [List.mem_cons, List.not_mem_nil, or_false] at he
    rw [he]
    exact hx
  unfold selectTableOf
  refine only_ite (fun _ => ?_) fun _ => only_ite (fun _ => ?_) fun _ => only_ite (fun _ => .bind hd fun _ _ => .ok) fun _ => only_ite (fun _ => ?_) fun _ => ?_
  · obtain ⟨R, hR⟩ := archivesSummary_total hm args
    unfold getArchivesTable
    rw [hR]
    exact (detailTable_raises _ _ _).only hex
  · exact .bind ((symbolsSummary_raises hm args).only hex) fun _ _ => (detailTable_raises _ _ _).only hex
  · obtain ⟨R, hR⟩ := filesSummary_total hm args
    unfold getObjectFilesTable
    rw [hR]
    exact (detailTable_raises _ _ _).only hex
  · unfold getSummaryTable
    refine .bind ((sortNumber_raises _ _).only hex) fun n _ => ?_
    split
    · exact .error hx
    · exact .ok

theorem showOf_only {P : Err → Prop} {F : FloatOps} {deps : Except Err Deps} {args : Args} {m : MemMap} (hm : m.WF) (hx : P .exit)
    (hd : Only P deps) : Only P (showOf F deps args m) := by
  have hex : ∀ e ∈ [Err.exit], P e := by
    intro e he
    simp only [List.mem_cons, List.not_mem_nil, or_false] at he
    rw [he]
    exact hx
  unfold showOf
  refine only_ite (fun _ => .bind (selectTableOf_only hm hx hd) fun _ _ => .ok) fun _ => only_ite (fun _ => ?_) fun _ =>
    only_ite (fun _ => only_ite (fun _ => .bind hd fun _ _ => .ok) fun _ => .ok) fun _ =>
    only_ite (fun _ => .bind (selectTableOf_only hm hx hd) fun _ _ => .ok) fun _ =>
    only_ite (fun _ => only_ite (fun _ => .bind hd fun _ _ => .ok) fun _ => .ok) fun _ => only_ite (fun _ => .bind ?_ fun _ _ => .ok) fun _ => .ok
  · unfold showJsonOf
    refine only_ite (fun _ => ?_) fun _ => only_ite (fun _ => .bind ((symbolsSummary_raises hm args).only hex) fun _ _ => .ok) fun _ =>
      only_ite (fun _ => .bind hd fun _ _ => .ok) fun _ => only_ite (fun _ => ?_) fun _ => .ok
    · obtain ⟨R, hR⟩ := archivesSummary_total hm args
      rw [hR]
      exact .ok
    · obtain ⟨R, hR⟩ := filesSummary_total hm args
      rw [hR]
      exact .ok
  · unfold showDotOf
    exact only_ite (fun _ => .error hx) fun _ => .bind hd fun _ _ => .ok

/-- The dependencies, if there is a table of cross references and the names can be read. -/
theorem dependenciesAt_total {ord : List Str → List Str} (hord : SetOrder ord) {c : Crt} {m : MemMap} (hm : m.WF)
    (hcrt : KeysNodup c ∧ ∀ p ∈ c, p.2 ≠ []) {e : ElfFile} (args : Args) {names : List Str} (hn : crtSymbolsAt e = .ok names) :
    ∃ D, dependenciesAt ord (some c) m (some e) args = .ok D := by
  obtain ⟨R, hR⟩ := archivesSummary_total hm args
  -- the same as with symbols of these names
  obtain ⟨D, hD, _⟩ := C35_report ord hord m hm c hcrt.1 hcrt.2 (names.map fun s => ({ name := s, value := 0, size := 0, type := sttFunc, shndx := 0 } : ElfSym)) args
  have hns : crtSymbols (names.map fun s => ({ name := s, value := 0, size := 0, type := sttFunc, shndx := 0 } : ElfSym)) = names := by
    unfold crtSymbols
    rw [List.filter_eq_self.mpr]
    · rw [List.map_map]
      exact List.map_id _
    · intro s hs
      obtain ⟨n, _, rfl⟩ := List.mem_map.mp hs
      rfl
  unfold getArchivesDependencies filterCrt at hD
  simp only [hR, hns] at hD
  refine ⟨D, ?_⟩
  unfold dependenciesAt filterCrtAt
  simp only [hR, hn]
  exact hD

/-- The names needed for the dependencies. -/
theorem crtSymbolsAt_only {P : Err → Prop} {e : ElfFile} (he : ∀ y, LinkedUnreadable e y → P y) : Only P (crtSymbolsAt e) := by
  have hlinked : ∀ y : RawSym, ((y.type = sttFunc || y.type = sttObject) && y.shndx ≠ shnAbs) = true → IsLinked y := by
    intro y hc
    simp only [Bool.and_eq_true, Bool.or_eq_true, decide_eq_true_eq, ne_eq, decide_not, Bool.not_eq_true', decide_eq_false_iff_not] at hc
    rw [sym_type] at hc
    exact ⟨hc.1.symm, hc.2⟩
  unfold crtSymbolsAt
  refine .bind (fun y hy => he y (.inl hy)) fun t ht => only_mapM _ ?_
  intro y hy z hz
  obtain ⟨hy, hc⟩ := List.mem_filter.mp hy
  exact he z (.inr ⟨t, ht, y, hy, hlinked y hc, hz⟩)

/-- The dependencies, from the names that are read. -/
theorem dependenciesAt_only {P : Err → Prop} {ord : List Str → List Str} (hord : SetOrder ord) {crt : Option Crt} {m : MemMap} (hm : m.WF)
    (hcrt : ∀ c, crt = some c → KeysNodup c ∧ ∀ p ∈ c, p.2 ≠ []) {elf : Option ElfFile} {args : Args} (hx : P .exit)
    (he : ∀ e, elf = some e → ∀ y, LinkedUnreadable e y → P y) : Only P (dependenciesAt ord crt m elf args) := by
  cases crt with
  | none => exact .error hx
  | some c =>
    cases elf with
    | none =>
      obtain ⟨R, hR⟩ := archivesSummary_total hm args
      unfold dependenciesAt
      simp only [hR]
      exact .error hx
    | some e =>
      cases hn : crtSymbolsAt e with
      | error x =>
        obtain ⟨R, hR⟩ := archivesSummary_total hm args
        intro y hy
        simp only [dependenciesAt, hR, filterCrtAt, hn, bind, Except.bind] at hy
        cases hy
        exact crtSymbolsAt_only (he e rfl) _ hn
      | ok names =>
        obtain ⟨D, hD⟩ := dependenciesAt_total hord hm (hcrt c rfl) args hn
        intro y hy
        rw [hD] at hy
        cases hy

/-! ### The run -/

theorem loadMap_raises (w : World) (fn : Str) (hl : ∀ x, w.lines fn = .error x → x ∈ [Err.osError, .valueError]) :
    Raises [.mapFile, .valueError, .typeError, .nameError, .indexError] (loadMap w fn) := by
  unfold loadMap
  split
  · exact C30_errors_partial _
  · exact .error (by decide)
  · exact .error (by decide)
  · rename_i e h1 h2 h3
    have := hl e h3
    simp only [List.mem_cons, List.not_mem_nil, or_false] at this
    rcases this with rfl | rfl
    · exact absurd rfl h1
    · exact absurd rfl h2

/-- The exceptions of a run; `files` and `json` are the ELF and JSON files. -/
inductive RunError (zero : Str → Bool) (cwd : Str) (json : Str → Option JVal) (files : Str → Option (Except Err ElfFile)) (input : Str) (args : Args)
    (x : Err) : Prop where
  /-- The link map file of the input, or the command line with this map. -/
  | expected : x ∈ [Err.mapFile, .valueError, .typeError, .nameError, .indexError, .keyError, .exit] → RunError zero cwd json files input args x
  /-- Loading one of the projects. -/
  | project (f : Str) : RunMap input args f → ProjectError zero json files (abspath cwd f) (loadSymbolsOf args) (useDwarfOf args) x →
      RunError zero cwd json files input args x
  /-- The description of the input is no dictionary. -/
  | desc (v : JVal) : x = .attributeError → json (descPath input) = some v → NotDict v → RunError zero cwd json files input args x
  /-- Opening the ELF file of the input raised something that is not caught. -/
  | opened (p : Str) : NamesElf json input p → files p = some (.error x) → x ∉ [Err.osError, .valueError, .elf] → RunError zero cwd json files input args x
  /-- The dependencies are shown, and the symbols of the ELF file of the input cannot be read. -/
  | linked (p : Str) (e : ElfFile) : AsksDeps args → NamesElf json input p → files p = some (.ok e) → LinkedUnreadable e x →
      RunError zero cwd json files input args x

/-- **C110** (violates `C59`) all exceptions of a run over the files as they are.  None comes from comparing, from making a summary or a table, or from the table of cross
references. -/
theorem C110_errors_partial (zero : Str → Bool) (cwd : Str) (R : RunIn) (hord : SetOrder R.ord) (json : Str → Option JVal)
    (files : Str → Option (Except Err ElfFile)) (input : Str) (args : Args)
    (hl : ∀ p x, R.w.lines p = .error x → x ∈ [Err.osError, .valueError]) (hc : ∀ p x, R.w.chip p = .error x → x ∈ [Err.osError, .valueError]) (x : Err)
    (h : reportOf zero cwd R json files input args = some (.error x)) : RunError zero cwd json files input args x := by
  have hls : loadSymbolsOf (effectiveArgs args) = loadSymbolsOf args := by rw [eff_eq]; rfl
  have hud : useDwarfOf (effectiveArgs args) = useDwarfOf args := by rw [eff_eq]; rfl
  have hask : AsksDeps (effectiveArgs args) → AsksDeps args := by rw [eff_eq]; exact id
  have hdiff : ∀ c f, (effectiveArgs args).diff = some (c :: f) → RunMap input args (c :: f) := by
    intro c f h
    rw [eff_eq] at h
    simp only [] at h
    split at h
    · cases h
    · rename_i hc
      refine .inr ⟨?_, h, by simp⟩
      cases ha : args.archiveDependencies with
      | false => rfl
      | true =>
        rw [ha, h] at hc
        exact absurd rfl hc
  unfold reportOf at h
  simp only [hls, hud] at h
  generalize effectiveArgs args = a at h hask hdiff
  split at h
  · rename_i y hy
    cases h
    exact .expected ((by decide : [Err.mapFile, .valueError, .typeError, .nameError, .indexError] ⊆
      [Err.mapFile, .valueError, .typeError, .nameError, .indexError, .keyError, .exit]) (loadMap_raises _ _ (hl input) x hy))
  · rename_i mf hmf
    split at h
    · rename_i y hy
      cases h
      exact getElfOf_only (P := RunError zero cwd json files input args) (.inl rfl) (.expected (by decide)) (.expected (by decide))
        (fun v h1 h2 => .desc v rfl h1 h2) (fun p y h1 h2 h3 => .opened p h1 h2 h3) x hy
    · rename_i elf helf
      split at h
      · cases h
      · rename_i y hy
        cases h
        exact .project input (.inl rfl) (C110_get_errors_partial _ _ _ _ _ _ _ _ _ (hl _) hc _ hy)
      · rename_i m hm
        split at h
        · cases h
        · rename_i y hy
          cases h
          unfold referenceMap at hy
          split at hy
          · rename_i c f hcf
            exact .project _ (hdiff c f hcf) (C110_get_errors_partial _ _ _ _ _ _ _ _ _ (hl _) hc _ hy)
          · cases hy
        · rename_i ref href
          have wr : ref.WF := by
            unfold referenceMap at href
            split at href
            · exact getOf_wf href
            · cases href; exact getOf_wf hm
          obtain ⟨d, hd, wd⟩ := prepare_total (args := a) (getOf_wf hm) wr
          rw [hd] at h
          simp only [Option.some.injEq] at h
          by_cases hq : AsksDeps a
          · refine showOf_only wd (.expected (by decide)) (dependenciesAt_only hord wd ?_ (.expected (by decide)) ?_) x h
            · intro c hcr
              exact loadMap_crt hmf hcr
            · rintro e rfl y hy
              obtain ⟨p, hp, hpe⟩ := getElfOf_names (.inl rfl) helf
              exact .linked p e (hask hq) hp hpe hy
          · rw [showOf_skip (d' := .error .exit) hq] at h
            exact showOf_only wd (.expected (by decide)) (.error (.expected (by decide))) x h

/-- The kinds of exceptions of a run over files. -/
def runErrs : List Err :=
  [.mapFile, .memMap, .exit, .valueError, .typeError, .nameError, .indexError, .keyError, .attributeError, .elf, .unicode, .structError, .assertion]

theorem unreadable_kind {e : ElfFile} {s u : Bool} {x : Err} (h : Unreadable e s u x) : x ∈ dwarfErrs := by
  have h1 : [Err.indexError, .elf, .valueError, .unicode] ⊆ dwarfErrs := by decide
  have h2 : [Err.elf, .structError, .indexError] ⊆ dwarfErrs := by decide
  cases h with
  | «section» s _ _ hs => exact h1 (stringAt_raises _ _ _ x hs)
  | table _ ht => exact h2 (symbols_raises _ x ht)
  | symbol _ _ _ _ _ _ hs => exact h1 (stringAt_raises _ _ _ x hs)
  | units _ hu => exact addCus_raises _ x hu
  | named _ _ _ _ _ _ _ _ _ hs => exact h1 (stringAt_raises _ _ _ x hs)

/-- Reading a link map file or a chip description. -/
theorem files_raise (fs : Files) : (∀ p y, mapLines fs p = .error y → y ∈ [Err.osError, .valueError]) ∧ ∀ p y, chipFile p = .error y → y ∈ [Err.osError, .valueError] := by
  have h1 : ∀ p y, mapLines fs p = .error y → y ∈ [Err.osError, .valueError] := by
    intro p y hy
    unfold mapLines readText at hy
    cases hb : fs p with
    | none => rw [hb] at hy; cases hy; decide
    | some b =>
      rw [hb] at hy
      simp only [] at hy
      cases hu : decodeUtf8 b with
      | ok s => rw [hu] at hy; cases hy
      | error z => rw [hu] at hy; cases hy; decide
  have h2 : ∀ p y, chipFile p = .error y → y ∈ [Err.osError, .valueError] := by
    intro p y hy
    unfold chipFile at hy
    split at hy
    · cases hy
    · cases hy; decide
  exact ⟨h1, h2⟩

/-- **C110** (violates `C59`) a run over any files, whatever their bytes, ends with one of these exceptions or prints a report; a file that is missing, cannot be decoded or is no JSON
never makes it raise `OSError`. -/
theorem C110_kinds_partial (zero : Str → Bool) (cwd : Str) (n long : Nat) (F : FloatOps) (ord : List Str → List Str) (hord : SetOrder ord) (fs : Files) (input : Str)
    (args : Args) (x : Err) (h : reportFiles zero cwd n long F ord fs input args = some (.error x)) : x ∈ runErrs := by
  have hd : dwarfErrs ⊆ runErrs := by decide
  have ho : ∀ p, (fs p).map (openElf long) = some (.error x) → x ∈ runErrs := by
    intro p hp
    obtain ⟨b, _, hb⟩ := Option.map_eq_some_iff.mp hp
    exact (by decide : [Err.elf, .structError, .indexError, .typeError] ⊆ runErrs) (openElf_raises long b x hb)
  obtain ⟨h1, h2⟩ := files_raise fs
  unfold reportFiles at h
  cases C110_errors_partial zero cwd ⟨n, F, ord, worldOf long fs⟩ hord _ _ input args h1 h2 x h with
  | expected hx => exact (by decide : [Err.mapFile, .valueError, .typeError, .nameError, .indexError, .keyError, .exit] ⊆ runErrs) hx
  | project f _ hx =>
    cases hx with
    | expected hx => exact (by decide : [Err.memMap, .valueError, .typeError, .nameError, .indexError, .keyError] ⊆ runErrs) hx
    | noAttr hx => rw [hx]; decide
    | opened p _ hp => exact ho p hp
    | unread p e u _ _ _ hx => exact hd (unreadable_kind hx)
  | desc v hx => rw [hx]; decide
  | opened p _ hp => exact ho p hp
  | linked p e _ _ _ hx =>
    rcases hx with hx | ⟨t, _, y, _, _, hx⟩
    · exact hd ((by decide : [Err.elf, .structError, .indexError] ⊆ dwarfErrs) (symbols_raises _ x hx))
    · exact hd ((by decide : [Err.indexError, .elf, .valueError, .unicode] ⊆ dwarfErrs) (stringAt_raises _ _ _ x hx))

/-! ### What a run depends on -/

theorem getOf_depends (zero : Str → Bool) (n : Nat) (w w' : World) (json json' : Str → Option JVal) (files files' : Str → Option (Except Err ElfFile)) (fn : Str) (ls : Bool)
    (ud : Option Bool) (mf : Option MapFile) (hlines : mf = none → w.lines fn = w'.lines fn) (hchip : w.chip = w'.chip)
    (hd : SameKeys (neededKeys ud) (json (descPath fn)) (json' (descPath fn)))
    (hs : ud = none → SameKeys [str "COMPILER_LTO_LINKTIME"] (json (configPath fn)) (json' (configPath fn)))
    (hf : ∀ p, NamesElf json fn p → files p = files' p) :
    getOf zero n w json files fn ls ud mf = getOf zero n w' json' files' fn ls ud mf := by
  have ha : str "app_elf" ∈ neededKeys ud := by unfold neededKeys; split <;> simp
  have ht : str "target" ∈ neededKeys ud := by unfold neededKeys; split <;> simp
  have hb : ud ≠ some false → str "build_dir" ∈ neededKeys ud ∧ str "build_component_info" ∈ neededKeys ud := by
    intro h
    unfold neededKeys
    split
    · exact absurd rfl h
    · simp
  have hw : wantDwarfJ zero json fn ud = wantDwarfJ zero json' fn ud := by
    cases ud with
    | some b => rfl
    | none =>
      have := hs rfl
      unfold configPath at this
      unfold wantDwarfJ
      simp only []
      generalize json (pathJoin (pathJoin (dirname fn) (str "config")) (str "sdkconfig.json")) = a at this
      generalize json' (pathJoin (pathJoin (dirname fn) (str "config")) (str "sdkconfig.json")) = b at this
      cases this with
      | nothing h1 h2 => rcases h1 with rfl | rfl <;> rcases h2 with rfl | rfl <;> rfl
      | dict he hg => simp only [hg _ (List.mem_singleton.mpr rfl)]
  have hmap : useMap w fn mf = useMap w' fn mf := by
    cases mf with
    | some f => rfl
    | none =>
      unfold useMap loadMap
      rw [hlines rfl]
  have hmt : ∀ t, getMemoryTypes w t = getMemoryTypes w' t := by
    intro t
    unfold getMemoryTypes
    rw [hchip]
  have htj : ∀ v m, targetJ zero w v m = targetJ zero w' v m := by
    intro v m
    unfold targetJ
    simp only [hmt]
  have hdesc := sameDesc_of ha hd
  have hload : loadOf zero w json files fn ud mf = loadOf zero w' json' files' fn ud mf := by
    unfold loadOf
    rw [hw, hmap]
    have helf0 : ∀ d d', json (descPath fn) = some (.obj d) → AgreeOn (neededKeys ud) d d' → elfFileOf files fn (some d) = elfFileOf files' fn (some d') := by
      intro d d' hj h
      unfold elfFileOf
      simp only [← h.2 _ ha]
      cases hg : dget d (str "app_elf") with
      | none => rfl
      | some v =>
        cases v with
        | str app =>
          simp only [getKey, JVal.asStr, bind, Except.bind]
          rw [hf _ ⟨d, app, hj, hg, rfl⟩]
        | _ => rfl
    generalize hr : getProjDescJ json fn = r at hdesc
    generalize hr' : getProjDescJ json' fn = r' at hdesc
    cases hdesc with
    | error => rfl
    | none =>
      have helf : getElfOf json files fn none = getElfOf json' files' fn none := by
        unfold getElfOf usedDescJ
        simp only [hr, hr']
        rfl
      simp only [bind, Except.bind, helf, htj]
    | some h =>
      rename_i d d'
      have h1 : descTargetJ (some d) = descTargetJ (some d') := by
        unfold descTargetJ
        cases d with
        | nil => rw [h.1.mp rfl]
        | cons p t =>
          cases d' with
          | nil => cases h.1.mpr rfl
          | cons p' t' => simp only [h.2 _ ht]
      have h2 : getElfOf json files fn (some d) = getElfOf json' files' fn (some d') := by
        unfold getElfOf usedDescJ
        cases d with
        | nil =>
          have := helf0 _ _ (getProjDescJ_obj hr) h
          rw [h.1.mp rfl] at this hr' ⊢
          simp only [hr, hr']
          exact this
        | cons p t =>
          cases d' with
          | nil => cases h.1.mpr rfl
          | cons p' t' => exact helf0 _ _ (getProjDescJ_obj hr) h
      have h3 : ∀ u, wantDwarfJ zero json' fn ud = .ok u → ∀ elf ss, dwarfSectionsOf zero u (some d) elf ss = dwarfSectionsOf zero u (some d') elf ss := by
        intro u hu elf ss
        unfold dwarfSectionsOf
        cases u with
        | false => rfl
        | true =>
          have hne : ud ≠ some false := by rintro rfl; cases hu
          cases elf with
          | none => rfl
          | some e =>
            simp only [if_true]
            rw [h.2 _ (hb hne).1, h.2 _ (hb hne).2]
      simp only [bind, Except.bind, h1, h2, htj]
      cases hu : wantDwarfJ zero json' fn ud with
      | error x => rfl
      | ok u => simp only [h3 u hu]
  unfold getOf
  rw [hload]

/-- **C110** a run looks at nothing else: the report depends only on the lines of the input and of the other link map file, on the needed keys of their descriptions
(and of the configuration, if it is not told whether to use the debugging information), on the ELF files named by these, and on the chip descriptions. -/
theorem C110_depends (zero : Str → Bool) (cwd : Str) (n : Nat) (F : FloatOps) (ord : List Str → List Str) (w w' : World) (json json' : Str → Option JVal)
    (files files' : Str → Option (Except Err ElfFile)) (input : Str) (args : Args)
    (hli : w.lines input = w'.lines input) (hlf : ∀ f, RunMap input args f → w.lines (abspath cwd f) = w'.lines (abspath cwd f)) (hchip : w.chip = w'.chip)
    (hdi : SameKeys [str "app_elf"] (json (descPath input)) (json' (descPath input)))
    (hdf : ∀ f, RunMap input args f → SameKeys (neededKeys (useDwarfOf args)) (json (descPath (abspath cwd f))) (json' (descPath (abspath cwd f))))
    (hs : args.useDwarf = none → ∀ f, RunMap input args f →
      SameKeys [str "COMPILER_LTO_LINKTIME"] (json (configPath (abspath cwd f))) (json' (configPath (abspath cwd f))))
    (hfi : ∀ p, NamesElf json input p → files p = files' p) (hff : ∀ f, RunMap input args f → ∀ p, NamesElf json (abspath cwd f) p → files p = files' p) :
    reportOf zero cwd ⟨n, F, ord, w⟩ json files input args = reportOf zero cwd ⟨n, F, ord, w'⟩ json' files' input args := by
  have hls : loadSymbolsOf (effectiveArgs args) = loadSymbolsOf args := by rw [eff_eq]; rfl
  have hud : useDwarfOf (effectiveArgs args) = useDwarfOf args := by rw [eff_eq]; rfl
  have hdiff : ∀ c f, (effectiveArgs args).diff = some (c :: f) → RunMap input args (c :: f) := by
    intro c f h
    rw [eff_eq] at h
    simp only [] at h
    split at h
    · cases h
    · rename_i hc
      refine .inr ⟨?_, h, by simp⟩
      cases ha : args.archiveDependencies with
      | false => rfl
      | true =>
        rw [ha, h] at hc
        exact absurd rfl hc
  have hus : useDwarfOf args = none → args.useDwarf = none := by
    unfold useDwarfOf
    split
    · intro h; cases h
    · exact id
  have hmap : loadMap w input = loadMap w' input := by unfold loadMap; rw [hli]
  have helf : getElfOf json files input none = getElfOf json' files' input none := by
    have hdesc := sameDesc_of (List.mem_singleton.mpr rfl) hdi
    unfold getElfOf usedDescJ
    generalize hr : getProjDescJ json input = r at hdesc
    generalize hr' : getProjDescJ json' input = r' at hdesc
    cases hdesc with
    | error => rfl
    | none => rfl
    | some h =>
      rename_i d d'
      simp only [bind, Except.bind]
      unfold elfFileOf
      simp only [← h.2 _ (List.mem_singleton.mpr rfl)]
      cases hg : dget d (str "app_elf") with
      | none => rfl
      | some v =>
        cases v with
        | str app =>
          simp only [getKey, JVal.asStr, bind, Except.bind]
          rw [hfi _ ⟨d, app, getProjDescJ_obj hr, hg, rfl⟩]
        | _ => rfl
  have hget : ∀ f, RunMap input args f → ∀ mf, getOf zero n w json files (abspath cwd f) (loadSymbolsOf args) (useDwarfOf args) mf =
      getOf zero n w' json' files' (abspath cwd f) (loadSymbolsOf args) (useDwarfOf args) mf := fun f hf mf =>
    getOf_depends _ _ _ _ _ _ _ _ _ _ _ _ (fun _ => hlf f hf) hchip (hdf f hf) (fun hu => hs (hus hu) f hf) (hff f hf)
  unfold reportOf
  simp only [hmap, helf, hls, hud, hget input (.inl rfl)]
  generalize effectiveArgs args = a at *
  have href : ∀ m, (referenceMap a m fun fn => getOf zero n w json files (abspath cwd fn) (loadSymbolsOf args) (useDwarfOf args) none) =
      referenceMap a m fun fn => getOf zero n w' json' files' (abspath cwd fn) (loadSymbolsOf args) (useDwarfOf args) none := by
    intro m
    unfold referenceMap
    split
    · rename_i c f hc
      exact hget _ (hdiff c f hc) none
    · rfl
  simp only [href]

/-! ### Exceptions that escape -/

/-- **C110** (violates `C59`) a description beside the input that is a list, a number, a string, …: `AttributeError`, whatever is asked for. -/
theorem C110_not_dict (zero : Str → Bool) (cwd : Str) (R : RunIn) (json : Str → Option JVal) (files : Str → Option (Except Err ElfFile)) (input : Str)
    (args : Args) (mf : MapFile) (hm : loadMap R.w input = .ok mf) (v : JVal) (hv : json (descPath input) = some v) (hn : NotDict v) :
    reportOf zero cwd R json files input args = some (.error .attributeError) := by
  have : getElfOf json files input none = .error .attributeError := by
    unfold getElfOf usedDescJ getProjDescJ
    unfold descPath at hv
    cases v with
    | null => exact absurd rfl hn.1
    | obj d => exact absurd rfl (hn.2 d)
    | _ => simp only [hv]; rfl
  unfold reportOf
  simp only [hm, this]

/-- If the dependencies are shown, what they raise is raised. -/
theorem showOf_deps_error {F : FloatOps} {a : Args} {d : MemMap} {x : Err} (hask : AsksDeps a) (hff : a.format ∈ formats) :
    showOf F (.error x) a d = .error x := by
  obtain ⟨h1, h2⟩ := hask
  have hsel : a.format ∈ [str "table", str "text", str "csv", str "json2"] → selectTableOf F (.error x) a d = .error x ∧ showJsonOf (.error x) a d = .error x := by
    intro hq
    obtain ⟨q1, q2⟩ := h2 hq
    unfold selectTableOf showJsonOf
    simp only [q1, q2, h1, Bool.false_eq_true, if_false, if_true]
    exact ⟨rfl, rfl⟩
  simp only [formats, List.mem_cons, List.not_mem_nil, or_false] at hff
  by_cases f1 : a.format ∈ [str "table", str "text", str "csv", str "json2"]
  · obtain ⟨s1, s2⟩ := hsel f1
    unfold showOf
    rw [s1, s2]
    simp only [List.mem_cons, List.not_mem_nil, or_false] at f1
    rcases f1 with h | h | h | h <;> rw [h] <;> rfl
  · have : a.format = str "raw" ∨ a.format = str "tree" ∨ a.format = str "dot" := by
      rcases hff with h | h | h | h | h | h | h
      · exact absurd (by rw [h]; decide) f1
      · exact absurd (by rw [h]; decide) f1
      · exact absurd (by rw [h]; decide) f1
      · exact .inl h
      · exact absurd (by rw [h]; decide) f1
      · exact .inr (.inl h)
      · exact .inr (.inr h)
    unfold showOf showDotOf
    rw [h1]
    rcases this with h | h | h <;> rw [h] <;> rfl

/-- **C110** (violates `C59`) dependencies are asked for, and the table of symbols of the ELF file cannot be read: the exception ends the run, though a map was made. -/
theorem C110_deps_escape (zero : Str → Bool) (cwd : Str) (R : RunIn) (json : Str → Option JVal) (files : Str → Option (Except Err ElfFile)) (input : Str)
    (args : Args) (ha : AsksDeps args) (hf : args.format ∈ formats) (mf : MapFile) (hm : loadMap R.w input = .ok mf) (c : Crt) (hc : mf.crt = some c) (e : ElfFile)
    (he : getElfOf json files input none = .ok (some e)) (x : Err) (hx : e.symbols = .error x) (m : MemMap)
    (hg : getOf zero R.n R.w json files (abspath cwd input) (loadSymbolsOf args) (useDwarfOf args) (some mf) = some (.ok m)) :
    reportOf zero cwd R json files input args = some (.error x) := by
  have hls : loadSymbolsOf (effectiveArgs args) = loadSymbolsOf args := by rw [eff_eq]; rfl
  have hud : useDwarfOf (effectiveArgs args) = useDwarfOf args := by rw [eff_eq]; rfl
  have hask : AsksDeps (effectiveArgs args) := by rw [eff_eq]; exact ha
  have hff : (effectiveArgs args).format ∈ formats := by rw [eff_eq]; exact hf
  have hnd : truthy (effectiveArgs args).diff = false := by
    rw [eff_eq]
    simp only [ha.1, Bool.true_and]
    split
    · rfl
    · rename_i h; simpa using h
  unfold reportOf
  simp only [hm, he, hls, hud, hg]
  generalize effectiveArgs args = a at *
  have href : ∀ g, referenceMap a m g = some (.ok m) := by
    intro g
    unfold referenceMap
    split
    · rename_i c f hcf
      rw [hcf] at hnd
      cases hnd
    · rfl
  obtain ⟨d, hd, wd⟩ := prepare_total (args := a) (getOf_wf hg) (getOf_wf hg)
  simp only [href, hd, hc]
  have hdep : dependenciesAt R.ord (some c) d (some e) a = .error x := by
    obtain ⟨S, hS⟩ := archivesSummary_total wd a
    unfold dependenciesAt
    simp only [hS, bind, Except.bind, C104_deps_escapes e x c S hx]
  rw [hdep]
  rw [showOf_deps_error hask hff]

/-! ### Examples -/

/-- The link map file of `exDepsRun`, and an ELF file whose table of symbols lies outside of the file. -/
def exFilesRun : RunIn := { exDepsRun with w := { exDepsRun.w with json := fun _ => none, elf := fun _ => none } }

/-- **C110** (violates `C59`) witnesses: the summary of the project is shown, the dependencies are not; with a list as description nothing is. -/
theorem C110_witness :
    (∃ s, reportOf (fun _ => false) (str "/") exFilesRun (exJson (exDesc [])) (exLazyFiles 4) (str "/b/x.map") { format := str "json2" } = some (.ok s)) ∧
    reportOf (fun _ => false) (str "/") exFilesRun (exJson (exDesc [])) (exLazyFiles 4) (str "/b/x.map") { format := str "json2", archiveDependencies := true } = some (.error .elf) ∧
    reportOf (fun _ => false) (str "/") exFilesRun (exJson (.arr [])) (exLazyFiles 4) (str "/b/x.map") { format := str "json2" } = some (.error .attributeError) := by
  refine ⟨?_, by decide +kernel, by decide +kernel⟩
  have : (match reportOf (fun _ => false) (str "/") exFilesRun (exJson (exDesc [])) (exLazyFiles 4) (str "/b/x.map") { format := str "json2" } with
    | some (.ok _) => true | _ => false) = true := by decide +kernel
  split at this
  · rename_i s h
    exact ⟨s, h⟩
  · cases this

/-- The hypotheses of `C110_names` are met by this project, though not all names can be read. -/
example : TypedDesc (exJson (exDesc []) (descPath (str "/b/x.map"))) ∧ abspath (str "/") (str "/b/x.map") = str "/b/x.map" ∧
    (∀ f, RunMap (str "/b/x.map") { format := str "json2" } f → f = str "/b/x.map") ∧ ¬ AsksDeps { format := str "json2" } ∧ exLazyElf.view = .error .valueError := by
  refine ⟨.inr ⟨_, _, rfl, rfl⟩, by decide +kernel, ?_, ?_, by decide +kernel⟩
  · rintro f (rfl | ⟨_, h, _⟩)
    · rfl
    · cases h
  · intro h
    cases h.1

end EspSize
