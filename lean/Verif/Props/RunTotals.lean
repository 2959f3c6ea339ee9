import Verif.Props.CsvRun
import Verif.Spec.RunTotals
/-!
# C73: reports of whole runs

From the lines of the link map file to the JSON reports, per archive and per file, and to the used sizes of the raw
output.
-/
namespace EspSize

/-- Sum of `g` over all sections of all memory types. -/
def secsTotal (g : Sec → Int) (m : MemMap) : Int := sumBy (fun t => sumBy (fun s => g s.2) t.2.sections) m.memoryTypes

/-! ### Objects of a section -/

theorem sum_one_key {κ α : Type} [DecidableEq κ] (d : Dict κ α) (hd : KeysNodup d) (k : κ) (hk : k ∈ dkeys d) (z : Int) :
    sumBy (fun p => if k = p.1 then z else 0) d = z := by
  induction d with
  | nil => cases hk
  | cons p t ih =>
    rw [sumBy_cons]
    have hn : p.1 ∉ dkeys t ∧ KeysNodup t := List.nodup_cons.mp hd
    by_cases h : k = p.1
    · subst h
      have : sumBy (fun q => if p.1 = q.1 then z else 0) t = 0 := by
        apply sumBy_zero
        intro q hq
        rw [if_neg]
        intro e
        exact hn.1 (e ▸ List.mem_map_of_mem hq)
      rw [this]; simp
    · rcases List.mem_cons.mp hk with e | hk
      · exact absurd e h
      · rw [if_neg h, ih hn.2 hk]; omega

theorem sum_no_key {κ α : Type} [DecidableEq κ] (d : Dict κ α) (k : κ) (z : Int) (hk : k ∉ dkeys d) :
    sumBy (fun p => if k = p.1 then z else 0) d = 0 := by
  apply sumBy_zero
  intro p hp
  rw [if_neg]
  rintro rfl
  exact hk (List.mem_map_of_mem hp)

/-- A sum over a dictionary of sums over the elements with its keys. -/
theorem sum_by_key {κ α β : Type} [DecidableEq κ] (d : Dict κ α) (hd : KeysNodup d) (key : β → κ) (f : β → Int) (l : List β)
    (h : ∀ i ∈ l, f i ≠ 0 → key i ∈ dkeys d) :
    sumBy (fun p => sumBy (fun i => if key i = p.1 then f i else 0) l) d = sumBy f l := by
  induction l with
  | nil =>
    simp only [sumBy_nil]
    exact sumBy_zero fun _ _ => rfl
  | cons i l ih =>
    simp only [sumBy_cons]
    rw [sumBy_add, ih fun j hj => h j (by simp [hj])]
    congr 1
    by_cases hf : f i = 0
    · rw [hf]; exact sumBy_zero fun _ _ => by simp
    · exact sum_one_key d hd _ (h i (by simp) hf) _

theorem objs_inputSum {s : OSec} {m : MSec} (h : ArchivesOk s m) (P : Str → Str → Bool) :
    sumBy (fun a => sumBy (fun o => if P a.1 o.1 then o.2.size else 0) a.2.kids) m.archives =
      inputSum (fun x y _ => P x y) ISec.size s := by
  unfold inputSum
  rw [← sum_by_key m.archives h.wf.1 ISec.archive (fun i => if P i.archive i.objectFile = true then i.size else 0) s.inputs]
  · apply sumBy_congr
    intro a ha
    have hget := dget_of_mem h.wf.1 ha
    obtain ⟨_, _, _, _, hkeys, hob⟩ := h.arch a.1 a.2 hget
    have hwf := h.wf.2 a ha
    rw [← sum_by_key a.2.kids hwf.1 ISec.objectFile
      (fun i => if i.archive = a.1 then (if P i.archive i.objectFile = true then i.size else 0) else 0) s.inputs]
    · apply sumBy_congr
      intro o ho
      obtain ⟨_, _, hsz⟩ := hob o.1 o.2 (dget_of_mem hwf.1 ho)
      rw [hsz]
      unfold inSize
      rw [sumBy_filter]
      by_cases hP : P a.1 o.1 = true
      · rw [if_pos hP]
        apply sumBy_congr
        intro i _
        by_cases h1 : i.archive = a.1 <;> by_cases h2 : i.objectFile = o.1 <;> simp [h1, h2, hP]
      · rw [if_neg hP]
        symm
        apply sumBy_zero
        intro i _
        by_cases h1 : i.archive = a.1 <;> by_cases h2 : i.objectFile = o.1 <;> simp [h1, h2, hP]
    · intro i hi hf
      by_cases h1 : i.archive = a.1
      · exact dget_isSome.mp ((hkeys _).mpr ⟨i, hi, h1, rfl⟩)
      · simp [h1] at hf
  · intro i hi _
    exact dget_isSome.mp ((h.keys _).mpr ⟨i, hi, rfl⟩)

/-! ### The map returned by `get` -/

theorem get_secsTotal {n : Nat} {w : World} {fn : Str} {ls : Bool} {ud : Option Bool} {mf : Option MapFile} {m : MemMap} {e : Option ElfData}
    (h : getMap n w fn ls ud mf e = some (.ok m)) :
    ∃ l regs parts goes, load w fn ud mf = .ok l ∧ PartsOf n ls l regs parts ∧ (∀ s, Goes l.types regs s (goes s)) ∧ m.WF ∧
      (∀ k mt, getType m k = some mt → Holds goes parts k mt) ∧
      sumBy (fun p => p.2.used) m.memoryTypes + lostSize goes parts = sumBy (fun s => s.size) (keptOf l) ∧
      (¬ Collision goes parts → (∀ s ∈ parts, goes s ≠ none) →
        (∀ (g : Sec → Int) (v : MSec → Int), (∀ key s, g (secEntry key s) = v s) → secsTotal g m = sumBy v parts)) ∧
      (¬ Collision goes parts → (∀ s ∈ parts, goes s ≠ none) → ∀ a,
        archTotal Node.size m a = sumBy (inputSum (fun x _ _ => decide (x = a)) ISec.size) (keptOf l)) ∧
      (∀ P : Str → Str → Bool, sumBy (fun p : MSec => sumBy (fun a => sumBy (fun o => if P a.1 o.1 then o.2.size else 0) a.2.kids) p.archives) parts =
        sumBy (inputSum (fun x y _ => P x y) ISec.size) (keptOf l)) := by
  obtain ⟨l, regs, parts, goes, hl, hp, hwf, _, _, _, _, hg, hused, htot, hold, hkeys⟩ := C58_accounted n w fn ls ud mf e m h
  refine ⟨l, regs, parts, goes, hl, hp, hg, hwf, fun k mt hk => (hold k mt hk).2.1, hused, ?_, htot, ?_⟩
  · intro hnc hall g v hv
    obtain ⟨ws, hsplit⟩ := hp.regions
    have hft := isAlias_of (splitRegions_fromTable (by intro p hp; cases hp) hsplit)
    unfold secsTotal
    have e : sumBy (fun t : Str × MType => sumBy (fun s => g s.2) t.2.sections) m.memoryTypes =
        sumBy (fun k => sumBy (entryValue goes k g) parts) (dkeys m.memoryTypes) := by
      unfold dkeys
      rw [sumBy_map]
      apply sumBy_congr
      intro p hp
      refine ((hold p.1 p.2 (dget_of_mem hwf.1 hp)).2.1).totals ?_ g
      intro i j s s' hij hi hj key h1 h2
      exact hnc ⟨i, j, s, s', _, hij, hi, hj, h1, h2⟩
    rw [e]
    apply entryValue_sum hv _ hwf.1
    intro s hs
    cases hx : goes s with
    | none => exact absurd hx (hall s hs)
    | some x => exact ⟨x, rfl, dget_isSome.mp (hkeys _ (goes_isAlias hft (key := x.2) (hx ▸ hg s)))⟩
  · intro P
    obtain ⟨osecs, hsy, rfl⟩ := hp.sections
    have hsame := symbolStep_same hsy
    have h1 : sumBy (fun p : MSec => sumBy (fun a => sumBy (fun o => if P a.1 o.1 then o.2.size else 0) a.2.kids) p.archives)
        (addArchives (splitMapSections osecs regs)) =
        sumBy (inputSum (fun x y _ => P x y) ISec.size) (splitMapSections osecs regs) := by
      symm
      exact (C23_archives (splitMapSections osecs regs)).sum fun s ms hsm => (objs_inputSum hsm P).symm
    rw [h1]
    obtain ⟨ps, hp1, hp2⟩ := C19_split_sections osecs regs
    rw [hp1, sumBy_flatMap, sumBy_perm (List.reverse_perm osecs)]
    rw [sumBy_congr fun s _ => (hp2 s).sizes _]
    rw [← kept_sum l _ (inputSum_filter _)]
    symm
    exact hsame.sum fun x y hxy => (symsOf_inputSum hxy _).symm

/-! ### The map that is shown -/

theorem secsTotal_ignoreFlash (g : Sec → Int) (m : MemMap) : secsTotal g (ignoreFlashSize m) = secsTotal g m := by
  unfold secsTotal ignoreFlashSize
  simp only [dmap, sumBy_map]
  apply sumBy_congr
  intro t _
  split <;> rfl

theorem secsTotal_removeUnused (g : Sec → Int) (m : MemMap) (hg : ∀ s : Sec, s.kids = [] → g s = 0)
    (h : ∀ t ∈ m.memoryTypes, t.2.used = 0 → t.2.sections = []) :
    secsTotal g (removeUnused m) = secsTotal g m := by
  unfold secsTotal removeUnused
  simp only [dmap, dfilter, sumBy_map]
  rw [sumBy_filter]
  apply sumBy_congr
  intro t ht
  by_cases hu : t.2.used = 0
  · simp [hu, h t ht hu]
  · simp only [hu, ne_eq, not_false_eq_true, decide_true, if_true]
    rw [sumBy_filter]
    apply sumBy_congr
    intro s _
    cases hk : s.2.kids with
    | nil => simp [hg _ hk]
    | cons x y => simp

theorem prepare_secsTotal {args : Args} {m ref d : MemMap} (hd : truthy args.diff = false) (hu : args.unify = false)
    (h : prepare args m ref = .ok d) (g : Sec → Int) (hg : ∀ s : Sec, s.kids = [] → g s = 0)
    (he : ∀ t ∈ m.memoryTypes, t.2.used = 0 → t.2.sections = []) : secsTotal g d = secsTotal g m := by
  unfold prepare at h
  simp only [hd, hu, Bool.false_eq_true, if_false, bind, Except.bind, Except.ok.injEq] at h
  subst h
  have h1 : secsTotal g (if args.showUnused then m else removeUnused m) = secsTotal g m := by
    split
    · rfl
    · exact secsTotal_removeUnused g m hg he
  split
  · exact h1
  · rw [secsTotal_ignoreFlash]; exact h1

theorem prepare_used {args : Args} {m ref d : MemMap} (hd : truthy args.diff = false) (hu : args.unify = false)
    (hs : args.showUnused = true) (h : prepare args m ref = .ok d) :
    sumBy (fun p => p.2.used) d.memoryTypes = sumBy (fun p => p.2.used) m.memoryTypes := by
  unfold prepare at h
  simp only [hd, hu, hs, Bool.false_eq_true, if_false, if_true, bind, Except.bind, Except.ok.injEq] at h
  subst h
  split
  · rfl
  · unfold ignoreFlashSize
    simp only [dmap, sumBy_map]
    apply sumBy_congr
    intro t _
    split <;> rfl

/-- A memory type in which nothing is used has no sections, when all parts have a size. -/
theorem empty_of_unused {goes : MSec → Option (Str × Str)} {parts : List MSec} {k : Str} {mt : MType} (ho : Holds goes parts k mt)
    (hps : ∀ p ∈ parts, 0 < p.size) (hu : mt.used = 0) : mt.sections = [] := by
  cases hs : mt.sections with
  | nil => rfl
  | cons q qs =>
    exfalso
    obtain ⟨p, hp1, hp2⟩ := (ho.keys q.1).mp (by rw [hs, dget_cons]; simp)
    have hused := ho.used
    rw [hu, sumBy_filter] at hused
    have hlt : ∀ ps : List MSec, (∀ p ∈ ps, 0 < p.size) → p ∈ ps →
        0 < sumBy (fun s => if (goes s).any (fun x => decide (x.1 = k)) = true then s.size else 0) ps := by
      intro ps
      induction ps with
      | nil => intro _ h; cases h
      | cons x xs ih =>
        intro hpos hm
        have hnn : 0 ≤ sumBy (fun s => if (goes s).any (fun x => decide (x.1 = k)) = true then s.size else 0) xs :=
          sumBy_nonneg fun y hy => by
            have := hpos y (by simp [hy])
            split <;> omega
        rw [sumBy_cons]
        rcases List.mem_cons.mp hm with rfl | hm
        · rw [hp2]
          have := hpos p (by simp)
          simp only [Option.any_some, decide_true, if_true]
          omega
        · have := ih (fun y hy => hpos y (by simp [hy])) hm
          have := hpos x (by simp)
          split <;> omega
    have := hlt parts hps hp1
    omega

theorem listed_fileSum (o : ListedOut) (P : Str → Str → Bool) :
    inputSum (fun x y _ => P x y) ISec.size o.toOSec = sumBy (fun g => if P g.archive g.object then g.size else 0) o.counted := by
  unfold inputSum ListedOut.toOSec toOSec ListedOut.toPOut
  simp only [sumBy_map, List.map_map]
  apply sumBy_congr
  intro g _
  rfl

/-- The sizes of the files in the map that is shown in a run without comparison, by the lines of the link map file. -/
theorem run_map (R : RunIn) (input : Str) (args : Args) (rep : Report) {lines : List Str}
    {regs : List Region} {target : Str} {os : List ListedOut} {t : List (Str × List (Str × Str))}
    (hlines : R.w.lines input = .ok lines) (hfile : MapFileText regs target os t lines)
    (hpads : ∀ o ∈ os, ∀ i ∈ o.inputs, SimplePads o.address o.size i)
    (hdiff : truthy args.diff = false) (huni : args.unify = false)
    (hdwarf : wantDwarf R.w input (useDwarfOf args) = false) (h : makeReport R input args = some (.ok rep)) :
    ∃ l regions parts goes d crt elf, load R.w input (useDwarfOf args) none = .ok l ∧
      PartsOf R.n (loadSymbolsOf args) l regions parts ∧ (∀ s, Goes l.types regions s (goes s)) ∧
      showReport R crt elf { args with abbrev_ := !args.noAbbrev } d = .ok rep ∧ d.WF ∧
      (args.showUnused = true →
        sumBy (fun p => p.2.used) d.memoryTypes + lostSize goes parts = listedUsed (l.elf.map ElfData.shdrs) os) ∧
      (¬ Collision goes parts → (∀ s ∈ parts, goes s ≠ none) → ∀ P : Str → Str → Bool,
        sumObjs d (fun _ _ a o => if P a.1 o.1 then o.2.size else 0) =
          sumBy (fun o => sumBy (fun g => if P g.archive g.object then g.size else 0) o.counted)
            (listedKept (l.elf.map ElfData.shdrs) os)) ∧
      (¬ Collision goes parts → (∀ s ∈ parts, goes s ≠ none) → ∀ a,
        archTotal Node.size d a = listedTotal (l.elf.map ElfData.shdrs) os a) := by
  obtain ⟨mf, elf, m, ref, d, h1, _, h3, _, h5, h6⟩ := makeReport_ok h
  have heff := eff_simple hdiff huni
  rw [heff] at h3 h5 h6
  have hmf : mf = { regions := regs, target := target, sections := os.map ListedOut.toPOut, crt := some t } := by
    unfold loadMap at h1
    rw [hlines] at h1
    simp only [C70_map_file_partial hfile hpads, Except.ok.injEq] at h1
    exact h1.symm
  obtain ⟨l, regions, parts, goes, hl, hp, hg, hwf, hold, hused, htot, harch, hsum⟩ := get_secsTotal h3
  have hl' : load R.w input (useDwarfOf args) none = .ok l := by
    have : useMap R.w input none = useMap R.w input (some mf) := by simp [useMap, h1, wrapMap]
    unfold load at hl ⊢
    rw [this]; exact hl
  have hkept := keptOf_listed (load_listed hl hdwarf (by rw [hmf]))
  have hpos : ∀ s ∈ keptOf l, 0 < s.size := by
    intro s hs
    have hk : s.size ≠ 0 := by
      have hk := (List.mem_filter.mp hs).2
      simp only [decide_eq_true_eq] at hk
      exact hk.1
    rw [hkept] at hs
    obtain ⟨o, ho, rfl⟩ := List.mem_map.mp hs
    have : 0 ≤ o.size := by
      cases hfile with
      | mk _ _ _ h4 _ _ => exact outsText_nonneg h4 o (List.mem_filter.mp ho).1
    have e : o.toOSec.size = o.size := rfl
    omega
  have hempty : ∀ t ∈ m.memoryTypes, t.2.used = 0 → t.2.sections = [] := by
    intro t ht hu
    refine empty_of_unused (hold t.1 t.2 (dget_of_mem hwf.1 ht)) ?_ hu
    intro p hpp
    obtain ⟨s, hs, _, h2, _⟩ := parts_from hp hpp
    exact h2 (hpos s hs)
  have hfiles : ¬ Collision goes parts → (∀ s ∈ parts, goes s ≠ none) → ∀ P : Str → Str → Bool,
        sumObjs d (fun _ _ a o => if P a.1 o.1 then o.2.size else 0) =
          sumBy (fun o => sumBy (fun g => if P g.archive g.object then g.size else 0) o.counted)
            (listedKept (l.elf.map ElfData.shdrs) os) := by
    intro hnc hall P
    let g : Sec → Int := fun s => sumBy (fun a => sumBy (fun o => if P a.1 o.1 then o.2.size else 0) a.2.kids) s.kids
    have e1 : secsTotal g d = secsTotal g m :=
      prepare_secsTotal (args := { args with abbrev_ := !args.noAbbrev }) hdiff huni h5 g
        (by intro s hs; simp only [g, hs, sumBy_nil]) hempty
    have e2 := htot hnc hall g (fun s : MSec => sumBy (fun a => sumBy (fun o => if P a.1 o.1 then o.2.size else 0) a.2.kids) s.archives)
      (fun key s => rfl)
    have e3 : sumObjs d (fun _ _ a o => if P a.1 o.1 then o.2.size else 0) = secsTotal g d := rfl
    rw [e3, e1, e2]
    refine (hsum P).trans ?_
    rw [hkept, sumBy_map]
    exact sumBy_congr fun o _ => listed_fileSum o P
  refine ⟨l, regions, parts, goes, d, _, _, hl', hp, hg, h6, ?_, ?_, hfiles, ?_⟩
  · exact (prepare_shown hwf (args := { args with abbrev_ := !args.noAbbrev }) hdiff huni h5).wf
  · intro hs
    rw [prepare_used (args := { args with abbrev_ := !args.noAbbrev }) hdiff huni hs h5, hused, hkept, sumBy_map]
    rfl
  · intro hnc hall a
    rw [(prepare_shown hwf (args := { args with abbrev_ := !args.noAbbrev }) hdiff huni h5).totals hempty a, harch hnc hall a,
      hkept, sumBy_map]
    unfold listedTotal
    exact sumBy_congr fun o _ => listed_inputSum o a

/-! ### Sorted entries -/

theorem all2_left {α β : Type} {Q : α → β → Prop} {a : List α} {b : List β} (h : All2 Q a b) :
    ∀ x ∈ a, ∃ y ∈ b, Q x y := by
  induction a generalizing b with
  | nil => intro x hx; cases hx
  | cons x a ih =>
    cases b with
    | nil => exact h.elim
    | cons y b =>
      intro z hz
      rcases List.mem_cons.mp hz with rfl | hz
      · exact ⟨y, by simp, h.1⟩
      · obtain ⟨w, hw, e⟩ := ih h.2 z hz
        exact ⟨w, by simp [hw], e⟩

theorem all2_map_eq {α β γ : Type} {Q : α → β → Prop} {f : α → γ} {g : β → γ} (hfg : ∀ x y, Q x y → g y = f x)
    {a : List α} {b : List β} (h : All2 Q a b) : b.map g = a.map f := by
  induction a generalizing b with
  | nil => cases b with
    | nil => rfl
    | cons _ _ => exact h.elim
  | cons x a ih =>
    cases b with
    | nil => exact h.elim
    | cons y b => simp only [List.map_cons, hfg x y h.1, ih h.2]

theorem entries_sorted {diff rev : Bool} {E E' : Dict Str Entry} (h : EntriesSorted diff rev E E') (hE : KeysNodup E) :
    KeysNodup E' ∧ (∀ k, (dget E' k).isSome = (dget E k).isSome) ∧
      (∀ k e', dget E' k = some e' → ∃ e, dget E k = some e ∧ EntrySorted diff rev e e') ∧
      E'.Pairwise (fun x y => if rev then (if diff then y.2.sizeDiff else y.2.size) ≤ (if diff then x.2.sizeDiff else x.2.size)
        else (if diff then x.2.sizeDiff else x.2.size) ≤ (if diff then y.2.sizeDiff else y.2.size)) := by
  obtain ⟨mid, hs, ha⟩ := h
  have hkeys : dkeys E' = dkeys mid := all2_map_eq (fun x y hxy => hxy.1) ha
  have hmid : KeysNodup mid := (hs.perm.map Prod.fst).nodup_iff.mpr hE
  have hE' : KeysNodup E' := by unfold KeysNodup; rw [hkeys]; exact hmid
  refine ⟨hE', ?_, ?_, ?_⟩
  · intro k
    rw [Bool.eq_iff_iff, dget_isSome, dget_isSome, hkeys]
    exact (hs.perm.map Prod.fst).mem_iff
  · intro k e' he'
    obtain ⟨p, hp, hk, hr⟩ := All2.mem_right ha (mem_of_dget he')
    refine ⟨p.2, ?_, hr⟩
    have := dget_of_mem hE (hs.perm.mem_iff.mp hp)
    simp only [] at hk
    rw [hk]; exact this
  · have e : E'.map (fun p => if diff then p.2.sizeDiff else p.2.size) = mid.map (fun p => if diff then p.2.sizeDiff else p.2.size) :=
      all2_map_eq (fun x y hxy => by rw [hxy.2.2.1, hxy.2.2.2.1]) ha
    have h1 := hs.sorted
    rw [← List.pairwise_map (f := fun p : Str × Entry => if diff then p.2.sizeDiff else p.2.size)
      (R := fun x y => if rev then y ≤ x else x ≤ y)] at h1 ⊢
    rw [e]; exact h1

theorem archives_nodup {d : MemMap} (hd : d.WF) {args : Args} {S : Dict Str Entry} (h : getArchivesSummary d args = .ok S) :
    KeysNodup S := by
  obtain ⟨E', hE', inv⟩ := summarize_inv (mtWF_summaryTypes hd) _ (archRecs_ok hd)
  unfold getArchivesSummary at h
  simp only [hE', bind, Except.bind, Except.ok.injEq] at h
  subst h
  unfold remSummaryUnchanged
  split
  · exact inv.nodup
  · exact inv.nodup.dfilter _

theorem files_nodup {d : MemMap} (hd : d.WF) {args : Args} {S : Dict Str Entry} (h : getObjectFilesSummary d args = .ok S) :
    KeysNodup S := by
  obtain ⟨E', hE', inv⟩ := summarize_inv (mtWF_summaryTypes hd) _ (objRecs_ok hd args.unify)
  unfold getObjectFilesSummary at h
  simp only [hE', bind, Except.bind, Except.ok.injEq] at h
  subst h
  unfold remSummaryUnchanged
  split
  · exact inv.nodup
  · exact inv.nodup.dfilter _

/-! ### The runs -/

/-- **C73** the run with `--archives --format json2` on a link map file, without comparison: one entry per archive, with
the sum of the sizes with which the input sections of the archive are listed in the file, over the output sections that
count.  No archive with a nonzero total is missing.  The entries are sorted by size. -/
theorem C73_json_archives_partial (R : RunIn) (input : Str) (args : Args) (rep : Report) {lines : List Str}
    {regs : List Region} {target : Str} {os : List ListedOut} {t : List (Str × List (Str × Str))}
    (hlines : R.w.lines input = .ok lines) (hfile : MapFileText regs target os t lines)
    (hpads : ∀ o ∈ os, ∀ i ∈ o.inputs, SimplePads o.address o.size i)
    (hform : args.format = str "json2") (harch : args.archives = true) (hdiff : truthy args.diff = false)
    (huni : args.unify = false) (hdwarf : wantDwarf R.w input (useDwarfOf args) = false)
    (h : makeReport R input args = some (.ok rep)) :
    ∃ l regions parts goes E, load R.w input (useDwarfOf args) none = .ok l ∧
      PartsOf R.n (loadSymbolsOf args) l regions parts ∧ (∀ s, Goes l.types regions s (goes s)) ∧ rep = .entries E ∧
      KeysNodup E ∧
      (args.sortDiff = false → E.Pairwise fun x y => if args.sortReverse then y.2.size ≤ x.2.size else x.2.size ≤ y.2.size) ∧
      (¬ Collision goes parts → (∀ s ∈ parts, goes s ≠ none) →
        (∀ a e, dget E a = some e → e.size = listedTotal (l.elf.map ElfData.shdrs) os a) ∧
        ∀ a, listedTotal (l.elf.map ElfData.shdrs) os a ≠ 0 → (dget E a).isSome = true) := by
  obtain ⟨l, regions, parts, goes, d, crt, elf, hl, hp, hg, hshow, hwf, _, _, htot⟩ :=
    run_map R input args rep hlines hfile hpads hdiff huni hdwarf h
  generalize hea : { args with abbrev_ := !args.noAbbrev } = ea at hshow
  have e1 : ea.format = str "json2" := by rw [← hea]; exact hform
  have e2 : ea.archives = true := by rw [← hea]; exact harch
  have e3 : truthy ea.diff = false := by rw [← hea]; exact hdiff
  have e4 : ea.sortDiff = args.sortDiff := by rw [← hea]
  have e5 : ea.sortReverse = args.sortReverse := by rw [← hea]
  simp only [showReport, e1, showJson, e2, if_true] at hshow
  rw [if_neg (by decide)] at hshow
  obtain ⟨E, S, hS, hnd, hES, hkeys, hsizes, _⟩ := C11_archives_summary d hwf ea
  simp only [hS, bind, Except.bind, Except.ok.injEq] at hshow
  have hsort := entries_sorted (C07_summary_sorted S ea) (archives_nodup hwf hS)
  rw [e4, e5] at hsort
  have hall' : ∀ k e, dget S k = some e ↔ dget E k = some e := by
    intro k e
    rw [hES k e]
    constructor
    · exact fun h => h.1
    · exact fun h => ⟨h, fun hx => by rw [e3] at hx; cases hx⟩
  refine ⟨l, regions, parts, goes, _, hl, hp, hg, hshow.symm, hsort.1, ?_, ?_⟩
  · intro hsd
    have := hsort.2.2.2
    rw [hsd] at this
    simpa using this
  · intro hnc hall
    constructor
    · intro a e' he'
      obtain ⟨e, he, hr⟩ := hsort.2.2.1 a e' he'
      have hs := hsizes a e ((hall' a e).mp he)
      rw [hr.2.1, hs.1, htot hnc hall]
    · intro a ha
      rw [hsort.2.1 a]
      have hex : (dget E a).isSome = true := by
        rw [hkeys a]
        refine Classical.byContradiction fun hno => ha ?_
        rw [← htot hnc hall a]
        unfold archTotal
        apply sumBy_zero
        intro t' ht'
        apply sumBy_zero
        intro s' hs'
        cases hk : dget s'.2.kids a with
        | none => rfl
        | some ar =>
          refine absurd ⟨t'.1, s'.1, ?_⟩ hno
          have hsd : getSec d t'.1 s'.1 = some s'.2 :=
            Option.bind_eq_some_iff.mpr ⟨t'.2, dget_of_mem hwf.1 ht', dget_of_mem (hwf.2 t' ht').1 hs'⟩
          unfold getArch
          rw [hsd]
          simp [hk]
      obtain ⟨e, he⟩ := Option.isSome_iff_exists.mp hex
      rw [(hall' a e).mpr he]; rfl

/-- **C73** the run with `--files --format json2`: one entry per file, named `archive:object`, with the sum of the sizes
with which the input sections of the file are listed in the link map file, over the output sections that count.  No file
with a nonzero total is missing.  The entries are sorted by size. -/
theorem C73_json_files_partial (R : RunIn) (input : Str) (args : Args) (rep : Report) {lines : List Str}
    {regs : List Region} {target : Str} {os : List ListedOut} {t : List (Str × List (Str × Str))}
    (hlines : R.w.lines input = .ok lines) (hfile : MapFileText regs target os t lines)
    (hpads : ∀ o ∈ os, ∀ i ∈ o.inputs, SimplePads o.address o.size i)
    (hform : args.format = str "json2") (hfiles : args.files = true) (harch : args.archives = false)
    (hdet : truthy args.archiveDetails = false) (hdep : args.archiveDependencies = false) (hdiff : truthy args.diff = false)
    (huni : args.unify = false) (hdwarf : wantDwarf R.w input (useDwarfOf args) = false)
    (h : makeReport R input args = some (.ok rep)) :
    ∃ l regions parts goes E, load R.w input (useDwarfOf args) none = .ok l ∧
      PartsOf R.n (loadSymbolsOf args) l regions parts ∧ (∀ s, Goes l.types regions s (goes s)) ∧ rep = .entries E ∧
      KeysNodup E ∧
      (args.sortDiff = false → E.Pairwise fun x y => if args.sortReverse then y.2.size ≤ x.2.size else x.2.size ≤ y.2.size) ∧
      (¬ Collision goes parts → (∀ s ∈ parts, goes s ≠ none) →
        (∀ k e, dget E k = some e → e.size = listedFileTotal (l.elf.map ElfData.shdrs) os k) ∧
        ∀ k, listedFileTotal (l.elf.map ElfData.shdrs) os k ≠ 0 → (dget E k).isSome = true) := by
  obtain ⟨l, regions, parts, goes, d, crt, elf, hl, hp, hg, hshow, hwf, _, htot, _⟩ :=
    run_map R input args rep hlines hfile hpads hdiff huni hdwarf h
  generalize hea : { args with abbrev_ := !args.noAbbrev } = ea at hshow
  have e1 : ea.format = str "json2" := by rw [← hea]; exact hform
  have e2 : ea.archives = false := by rw [← hea]; exact harch
  have e3 : truthy ea.diff = false := by rw [← hea]; exact hdiff
  have e4 : ea.sortDiff = args.sortDiff := by rw [← hea]
  have e5 : ea.sortReverse = args.sortReverse := by rw [← hea]
  have e6 : ea.files = true := by rw [← hea]; exact hfiles
  have e7 : truthy ea.archiveDetails = false := by rw [← hea]; exact hdet
  have e8 : ea.archiveDependencies = false := by rw [← hea]; exact hdep
  have e9 : ea.unify = false := by rw [← hea]; exact huni
  simp only [showReport, e1, showJson, e2, e6, e7, e8, if_true] at hshow
  rw [if_neg (by decide)] at hshow
  obtain ⟨E, S, hS, hnd, hES, hkeys, _⟩ := C12_files_summary_partial d hwf ea
  simp only [hS, bind, Except.bind, Except.ok.injEq, Bool.false_eq_true, if_false] at hshow
  have hsort := entries_sorted (C07_summary_sorted S ea) (files_nodup hwf hS)
  rw [e4, e5] at hsort
  have hall' : ∀ k e, dget S k = some e ↔ dget E k = some e := by
    intro k e
    rw [hES k e]
    constructor
    · exact fun h => h.1
    · exact fun h => ⟨h, fun hx => by rw [e3] at hx; cases hx⟩
  have hkey : ¬ Collision goes parts → (∀ s ∈ parts, goes s ≠ none) → ∀ k,
      sumObjs d (fun _ _ a o => if objKey ea.unify a o = k then o.2.size else 0) =
        listedFileTotal (l.elf.map ElfData.shdrs) os k := by
    intro hnc hall k
    have := htot hnc hall (fun a o => decide (a ++ str ":" ++ o = k))
    simp only [decide_eq_true_eq] at this
    rw [e9]
    exact this
  refine ⟨l, regions, parts, goes, _, hl, hp, hg, hshow.symm, hsort.1, ?_, ?_⟩
  · intro hsd
    have := hsort.2.2.2
    rw [hsd] at this
    simpa using this
  · intro hnc hall
    constructor
    · intro k e' he'
      obtain ⟨e, he, hr⟩ := hsort.2.2.1 k e' he'
      rw [hr.2.1, (C12_entries d hwf ea hS he).2.1]
      exact hkey hnc hall k
    · intro k hk
      rw [hsort.2.1 k]
      have hex : (dget E k).isSome = true := by
        rw [hkeys k]
        refine Classical.byContradiction fun hno => hk ?_
        rw [← hkey hnc hall k]
        apply sumBy_zero
        intro t' ht'
        apply sumBy_zero
        intro s' hs'
        apply sumBy_zero
        intro a ha
        apply sumBy_zero
        intro o ho
        refine if_neg ?_
        intro hk'
        refine hno ⟨t'.1, s'.1, a.1, o.1, o.2, ?_, ?_⟩
        · have h1 := hwf.2 t' ht'
          have h2 := h1.2 s' hs'
          have h3 := h2.2 a ha
          exact Option.bind_eq_some_iff.mpr ⟨a.2, Option.bind_eq_some_iff.mpr ⟨s'.2,
            Option.bind_eq_some_iff.mpr ⟨t'.2, dget_of_mem hwf.1 ht', dget_of_mem h1.1 hs'⟩,
            dget_of_mem h2.1 ha⟩, dget_of_mem h3.1 ho⟩
        · rw [e9] at hk' ⊢
          rw [← hk']
          simp [objKey, join]
      obtain ⟨e, he⟩ := Option.isSome_iff_exists.mp hex
      rw [(hall' k e).mpr he]; rfl

/-- **C73** the run with `--format raw --show-unused`: the used sizes of all memory types, together with the parts that fit
in no memory type, add up to the sizes with which the output sections that count are listed in the link map file. -/
theorem C73_raw_used_partial (R : RunIn) (input : Str) (args : Args) (rep : Report) {lines : List Str}
    {regs : List Region} {target : Str} {os : List ListedOut} {t : List (Str × List (Str × Str))}
    (hlines : R.w.lines input = .ok lines) (hfile : MapFileText regs target os t lines)
    (hpads : ∀ o ∈ os, ∀ i ∈ o.inputs, SimplePads o.address o.size i)
    (hform : args.format = str "raw") (hunused : args.showUnused = true) (hdep : args.archiveDependencies = false)
    (hdiff : truthy args.diff = false)
    (huni : args.unify = false) (hdwarf : wantDwarf R.w input (useDwarfOf args) = false)
    (h : makeReport R input args = some (.ok rep)) :
    ∃ l regions parts goes d, load R.w input (useDwarfOf args) none = .ok l ∧
      PartsOf R.n (loadSymbolsOf args) l regions parts ∧ (∀ s, Goes l.types regions s (goes s)) ∧ rep = .raw d ∧
      sumBy (fun p => p.2.used) d.memoryTypes + lostSize goes parts = listedUsed (l.elf.map ElfData.shdrs) os := by
  obtain ⟨l, regions, parts, goes, d, crt, elf, hl, hp, hg, hshow, hwf, hused, _⟩ :=
    run_map R input args rep hlines hfile hpads hdiff huni hdwarf h
  simp only [showReport, hform, hdep, if_true] at hshow
  rw [if_neg (by decide), if_neg (by decide)] at hshow
  simp only [Bool.false_eq_true, if_false, Except.ok.injEq] at hshow
  exact ⟨l, regions, parts, goes, d, hl, hp, hg, hshow.symm, hused hunused⟩

/-! ### Examples -/

def exEntries : Option (Except Err Report) → Option (List (Str × Int))
  | some (.ok (.entries E)) => some (E.map fun p => (p.1, p.2.size))
  | _ => none

def exUsed : Option (Except Err Report) → Option (List (Str × Int))
  | some (.ok (.raw d)) => some (d.memoryTypes.map fun p => (p.1, p.2.used))
  | _ => none

example : exEntries (makeReport (exRun exCsvWorld) (str "/b/x.map") { format := str "json2", archives := true }) =
    some [(str "lib/liba.a", 28), (str "lib/libb.a", 8)] := by decide +kernel

example : exEntries (makeReport (exRun exCsvWorld) (str "/b/x.map") { format := str "json2", files := true }) =
    some [(str "lib/liba.a:a.o", 28), (str "lib/libb.a:b.o", 8)] := by decide +kernel

example : exUsed (makeReport (exRun exCsvWorld) (str "/b/x.map") { format := str "raw", showUnused := true }) =
    some [(str "IRAM", 36)] := by decide +kernel

end EspSize
