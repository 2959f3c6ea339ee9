import Verif.Props.DiffTotals
/-!
# C77: reports of whole runs, with and without `--diff` and `--unify`
-/
namespace EspSize

/-- A link map file that lists the output sections `os`. -/
structure ListsOuts (w : World) (fn : Str) (os : List ListedOut) : Prop where
  text : ∃ lines regs target t, w.lines fn = .ok lines ∧ MapFileText regs target os t lines
  pads : ∀ o ∈ os, ∀ i ∈ o.inputs, SimplePads o.address o.size i

/-- What was read for a project, how its output sections were cut into parts, and where the parts go. -/
structure Project (R : RunIn) (args : Args) (fn : Str) (l : GetIn) (parts : List MSec) (goes : MSec → Option (Str × Str)) : Prop where
  loads : load R.w fn (useDwarfOf args) none = .ok l
  assigned : ∃ regions, PartsOf R.n (loadSymbolsOf args) l regions parts ∧ ∀ s, Goes l.types regions s (goes s)

/-- What is shown of a project for the files selected by `P`. -/
noncomputable def projectShown (l : GetIn) (os : List ListedOut) (goes : MSec → Option (Str × Str)) (parts : List MSec)
    (P : Str → Str → Bool) : Int := shownBy (l.elf.map ElfData.shdrs) os goes parts P

/-- The map of a project. -/
structure ProjectMap (l : GetIn) (os : List ListedOut) (goes : MSec → Option (Str × Str)) (parts : List MSec) (m : MemMap) : Prop where
  wf : m.WF
  named : NamedMap m
  empty : UnusedEmpty m
  files : ∀ P, sumObjs m (fun _ _ a o => if P a.1 o.1 then o.2.size else 0) = projectShown l os goes parts P
  archs : ∀ w : Str → Bool, sumArchs m (fun _ _ a => if w a.1 then a.2.size else 0) = projectShown l os goes parts fun a _ => w a
  noFileDiff : ∀ w : Str → Str → Bool, sumObjs m (fun _ _ a o => if w a.1 o.1 then o.2.sizeDiff else 0) = 0
  noArchDiff : ∀ w : Str → Bool, sumArchs m (fun _ _ a => if w a.1 then a.2.sizeDiff else 0) = 0

theorem parts_archives {n : Nat} {ls : Bool} {l : GetIn} {regs : List SReg} {parts : List MSec} (h : PartsOf n ls l regs parts)
    {p : MSec} (hp : p ∈ parts) : ∃ s, ArchivesOk s p := by
  obtain ⟨osecs, _, rfl⟩ := h.sections
  obtain ⟨q, _, hok⟩ := (C23_archives (splitMapSections osecs regs)).mem_right hp
  exact ⟨q, hok⟩

/-- The map of a project whose link map file lists `os`. -/
theorem project_map {R : RunIn} {args : Args} {fn : Str} {os : List ListedOut} (hlist : ListsOuts R.w fn os)
    (hdwarf : wantDwarf R.w fn (useDwarfOf args) = false) {mf : MapFile} (hmf : loadMap R.w fn = .ok mf) {m : MemMap} {e : Option ElfData}
    (h : getMap R.n R.w fn (loadSymbolsOf args) (useDwarfOf args) (some mf) e = some (.ok m)) :
    ∃ l parts goes, Project R args fn l parts goes ∧ ProjectMap l os goes parts m := by
  obtain ⟨⟨lines, regs, target, t, hlines, hfile⟩, hpads⟩ := hlist
  have hmf' : mf = { regions := regs, target := target, sections := os.map ListedOut.toPOut, crt := some t } := by
    unfold loadMap at hmf
    rw [hlines] at hmf
    simp only [C70_map_file_partial hfile hpads, Except.ok.injEq] at hmf
    exact hmf.symm
  obtain ⟨l, regions, parts, goes, hl, hp, hg, hwf, hsec, hold, _, htot, hsum⟩ := get_shown h
  have hl' : load R.w fn (useDwarfOf args) none = .ok l := by
    have : useMap R.w fn none = useMap R.w fn (some mf) := by simp [useMap, hmf, wrapMap]
    unfold load at hl ⊢
    rw [this]; exact hl
  have hkept := keptOf_listed (load_listed hl hdwarf (by rw [hmf']))
  have hpos : ∀ s ∈ keptOf l, 0 < s.size := by
    intro s hs
    have hk : s.size ≠ 0 := by
      have hk := (List.mem_filter.mp hs).2
      simp only [decide_eq_true_eq] at hk
      exact hk.1
    rw [hkept] at hs
    obtain ⟨o, ho, rfl⟩ := List.mem_map.mp hs
    have : 0 ≤ o.size := by
      cases hfile with
      | mk _ _ _ h4 _ _ => exact outsText_nonneg h4 o (List.mem_filter.mp ho).1
    have e : o.toOSec.size = o.size := rfl
    omega
  -- the archives of the map are the archives of a part
  have hfrom : ∀ t ∈ m.memoryTypes, ∀ s ∈ t.2.sections, ∃ p q, ArchivesOk q p ∧ s.2.kids = p.archives := by
    intro t ht s hs
    have hg' : getSec m t.1 s.1 = some s.2 :=
      Option.bind_eq_some_iff.mpr ⟨t.2, dget_of_mem hwf.1 ht, dget_of_mem (hwf.2 t ht).1 hs⟩
    obtain ⟨_, p, hpp, hx, _⟩ := hsec _ _ _ hg'
    obtain ⟨q, hq⟩ := parts_archives hp hpp
    exact ⟨p, q, hq, by rw [hx]; rfl⟩
  have harch : ∀ t ∈ m.memoryTypes, ∀ s ∈ t.2.sections, ∀ a ∈ s.2.kids, a.2.abb = basename a.1 ∧ a.2.sizeDiff = 0 ∧
      a.2.size = sumBy (fun o => o.2.size) a.2.kids ∧ ∀ o ∈ a.2.kids, o.2.abb = basename o.1 ∧ o.2.sizeDiff = 0 := by
    intro t ht s hs a ha
    obtain ⟨p, q, hok, hk⟩ := hfrom t ht s hs
    rw [hk] at ha
    obtain ⟨h1, h2, _, h4, _, h6⟩ := hok.arch a.1 a.2 (dget_of_mem hok.wf.1 ha)
    refine ⟨h1, h2, h4, fun o ho => ?_⟩
    have := h6 o.1 o.2 (dget_of_mem (hok.wf.2 a ha).1 ho)
    exact ⟨this.1, this.2.1⟩
  have hfiles : ∀ P : Str → Str → Bool, sumObjs m (fun _ _ a o => if P a.1 o.1 then o.2.size else 0) = projectShown l os goes parts P := by
    intro P
    have e1 := htot (fun s => sumBy (fun a => sumBy (fun o => if P a.1 o.1 then o.2.size else 0) a.2.kids) s.kids)
      (fun s : MSec => sumBy (fun a => sumBy (fun o => if P a.1 o.1 then o.2.size else 0) a.2.kids) s.archives) (fun key s => rfl)
    have e2 := shown_lost_sum (goes := goes) (fun s : MSec => sumBy (fun a => sumBy (fun o => if P a.1 o.1 then o.2.size else 0) a.2.kids) s.archives) parts
    have e3 : partsFiles P parts = listedBy (l.elf.map ElfData.shdrs) os P := by
      rw [hsum P, hkept, sumBy_map]
      exact sumBy_congr fun o _ => listed_fileSum o P
    have e4 : sumObjs m (fun _ _ a o => if P a.1 o.1 then o.2.size else 0) =
      secsTotal (fun s => sumBy (fun a => sumBy (fun o => if P a.1 o.1 then o.2.size else 0) a.2.kids) s.kids) m := rfl
    rw [e4, e1]
    unfold projectShown shownBy
    rw [← e3]
    unfold partsFiles
    omega
  refine ⟨l, parts, goes, ⟨hl', regions, hp, hg⟩, hwf, ?_, ?_, hfiles, ?_, ?_, ?_⟩
  · intro t ht s hs a ha
    obtain ⟨h1, _, _, h4⟩ := harch t ht s hs a ha
    exact ⟨h1, fun o ho => (h4 o ho).1⟩
  · intro t ht hu
    refine empty_of_unused (hold t.1 t.2 (dget_of_mem hwf.1 ht)).2 ?_ hu
    intro p hpp
    obtain ⟨s, hs, _, h2, _⟩ := parts_from hp hpp
    exact h2 (hpos s hs)
  · intro w
    rw [← hfiles fun a _ => w a]
    unfold sumObjs
    apply sumArchs_congr
    intro t ht s hs a ha
    cases hw : w a.1 with
    | false => simp only [hw, Bool.false_eq_true, if_false]; exact (sumBy_zero fun _ _ => rfl).symm
    | true => simp only [hw, if_true]; exact (harch t ht s hs a ha).2.2.1
  · intro w
    rw [sumObjs_congr (G := fun _ _ _ _ => 0)]
    · exact sumBy_zero fun _ _ => sumBy_zero fun _ _ => sumBy_zero fun _ _ => sumBy_zero fun _ _ => rfl
    · intro t ht s hs a ha o ho
      simp [((harch t ht s hs a ha).2.2.2 o ho).2]
  · intro w
    rw [sumArchs_congr (G := fun _ _ _ => 0)]
    · exact sumBy_zero fun _ _ => sumBy_zero fun _ _ => sumBy_zero fun _ _ => rfl
    · intro t ht s hs a ha
      simp [(harch t ht s hs a ha).2.1]

/-! ### Runs -/

theorem eff_names (args : Args) (h : args.archiveDependencies = false ∨ truthy args.diff = false) :
    ∃ b c, effectiveArgs args = { args with noAbbrev := b, abbrev_ := c } := by
  have hx : (args.archiveDependencies && truthy args.diff) = false := by rcases h with h | h <;> simp [h]
  refine ⟨if args.noAbbrev && args.unify then false else args.noAbbrev,
    !(if args.noAbbrev && args.unify then false else args.noAbbrev), ?_⟩
  unfold effectiveArgs
  by_cases hc : (args.noAbbrev && args.unify) = true
  · simp only [hc, if_true, hx, Bool.false_eq_true, if_false]
  · simp only [hc, hx, Bool.false_eq_true, if_false]

/-- What is shown in a run without comparison. -/
theorem run_plain {R : RunIn} {input : Str} {args : Args} {rep : Report} {os : List ListedOut} (hlist : ListsOuts R.w input os)
    (hdiff : truthy args.diff = false) (hdwarf : wantDwarf R.w input (useDwarfOf args) = false)
    (h : makeReport R input args = some (.ok rep)) :
    ∃ l parts goes m d crt elf b c, Project R args input l parts goes ∧ ProjectMap l os goes parts m ∧
      PrepTotals args.unify false m m d ∧ showReport R crt elf { args with noAbbrev := b, abbrev_ := c } d = .ok rep := by
  obtain ⟨mf, elf, m, ref, d, h1, _, h3, h4, h5, h6⟩ := makeReport_ok h
  obtain ⟨b, c, heff⟩ := eff_names args (.inr hdiff)
  rw [heff] at h3 h4 h5 h6
  obtain ⟨l, parts, goes, hp, hm⟩ := project_map hlist hdwarf h1 h3
  have := prepare_totals hm.wf hm.named hm.empty (by intro hx; rw [hdiff] at hx; cases hx) h5
  simp only [hdiff] at this
  refine ⟨l, parts, goes, m, d, _, _, b, c, hp, hm, ?_, h6⟩
  exact ⟨this.wf, this.archSize, this.archDiff, this.fileSize, this.fileDiff⟩

/-- What is shown in a run with `--diff`. -/
theorem run_diff {R : RunIn} {input reference : Str} {args : Args} {rep : Report} {os os' : List ListedOut}
    (hlist : ListsOuts R.w input os) (hlist' : ListsOuts R.w reference os')
    (hdiff : args.diff = some reference) (hne : reference ≠ []) (hdep : args.archiveDependencies = false)
    (hdwarf : wantDwarf R.w input (useDwarfOf args) = false) (hdwarf' : wantDwarf R.w reference (useDwarfOf args) = false)
    (h : makeReport R input args = some (.ok rep)) :
    ∃ l parts goes m l' parts' goes' m' d crt elf b c,
      Project R args input l parts goes ∧ ProjectMap l os goes parts m ∧
      Project R args reference l' parts' goes' ∧ ProjectMap l' os' goes' parts' m' ∧
      PrepTotals args.unify true m m' d ∧ showReport R crt elf { args with noAbbrev := b, abbrev_ := c } d = .ok rep := by
  obtain ⟨mf, elf, m, ref, d, h1, _, h3, h4, h5, h6⟩ := makeReport_ok h
  obtain ⟨b, c, heff⟩ := eff_names args (.inl hdep)
  rw [heff] at h3 h4 h5 h6
  obtain ⟨l, parts, goes, hp, hm⟩ := project_map hlist hdwarf h1 h3
  have hd : truthy args.diff = true := by
    rw [hdiff]
    cases reference with
    | nil => exact absurd rfl hne
    | cons _ _ => rfl
  obtain ⟨mf', h1'⟩ : ∃ mf', loadMap R.w reference = .ok mf' := by
    obtain ⟨⟨lines, regs, target, t, hlines, hfile⟩, hpads⟩ := hlist'
    refine ⟨{ regions := regs, target := target, sections := os'.map ListedOut.toPOut, crt := some t }, ?_⟩
    unfold loadMap
    rw [hlines]
    simp only [C70_map_file_partial hfile hpads]
  have h3' : getMap R.n R.w reference (loadSymbolsOf args) (useDwarfOf args) (some mf') none = some (.ok ref) := by
    rw [← getMap_self (e := none) h1']
    unfold referenceMap at h4
    cases reference with
    | nil => exact absurd rfl hne
    | cons x y =>
      simp only [hdiff] at h4
      exact h4
  obtain ⟨l', parts', goes', hp', hm'⟩ := project_map hlist' hdwarf' h1' h3'
  have := prepare_totals hm.wf hm.named hm.empty (fun _ => ⟨hm'.wf, hm'.named, hm'.empty⟩) h5
  simp only [hd] at this
  refine ⟨l, parts, goes, m, l', parts', goes', ref, d, _, _, b, c, hp, hm, hp', hm', ?_, h6⟩
  exact ⟨this.wf, this.archSize, this.archDiff, this.fileSize, this.fileDiff⟩

/-! ### Entries -/

/-- The order of the entries. -/
def InOrder (args : Args) (E : Dict Str Entry) : Prop :=
  E.Pairwise fun x y =>
    let v := fun e : Entry => if args.sortDiff then e.sizeDiff else e.size
    if args.sortReverse then v y.2 ≤ v x.2 else v x.2 ≤ v y.2

theorem sumBy_key_one {α : Type} {d : Dict Str α} (hd : KeysNodup d) (f : α → Int) (k : Str) :
    sumBy (fun p => if p.1 = k then f p.2 else 0) d = orZero f (dget d k) := by
  induction d with
  | nil => rfl
  | cons p t ih =>
    have hn : p.1 ∉ dkeys t ∧ (dkeys t).Nodup := List.nodup_cons.mp hd
    rw [sumBy_cons, dget_cons]
    by_cases h : p.1 = k
    · subst h
      have hz : sumBy (fun q => if q.1 = p.1 then f q.2 else 0) t = 0 := by
        apply sumBy_zero
        intro q hq
        refine if_neg fun e => hn.1 ?_
        rw [← e]
        exact List.mem_map.mpr ⟨q, hq, rfl⟩
      rw [hz]
      simp [orZero]
    · rw [ih hn.2]
      simp [h]

theorem archTotal_sumArchs {d : MemMap} (hd : d.WF) (f : Arch → Int) (k : Str) :
    archTotal f d k = sumArchs d fun _ _ a => if (decide (a.1 = k)) = true then f a.2 else 0 := by
  unfold archTotal sumArchs
  apply sumBy_congr
  intro t ht
  apply sumBy_congr
  intro s hs
  have hk := ((hd.2 t ht).2 s hs).1
  simp only [decide_eq_true_eq]
  exact (sumBy_key_one hk f k).symm

/-- The JSON report of the archives of a map. -/
theorem json_archives {R : RunIn} {crt : Option Crt} {elf : Option (List ElfSym)} {args : Args} {d : MemMap} {rep : Report}
    (hwf : d.WF) (hform : args.format = str "json2") (harch : args.archives = true) (h : showReport R crt elf args d = .ok rep) :
    ∃ E, rep = .entries E ∧ KeysNodup E ∧ InOrder args E ∧
      (∀ k e, dget E k = some e →
        e.size = sumArchs d (fun _ _ a => if (decide (a.1 = k)) = true then a.2.size else 0) ∧
        e.sizeDiff = sumArchs d (fun _ _ a => if (decide (a.1 = k)) = true then a.2.sizeDiff else 0) ∧
        (truthy args.diff = true → args.showUnchanged = false → e.sizeDiff ≠ 0)) ∧
      ∀ k, (sumArchs d (fun _ _ a => if (decide (a.1 = k)) = true then a.2.sizeDiff else 0) ≠ 0 ∨
          ((truthy args.diff = true → args.showUnchanged = true) ∧
            sumArchs d (fun _ _ a => if (decide (a.1 = k)) = true then a.2.size else 0) ≠ 0)) → (dget E k).isSome = true := by
  simp only [showReport, hform, showJson, harch, if_true] at h
  rw [if_neg (by decide)] at h
  obtain ⟨E, S, hS, hnd, hES, hkeys, hsizes, _⟩ := C11_archives_summary d hwf args
  simp only [hS, bind, Except.bind, Except.ok.injEq] at h
  have hsort := entries_sorted (C07_summary_sorted S args) (archives_nodup hwf hS)
  have hval : ∀ k e, dget E k = some e →
      e.size = sumArchs d (fun _ _ a => if (decide (a.1 = k)) = true then a.2.size else 0) ∧
      e.sizeDiff = sumArchs d (fun _ _ a => if (decide (a.1 = k)) = true then a.2.sizeDiff else 0) := by
    intro k e he
    have := hsizes k e he
    rw [← archTotal_sumArchs hwf Node.size, ← archTotal_sumArchs hwf Node.sizeDiff]
    exact ⟨this.1, this.2.1⟩
  refine ⟨_, h.symm, hsort.1, hsort.2.2.2, ?_, ?_⟩
  · intro k e' he'
    obtain ⟨e, he, hr⟩ := hsort.2.2.1 k e' he'
    have h1 := (hES k e).mp he
    have h2 := hval k e h1.1
    rw [hr.2.1, hr.2.2.1]
    exact ⟨h2.1, h2.2, h1.2⟩
  · intro k hk
    rw [hsort.2.1 k]
    have hex : (dget E k).isSome = true := by
      rw [hkeys k]
      refine Classical.byContradiction fun hno => ?_
      have hz : ∀ f : Arch → Int, sumArchs d (fun _ _ a => if (decide (a.1 = k)) = true then f a.2 else 0) = 0 := by
        intro f
        apply sumBy_zero
        intro t' ht'
        apply sumBy_zero
        intro s' hs'
        apply sumBy_zero
        intro a ha
        refine if_neg ?_
        intro hk'
        refine hno ⟨t'.1, s'.1, ?_⟩
        have h1 := hwf.2 t' ht'
        have h2 := h1.2 s' hs'
        have : getArch d t'.1 s'.1 a.1 = some a.2 := Option.bind_eq_some_iff.mpr ⟨s'.2,
          Option.bind_eq_some_iff.mpr ⟨t'.2, dget_of_mem hwf.1 ht', dget_of_mem h1.1 hs'⟩, dget_of_mem h2.1 ha⟩
        rw [← of_decide_eq_true hk', this]; rfl
      rcases hk with hk | ⟨_, hk⟩
      · exact hk (hz Node.sizeDiff)
      · exact hk (hz Node.size)
    obtain ⟨e, he⟩ := Option.isSome_iff_exists.mp hex
    have : dget S k = some e := (hES k e).mpr ⟨he, fun h1 h2 => by
      rw [(hval k e he).2]
      rcases hk with hk | ⟨hk, _⟩
      · exact hk
      · rw [hk h1] at h2; cases h2⟩
    rw [this]; rfl

/-- The JSON report of the files of a map. -/
theorem json_files {R : RunIn} {crt : Option Crt} {elf : Option (List ElfSym)} {args : Args} {d : MemMap} {rep : Report}
    (hwf : d.WF) (hform : args.format = str "json2") (harch : args.archives = false) (hdet : truthy args.archiveDetails = false)
    (hdep : args.archiveDependencies = false) (hfiles : args.files = true) (h : showReport R crt elf args d = .ok rep) :
    ∃ E, rep = .entries E ∧ KeysNodup E ∧ InOrder args E ∧
      (∀ k e, dget E k = some e →
        e.size = sumObjs d (fun _ _ a o => if objKey args.unify a o = k then o.2.size else 0) ∧
        e.sizeDiff = sumObjs d (fun _ _ a o => if objKey args.unify a o = k then o.2.sizeDiff else 0) ∧
        (truthy args.diff = true → args.showUnchanged = false → e.sizeDiff ≠ 0)) ∧
      ∀ k, (sumObjs d (fun _ _ a o => if objKey args.unify a o = k then o.2.sizeDiff else 0) ≠ 0 ∨
          ((truthy args.diff = true → args.showUnchanged = true) ∧
            sumObjs d (fun _ _ a o => if objKey args.unify a o = k then o.2.size else 0) ≠ 0)) → (dget E k).isSome = true := by
  simp only [showReport, hform, showJson, harch, hdet, hdep, hfiles, if_true, Bool.false_eq_true, if_false] at h
  rw [if_neg (by decide)] at h
  obtain ⟨E, hE, inv⟩ := summarize_inv (mtWF_summaryTypes hwf) _ (objRecs_ok hwf args.unify)
  have hS : getObjectFilesSummary d args = .ok (remSummaryUnchanged E args) := by
    unfold getObjectFilesSummary
    simp [hE, bind, Except.bind]
  have hES := remSummaryUnchanged_spec args E inv.nodup
  generalize remSummaryUnchanged E args = S at hS hES
  -- the same report with unchanged entries
  have hA : getObjectFilesSummary d { args with showUnchanged := true } = .ok (remSummaryUnchanged E { args with showUnchanged := true }) := by
    unfold getObjectFilesSummary
    simp [hE, bind, Except.bind]
  have hEA : ∀ k e, dget (remSummaryUnchanged E { args with showUnchanged := true }) k = some e ↔ dget E k = some e := by
    intro k e
    rw [remSummaryUnchanged_spec _ E inv.nodup]
    simp
  have hval : ∀ k e, dget E k = some e →
      e.size = sumObjs d (fun _ _ a o => if objKey args.unify a o = k then o.2.size else 0) ∧
      e.sizeDiff = sumObjs d (fun _ _ a o => if objKey args.unify a o = k then o.2.sizeDiff else 0) := by
    intro k e he
    have := C12_entries d hwf { args with showUnchanged := true } hA ((hEA k e).mpr he)
    exact ⟨this.2.1, this.2.2.1⟩
  have hkeys : ∀ k, (dget E k).isSome = true ↔ ∃ t s a o ox, getObj d t s a o = some ox ∧
        k = if args.unify then ox.abb else join (str ":") [a, o] := by
    obtain ⟨E', R', hR', _, hER, hk, _⟩ := C12_files_summary_partial d hwf { args with showUnchanged := true }
    rw [hA] at hR'
    simp only [Except.ok.injEq] at hR'
    intro k
    rw [← hk k, Option.isSome_iff_exists, Option.isSome_iff_exists]
    constructor
    · rintro ⟨e, he⟩
      exact ⟨e, ((hER k e).mp (hR' ▸ (hEA k e).mpr he)).1⟩
    · rintro ⟨e, he⟩
      refine ⟨e, (hEA k e).mp ?_⟩
      rw [hR']
      exact (hER k e).mpr ⟨he, fun _ hx => by cases hx⟩
  simp only [hS, bind, Except.bind, Except.ok.injEq] at h
  have hsort := entries_sorted (C07_summary_sorted S args) (files_nodup hwf hS)
  refine ⟨_, h.symm, hsort.1, hsort.2.2.2, ?_, ?_⟩
  · intro k e' he'
    obtain ⟨e, he, hr⟩ := hsort.2.2.1 k e' he'
    have h1 := (hES k e).mp he
    have h2 := hval k e h1.1
    rw [hr.2.1, hr.2.2.1]
    exact ⟨h2.1, h2.2, h1.2⟩
  · intro k hk
    rw [hsort.2.1 k]
    have hex : (dget E k).isSome = true := by
      rw [hkeys k]
      refine Classical.byContradiction fun hno => ?_
      have hz : ∀ f : Obj → Int, sumObjs d (fun _ _ a o => if objKey args.unify a o = k then f o.2 else 0) = 0 := by
        intro f
        apply sumBy_zero
        intro t' ht'
        apply sumBy_zero
        intro s' hs'
        apply sumBy_zero
        intro a ha
        apply sumBy_zero
        intro o ho
        refine if_neg ?_
        intro hk'
        refine hno ⟨t'.1, s'.1, a.1, o.1, o.2, ?_, ?_⟩
        · have h1 := hwf.2 t' ht'
          have h2 := h1.2 s' hs'
          have h3 := h2.2 a ha
          exact Option.bind_eq_some_iff.mpr ⟨a.2, Option.bind_eq_some_iff.mpr ⟨s'.2,
            Option.bind_eq_some_iff.mpr ⟨t'.2, dget_of_mem hwf.1 ht', dget_of_mem h1.1 hs'⟩,
            dget_of_mem h2.1 ha⟩, dget_of_mem h3.1 ho⟩
        · rw [← hk']
          simp [objKey, join]
      rcases hk with hk | ⟨_, hk⟩
      · exact hk (hz Node.sizeDiff)
      · exact hk (hz Node.size)
    obtain ⟨e, he⟩ := Option.isSome_iff_exists.mp hex
    have : dget S k = some e := (hES k e).mpr ⟨he, fun h1 h2 => by
      rw [(hval k e he).2]
      rcases hk with hk | ⟨hk, _⟩
      · exact hk
      · rw [hk h1] at h2; cases h2⟩
    rw [this]; rfl

/-! ### The theorems -/

/-- The selection of the archives that are reported as `k`. -/
def selArch (args : Args) (k : Str) : Str → Str → Bool := fun a _ => decide (archKey args.unify a = k)

/-- The selection of the files that are reported as `k`. -/
def selFile (args : Args) (k : Str) : Str → Str → Bool := fun a o => decide (fileKey args.unify a o = k)

/-- The report of a run without comparison: the entries have the sizes listed in the link map file, and no entry with a
size is missing. -/
structure PlainReport (args : Args) (shown : Str → Int) (E : Dict Str Entry) : Prop where
  nodup : KeysNodup E
  order : InOrder args E
  sizes : ∀ k e, dget E k = some e → e.size = shown k ∧ e.sizeDiff = 0
  all : ∀ k, shown k ≠ 0 → (dget E k).isSome = true

/-- The report of a run with `--diff`: the entries have the sizes listed in the link map file and the differences to the
sizes listed in the other one, no entry with a difference is missing, and there are no others without
`--show-unchanged`. -/
structure DiffReport (args : Args) (cur ref : Str → Int) (E : Dict Str Entry) : Prop where
  nodup : KeysNodup E
  order : InOrder args E
  sizes : ∀ k e, dget E k = some e → e.size = cur k ∧ e.sizeDiff = cur k - ref k
  changed : args.showUnchanged = false → ∀ k, (dget E k).isSome = true ↔ cur k ≠ ref k
  all : ∀ k, cur k ≠ ref k → (dget E k).isSome = true
  unchanged : args.showUnchanged = true → ∀ k, cur k ≠ 0 → (dget E k).isSome = true

theorem truthy_some {s : Str} (h : s ≠ []) : truthy (some s) = true := by
  cases s with
  | nil => exact absurd rfl h
  | cons _ _ => rfl

theorem diffReport_of {args : Args} {cur ref : Str → Int} {E : Dict Str Entry} (h1 : KeysNodup E) (h2 : InOrder args E)
    (h3 : ∀ k e, dget E k = some e → e.size = cur k ∧ e.sizeDiff = cur k - ref k ∧ (args.showUnchanged = false → e.sizeDiff ≠ 0))
    (h4 : ∀ k, (cur k - ref k ≠ 0 ∨ (args.showUnchanged = true ∧ cur k ≠ 0)) → (dget E k).isSome = true) :
    DiffReport args cur ref E := by
  refine ⟨h1, h2, fun k e he => ⟨(h3 k e he).1, (h3 k e he).2.1⟩, ?_, ?_, fun h k hk => h4 k (.inr ⟨h, hk⟩)⟩
  · intro hs k
    constructor
    · intro hx
      obtain ⟨e, he⟩ := Option.isSome_iff_exists.mp hx
      have a := (h3 k e he).2.2 hs
      have b := (h3 k e he).2.1
      omega
    · intro hx
      exact h4 k (.inl (by omega))
  · intro k hk
    exact h4 k (.inl (by omega))

/-- **C77** the run with `--archives --format json2`, with or without `--unify`. -/
theorem C77_archives_partial (R : RunIn) (input : Str) (args : Args) (rep : Report) {os : List ListedOut}
    (hlist : ListsOuts R.w input os) (hform : args.format = str "json2") (harch : args.archives = true)
    (hdiff : truthy args.diff = false) (hdwarf : wantDwarf R.w input (useDwarfOf args) = false)
    (h : makeReport R input args = some (.ok rep)) :
    ∃ l parts goes E, Project R args input l parts goes ∧ rep = .entries E ∧
      PlainReport args (fun k => projectShown l os goes parts (selArch args k)) E := by
  obtain ⟨l, parts, goes, m, d, crt, elf, b, c, hp, hm, ht, hshow⟩ := run_plain hlist hdiff hdwarf h
  obtain ⟨E, hE, hnd, hord, hval, hall⟩ := json_archives (args := { args with noAbbrev := b, abbrev_ := c }) ht.wf hform harch hshow
  have hs : ∀ k, sumArchs d (fun _ _ a => if (decide (a.1 = k)) = true then a.2.size else 0) =
      projectShown l os goes parts (selArch args k) := fun k =>
    (ht.archSize fun a => decide (a = k)).trans (hm.archs fun a => decide (archKey args.unify a = k))
  have hd : ∀ k, sumArchs d (fun _ _ a => if (decide (a.1 = k)) = true then a.2.sizeDiff else 0) = 0 := fun k =>
    (ht.archDiff fun a => decide (a = k)).trans (hm.noArchDiff fun a => decide (archKey args.unify a = k))
  refine ⟨l, parts, goes, E, hp, hE, hnd, hord, ?_, ?_⟩
  · intro k e he
    obtain ⟨h1, h2, _⟩ := hval k e he
    exact ⟨h1.trans (hs k), h2.trans (hd k)⟩
  · intro k hk
    exact hall k (.inr ⟨fun hx => (by rw [hdiff] at hx; cases hx), by rw [hs k]; exact hk⟩)

/-- **C77** the run with `--files --format json2`, with or without `--unify`. -/
theorem C77_files_partial (R : RunIn) (input : Str) (args : Args) (rep : Report) {os : List ListedOut}
    (hlist : ListsOuts R.w input os) (hform : args.format = str "json2") (harch : args.archives = false)
    (hdet : truthy args.archiveDetails = false) (hdep : args.archiveDependencies = false) (hfiles : args.files = true)
    (hdiff : truthy args.diff = false) (hdwarf : wantDwarf R.w input (useDwarfOf args) = false)
    (h : makeReport R input args = some (.ok rep)) :
    ∃ l parts goes E, Project R args input l parts goes ∧ rep = .entries E ∧
      PlainReport args (fun k => projectShown l os goes parts (selFile args k)) E := by
  obtain ⟨l, parts, goes, m, d, crt, elf, b, c, hp, hm, ht, hshow⟩ := run_plain hlist hdiff hdwarf h
  obtain ⟨E, hE, hnd, hord, hval, hall⟩ := json_files (args := { args with noAbbrev := b, abbrev_ := c }) ht.wf hform harch hdet hdep hfiles hshow
  have hs : ∀ k, sumObjs d (fun _ _ a o => if objKey args.unify a o = k then o.2.size else 0) =
      projectShown l os goes parts (selFile args k) := by
    intro k
    rw [ht.fileSize k]
    have := hm.files fun a o => decide (fileKey args.unify a o = k)
    simp only [decide_eq_true_eq] at this
    exact this
  have hd : ∀ k, sumObjs d (fun _ _ a o => if objKey args.unify a o = k then o.2.sizeDiff else 0) = 0 := by
    intro k
    rw [ht.fileDiff k]
    have := hm.noFileDiff fun a o => decide (fileKey args.unify a o = k)
    simp only [decide_eq_true_eq] at this
    simpa using this
  refine ⟨l, parts, goes, E, hp, hE, hnd, hord, ?_, ?_⟩
  · intro k e he
    obtain ⟨h1, h2, _⟩ := hval k e he
    exact ⟨h1.trans (hs k), h2.trans (hd k)⟩
  · intro k hk
    exact hall k (.inr ⟨fun hx => (by rw [hdiff] at hx; cases hx), by simp only []; rw [hs k]; exact hk⟩)

/-- **C77** the run with `--archives --format json2 --diff reference`, with or without `--unify`. -/
theorem C77_archives_diff_partial (R : RunIn) (input reference : Str) (args : Args) (rep : Report) {os os' : List ListedOut}
    (hlist : ListsOuts R.w input os) (hlist' : ListsOuts R.w reference os')
    (hform : args.format = str "json2") (harch : args.archives = true)
    (hdiff : args.diff = some reference) (hne : reference ≠ []) (hdep : args.archiveDependencies = false)
    (hdwarf : wantDwarf R.w input (useDwarfOf args) = false) (hdwarf' : wantDwarf R.w reference (useDwarfOf args) = false)
    (h : makeReport R input args = some (.ok rep)) :
    ∃ l parts goes l' parts' goes' E, Project R args input l parts goes ∧ Project R args reference l' parts' goes' ∧
      rep = .entries E ∧
      DiffReport args (fun k => projectShown l os goes parts (selArch args k))
        (fun k => projectShown l' os' goes' parts' (selArch args k)) E := by
  obtain ⟨l, parts, goes, m, l', parts', goes', m', d, crt, elf, b, c, hp, hm, hp', hm', ht, hshow⟩ :=
    run_diff hlist hlist' hdiff hne hdep hdwarf hdwarf' h
  obtain ⟨E, hE, hnd, hord, hval, hall⟩ := json_archives (args := { args with noAbbrev := b, abbrev_ := c }) ht.wf hform harch hshow
  have hs : ∀ k, sumArchs d (fun _ _ a => if (decide (a.1 = k)) = true then a.2.size else 0) =
      projectShown l os goes parts (selArch args k) := fun k =>
    (ht.archSize fun a => decide (a = k)).trans (hm.archs fun a => decide (archKey args.unify a = k))
  have hd : ∀ k, sumArchs d (fun _ _ a => if (decide (a.1 = k)) = true then a.2.sizeDiff else 0) =
      projectShown l os goes parts (selArch args k) - projectShown l' os' goes' parts' (selArch args k) := by
    intro k
    refine (ht.archDiff fun a => decide (a = k)).trans ?_
    rw [if_pos rfl, hm.archs fun a => decide (archKey args.unify a = k), hm'.archs fun a => decide (archKey args.unify a = k)]
    rfl
  have htr : truthy args.diff = true := by rw [hdiff]; exact truthy_some hne
  refine ⟨l, parts, goes, l', parts', goes', E, hp, hp', hE, diffReport_of hnd hord ?_ ?_⟩
  · intro k e he
    obtain ⟨h1, h2, h3⟩ := hval k e he
    exact ⟨h1.trans (hs k), h2.trans (hd k), h3 htr⟩
  · intro k hk
    refine hall k ?_
    rw [hs k, hd k]
    rcases hk with hk | ⟨h1, h2⟩
    · exact .inl hk
    · exact .inr ⟨fun _ => h1, h2⟩

/-- **C77** the run with `--files --format json2 --diff reference`, with or without `--unify`. -/
theorem C77_files_diff_partial (R : RunIn) (input reference : Str) (args : Args) (rep : Report) {os os' : List ListedOut}
    (hlist : ListsOuts R.w input os) (hlist' : ListsOuts R.w reference os')
    (hform : args.format = str "json2") (harch : args.archives = false)
    (hdet : truthy args.archiveDetails = false) (hfiles : args.files = true)
    (hdiff : args.diff = some reference) (hne : reference ≠ []) (hdep : args.archiveDependencies = false)
    (hdwarf : wantDwarf R.w input (useDwarfOf args) = false) (hdwarf' : wantDwarf R.w reference (useDwarfOf args) = false)
    (h : makeReport R input args = some (.ok rep)) :
    ∃ l parts goes l' parts' goes' E, Project R args input l parts goes ∧ Project R args reference l' parts' goes' ∧
      rep = .entries E ∧
      DiffReport args (fun k => projectShown l os goes parts (selFile args k))
        (fun k => projectShown l' os' goes' parts' (selFile args k)) E := by
  obtain ⟨l, parts, goes, m, l', parts', goes', m', d, crt, elf, b, c, hp, hm, hp', hm', ht, hshow⟩ :=
    run_diff hlist hlist' hdiff hne hdep hdwarf hdwarf' h
  obtain ⟨E, hE, hnd, hord, hval, hall⟩ := json_files (args := { args with noAbbrev := b, abbrev_ := c }) ht.wf hform harch hdet hdep hfiles hshow
  have hs : ∀ k, sumObjs d (fun _ _ a o => if objKey args.unify a o = k then o.2.size else 0) =
      projectShown l os goes parts (selFile args k) := by
    intro k
    rw [ht.fileSize k]
    have := hm.files fun a o => decide (fileKey args.unify a o = k)
    simp only [decide_eq_true_eq] at this
    exact this
  have hd : ∀ k, sumObjs d (fun _ _ a o => if objKey args.unify a o = k then o.2.sizeDiff else 0) =
      projectShown l os goes parts (selFile args k) - projectShown l' os' goes' parts' (selFile args k) := by
    intro k
    rw [ht.fileDiff k, if_pos rfl]
    have e1 := hm.files fun a o => decide (fileKey args.unify a o = k)
    have e2 := hm'.files fun a o => decide (fileKey args.unify a o = k)
    simp only [decide_eq_true_eq] at e1 e2
    rw [e1, e2]
    rfl
  have htr : truthy args.diff = true := by rw [hdiff]; exact truthy_some hne
  refine ⟨l, parts, goes, l', parts', goes', E, hp, hp', hE, diffReport_of hnd hord ?_ ?_⟩
  · intro k e he
    obtain ⟨h1, h2, h3⟩ := hval k e he
    exact ⟨h1.trans (hs k), h2.trans (hd k), h3 htr⟩
  · intro k hk
    refine hall k ?_
    simp only []
    rw [hs k, hd k]
    rcases hk with hk | ⟨h1, h2⟩
    · exact .inl hk
    · exact .inr ⟨fun _ => h1, h2⟩

/-! ### Example: two builds, in different directories -/

def exOldOuts : List ListedOut :=
  [⟨str ".iram0.text", 0x100, 0x18, [⟨str ".text.a", 0x100, 0x10, str "old/liba.a", str "a.o", []⟩,
      ⟨str ".text.b", 0x110, 8, str "old/libb.a", str "b.o", []⟩]⟩]

def exTwoWorld : World :=
  { exWorld with lines := fun fn => if fn = str "/b/x.map" then .ok (printMap exCsvRegs (str "espx") exCsvOuts exCsvCrt)
                   else if fn = str "/o/x.map" then .ok (printMap exCsvRegs (str "espx") exOldOuts exCsvCrt) else .error .osError }

def exDiffs : Option (Except Err Report) → Option (List (Str × Int × Int))
  | some (.ok (.entries E)) => some (E.map fun p => (p.1, p.2.size, p.2.sizeDiff))
  | _ => none

example : exDiffs (makeReport (exRun exTwoWorld) (str "/b/x.map")
      { format := str "json2", archives := true, diff := some (str "/o/x.map") }) =
    some [(str "lib/liba.a", 28, 28), (str "lib/libb.a", 8, 8), (str "old/liba.a", 0, -16), (str "old/libb.a", 0, -8)] := by
  decide +kernel

example : exDiffs (makeReport (exRun exTwoWorld) (str "/b/x.map")
      { format := str "json2", archives := true, diff := some (str "/o/x.map"), unify := true }) =
    some [(str "liba.a", 28, 12)] := by decide +kernel

example : exDiffs (makeReport (exRun exTwoWorld) (str "/b/x.map")
      { format := str "json2", files := true, diff := some (str "/o/x.map"), unify := true, showUnchanged := true }) =
    some [(str "a.o", 28, 12), (str "b.o", 8, 0)] := by decide +kernel

/-- Both link map files list their output sections, and debug information is not wanted. -/
example : ListsOuts (exRun exTwoWorld).w (str "/b/x.map") exCsvOuts ∧ ListsOuts (exRun exTwoWorld).w (str "/o/x.map") exOldOuts ∧
    wantDwarf (exRun exTwoWorld).w (str "/b/x.map") none = false ∧ wantDwarf (exRun exTwoWorld).w (str "/o/x.map") none = false := by
  have r1 : RefPrints (str "lib/liba.a") (str "a.o") := ⟨⟨'l', ')', by decide, by decide, by decide, by decide⟩, by decide⟩
  have r2 : RefPrints (str "lib/libb.a") (str "b.o") := ⟨⟨'l', ')', by decide, by decide, by decide, by decide⟩, by decide⟩
  have r3 : RefPrints (str "old/liba.a") (str "a.o") := ⟨⟨'o', ')', by decide, by decide, by decide, by decide⟩, by decide⟩
  have r4 : RefPrints (str "old/libb.a") (str "b.o") := ⟨⟨'o', ')', by decide, by decide, by decide, by decide⟩, by decide⟩
  have hr : ∀ r ∈ exCsvRegs, RegionPrints r := by
    intro r hr
    simp only [exCsvRegs, List.mem_cons, List.not_mem_nil, or_false] at hr
    subst hr
    exact ⟨by decide, by decide, by decide, Or.inr (by decide)⟩
  have hc : CrtPrints exCsvCrt := by
    refine ⟨by simp [exCsvCrt], by decide, ?_⟩
    intro e hm
    simp only [exCsvCrt, List.mem_cons, List.not_mem_nil, or_false] at hm
    subst hm
    refine ⟨by decide, by simp, ?_⟩
    intro r hr
    simp only [List.mem_cons, List.not_mem_nil, or_false] at hr
    rcases hr with rfl | rfl
    · exact r1
    · exact r2
  have ht : NoBlank (str "espx") := by unfold NoBlank; decide
  refine ⟨⟨⟨_, _, _, _, rfl, mapFileText_print hr ht (by decide) ?_ hc⟩, ?_⟩,
    ⟨⟨_, _, _, _, rfl, mapFileText_print hr ht (by decide) ?_ hc⟩, ?_⟩, by decide +kernel, by decide +kernel⟩
  · intro o ho
    simp only [exCsvOuts, List.mem_cons, List.not_mem_nil, or_false] at ho
    rcases ho with rfl | rfl
    · refine ⟨by decide, by decide, by decide, by decide, ?_⟩
      intro i hi
      simp only [List.mem_cons, List.not_mem_nil, or_false] at hi
      rcases hi with rfl | rfl
      · exact ⟨⟨by decide, by decide⟩, by decide, by decide, r1, by decide⟩
      · exact ⟨⟨by decide, by decide⟩, by decide, by decide, r2, by decide⟩
    · refine ⟨by decide, by decide, by decide, by decide, ?_⟩
      intro i hi
      simp only [List.mem_cons, List.not_mem_nil, or_false] at hi
      subst hi
      exact ⟨⟨by decide, by decide⟩, by decide, by decide, r1, by decide⟩
  · intro o ho i hi
    simp only [exCsvOuts, List.mem_cons, List.not_mem_nil, or_false] at ho
    rcases ho with rfl | rfl <;> simp only [List.mem_cons, List.not_mem_nil, or_false] at hi
    · rcases hi with rfl | rfl <;> exact Or.inl rfl
    · subst hi; exact Or.inl rfl
  · intro o ho
    simp only [exOldOuts, List.mem_cons, List.not_mem_nil, or_false] at ho
    subst ho
    refine ⟨by decide, by decide, by decide, by decide, ?_⟩
    intro i hi
    simp only [List.mem_cons, List.not_mem_nil, or_false] at hi
    rcases hi with rfl | rfl
    · exact ⟨⟨by decide, by decide⟩, by decide, by decide, r3, by decide⟩
    · exact ⟨⟨by decide, by decide⟩, by decide, by decide, r4, by decide⟩
  · intro o ho i hi
    simp only [exOldOuts, List.mem_cons, List.not_mem_nil, or_false] at ho
    subst ho
    simp only [List.mem_cons, List.not_mem_nil, or_false] at hi
    rcases hi with rfl | rfl <;> exact Or.inl rfl

end EspSize
