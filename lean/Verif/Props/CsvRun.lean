import Verif.Spec.CsvRun
import Verif.Props.EndToEnd
import Verif.Props.MapPrint
import Verif.Props.SummaryCells
import Verif.Props.Csv
import Verif.Props.Run
/-! # C71: from the link map file to the CSV report -/
namespace EspSize

/-! ### Parts of output sections -/

theorem splitInputs_archive (cut : Int) (is : List ISec) :
    ∀ i, i ∈ (splitInputs cut is).1 ∨ i ∈ (splitInputs cut is).2 → ∃ j ∈ is, i.archive = j.archive := by
  induction is with
  | nil => intro i hi; simp [splitInputs] at hi
  | cons k is ih =>
    intro i hi
    simp only [splitInputs] at hi
    have lift : (∃ j ∈ is, i.archive = j.archive) → ∃ j ∈ k :: is, i.archive = j.archive :=
      fun ⟨j, h1, h2⟩ => ⟨j, by simp [h1], h2⟩
    split at hi
    · rcases hi with hi | hi
      · rcases List.mem_cons.mp hi with rfl | hi
        · exact ⟨i, by simp, rfl⟩
        · exact lift (ih i (.inl hi))
      · exact lift (ih i (.inr hi))
    · split at hi
      · rcases hi with hi | hi
        · exact lift (ih i (.inl hi))
        · rcases List.mem_cons.mp hi with rfl | hi
          · exact ⟨i, by simp, rfl⟩
          · exact lift (ih i (.inr hi))
      · rcases hi with hi | hi <;> rcases List.mem_cons.mp hi with rfl | hi
        · exact ⟨k, by simp, rfl⟩
        · exact lift (ih i (.inl hi))
        · exact ⟨k, by simp, rfl⟩
        · exact lift (ih i (.inr hi))

/-- What a part has in common with its section. -/
structure PartFrom (s p : OSec) : Prop where
  name : p.name = s.name
  positive : 0 < s.size → 0 < p.size
  archives : ∀ i ∈ p.inputs, ∃ j ∈ s.inputs, i.archive = j.archive

theorem partFrom_one (regions : List SReg) (n : Nat) : ∀ s : OSec, s.size.toNat ≤ n →
    ∀ p ∈ splitStack regions [s], PartFrom s p := by
  have base : ∀ s : OSec, splitSection regions s = none → ∀ p ∈ splitStack regions [s], PartFrom s p := by
    intro s h p hp
    rw [splitStack_none h, splitStack] at hp
    simp at hp
    subst hp
    exact ⟨rfl, id, fun i hi => ⟨i, hi, rfl⟩⟩
  induction n with
  | zero =>
    intro s hn p hp
    cases h : splitSection regions s with
    | none => exact base s h p hp
    | some ab => have := splitSection_decreases (a := ab.1) (b := ab.2) h; omega
  | succ n ih =>
    intro s hn p hp
    cases h : splitSection regions s with
    | none => exact base s h p hp
    | some ab =>
      obtain ⟨a, b⟩ := ab
      have hdec := splitSection_decreases h
      rw [splitStack_some h] at hp
      obtain ⟨r, _, cut, hc, hin, hlt, rfl, rfl⟩ := splitSection_some h
      unfold InRegion at hin
      rcases List.mem_cons.mp hp with rfl | hp
      · exact ⟨rfl, fun _ => by simp only []; omega, fun i hi => splitInputs_archive _ _ i (.inl hi)⟩
      · have := ih _ (by omega) p hp
        refine ⟨this.name, fun _ => this.positive (by simp only []; omega), ?_⟩
        intro i hi
        obtain ⟨j, hj, e⟩ := this.archives i hi
        obtain ⟨k, hk, e'⟩ := splitInputs_archive _ _ j (.inr hj)
        exact ⟨k, hk, e.trans e'⟩

theorem splitMapSections_from (sections : List OSec) (regions : List SReg) {p : OSec}
    (h : p ∈ splitMapSections sections regions) : ∃ s ∈ sections, PartFrom s p := by
  unfold splitMapSections at h
  rw [splitStack_flatMap] at h
  obtain ⟨s, hs, hp⟩ := List.mem_flatMap.mp h
  exact ⟨s, by simpa using hs, partFrom_one regions _ s (Nat.le_refl _) p hp⟩

/-- Every part comes from an output section that counts. -/
theorem parts_from {n : Nat} {ls : Bool} {l : GetIn} {regs : List SReg} {parts : List MSec} (h : PartsOf n ls l regs parts)
    {p : MSec} (hp : p ∈ parts) : ∃ s ∈ keptOf l, p.name = s.name ∧ (0 < s.size → 0 < p.size) ∧
      KeysNodup p.archives ∧ ∀ a ar, dget p.archives a = some ar → ar.abb = basename a ∧ ∃ i ∈ s.inputs, i.archive = a := by
  obtain ⟨osecs, h1, rfl⟩ := h.sections
  obtain ⟨q, hq, hok⟩ := (C23_archives (splitMapSections osecs regs)).mem_right hp
  obtain ⟨o', ho', hfrom⟩ := splitMapSections_from _ _ hq
  obtain ⟨o, ho, hsy⟩ := (symbolStep_same h1).mem_right ho'
  rw [C20_filter] at ho
  obtain ⟨s, hs, rfl⟩ := List.mem_map.mp ho
  refine ⟨s, hs, ?_, ?_, hok.wf.1, ?_⟩
  · rw [hok.same.1, hfrom.name, symsOf_name hsy]
  · intro hp
    rw [hok.same.2.2.2]
    exact hfrom.positive (by rw [symsOf_size hsy]; exact hp)
  · intro a ar ha
    refine ⟨(hok.arch a ar ha).1, ?_⟩
    obtain ⟨i, hi, e⟩ := (hok.keys a).mp (by rw [ha]; rfl)
    obtain ⟨j, hj, e'⟩ := hfrom.archives i hi
    obtain ⟨k, hk, hkj⟩ := hsy.2.mem_right hj
    refine ⟨k, (List.mem_filter.mp hk).1, ?_⟩
    rw [← e, e', hkj.1]

/-! ### What `prepare` keeps -/

theorem archTotal_ignoreFlash (f : Arch → Int) (m : MemMap) (a : Str) :
    archTotal f (ignoreFlashSize m) a = archTotal f m a := by
  unfold archTotal ignoreFlashSize
  simp only [dmap, sumBy_map]
  apply sumBy_congr
  intro t _
  split <;> rfl

theorem archTotal_removeUnused (f : Arch → Int) (m : MemMap) (a : Str)
    (h : ∀ t ∈ m.memoryTypes, t.2.used = 0 → t.2.sections = []) :
    archTotal f (removeUnused m) a = archTotal f m a := by
  unfold archTotal removeUnused
  simp only [dmap, dfilter, sumBy_map]
  rw [sumBy_filter]
  apply sumBy_congr
  intro t ht
  by_cases hu : t.2.used = 0
  · simp [hu, h t ht hu]
  · simp only [hu, ne_eq, not_false_eq_true, decide_true, if_true]
    rw [sumBy_filter]
    apply sumBy_congr
    intro s _
    cases hk : s.2.kids with
    | nil => rfl
    | cons x y => simp

theorem getSec_removeUnused {m : MemMap} (hm : m.WF) {t s : Str} {x : Sec} (h : getSec (removeUnused m) t s = some x) :
    getSec m t s = some x := by
  obtain ⟨mt, h1, h2⟩ := Option.bind_eq_some_iff.mp h
  obtain ⟨y, hy, _, _, _, _, hs⟩ := (C08_remove_unused_partial m hm t).1 mt h1
  exact Option.bind_eq_some_iff.mpr ⟨y, hy, ((hs s x).mp h2).1⟩

theorem getType_isSome_prepare {m : MemMap} (hm : m.WF) {t : Str} (h : (getType (removeUnused m) t).isSome = true) :
    (getType m t).isSome = true := by
  obtain ⟨x, hx⟩ := Option.isSome_iff_exists.mp h
  obtain ⟨y, hy, _⟩ := (C08_remove_unused_partial m hm t).1 x hx
  rw [hy]; rfl

theorem getType_isSome_ignoreFlash (m : MemMap) (t : Str) :
    (getType (ignoreFlashSize m) t).isSome = (getType m t).isSome := by
  unfold getType ignoreFlashSize
  simp only [dget_dmap]
  cases dget m.memoryTypes t <;> rfl

/-- The map that is shown when there is no comparison. -/
structure ShownMap (m d : MemMap) : Prop where
  wf : d.WF
  secs : ∀ t s x, getSec d t s = some x → getSec m t s = some x
  types : ∀ t, (getType d t).isSome = true → (getType m t).isSome = true
  totals : (∀ t ∈ m.memoryTypes, t.2.used = 0 → t.2.sections = []) → ∀ a, archTotal Node.size d a = archTotal Node.size m a

theorem prepare_shown {args : Args} {m ref d : MemMap} (hm : m.WF) (hd : truthy args.diff = false) (hu : args.unify = false)
    (h : prepare args m ref = .ok d) : ShownMap m d := by
  unfold prepare at h
  simp only [hd, hu, Bool.false_eq_true, if_false, bind, Except.bind, Except.ok.injEq] at h
  subst h
  have h1 : ShownMap m (if args.showUnused then m else removeUnused m) := by
    split
    · exact ⟨hm, fun _ _ _ h => h, fun _ h => h, fun _ _ => rfl⟩
    · exact ⟨wf_removeUnused hm, fun _ _ _ h => getSec_removeUnused hm h, fun _ h => getType_isSome_prepare hm h,
        fun h a => archTotal_removeUnused _ m a h⟩
  split
  · exact h1
  · exact ⟨wf_ignoreFlash h1.wf, fun t s x h => h1.secs t s x (by rwa [getSec_ignoreFlash] at h),
      fun t h => h1.types t (by rwa [getType_isSome_ignoreFlash] at h),
      fun h a => by rw [archTotal_ignoreFlash]; exact h1.totals h a⟩

/-! ### The listed sections -/

theorem hexOf_nonneg {n : Int} {s : Str} (h : HexOf n s) : 0 ≤ n := by
  obtain ⟨ds, _, _, _, e⟩ := h; omega

theorem outsText_nonneg {os : List ListedOut} {ls : List Str} (h : OutsText os ls) : ∀ o ∈ os, 0 ≤ o.size := by
  induction h with
  | nil => intro o ho; cases ho
  | other _ _ ih => exact ih
  | cons h1 _ ih =>
    intro o ho
    rcases List.mem_cons.mp ho with rfl | ho
    · cases h1 with
      | mk hh _ _ _ =>
        cases hh with
        | one _ _ h _ => exact hexOf_nonneg h
        | two _ _ _ h _ => exact hexOf_nonneg h
        | bare _ _ _ h _ _ => omega
    · exact ih o ho

/-- The output section after parsing. -/
def ListedOut.toOSec (o : ListedOut) : OSec := EspSize.toOSec o.toPOut

theorem keptOf_listed {l : GetIn} {os : List ListedOut} (h : l.sections = os.map ListedOut.toOSec) :
    keptOf l = (listedKept (l.elf.map ElfData.shdrs) os).map ListedOut.toOSec := by
  unfold keptOf listedKept
  rw [h, List.filter_map]
  rfl

theorem listed_inputSum (o : ListedOut) (a : Str) :
    inputSum (fun x _ _ => decide (x = a)) ISec.size o.toOSec = sumBy (fun g => if g.archive = a then g.size else 0) o.counted := by
  unfold inputSum ListedOut.toOSec toOSec ListedOut.toPOut
  simp only [sumBy_map, List.map_map]
  apply sumBy_congr
  intro g _
  by_cases h : g.archive = a <;> simp [Got.toPSec, h]

theorem load_listed {w : World} {fn : Str} {ud : Option Bool} {mf : MapFile} {l : GetIn} {os : List ListedOut}
    (h : load w fn ud (some mf) = .ok l) (hw : wantDwarf w fn ud = false) (hs : mf.sections = os.map ListedOut.toPOut) :
    l.sections = os.map ListedOut.toOSec := by
  obtain ⟨t, m, elf, sections, _, hm, _, _, hd, _, _, e⟩ := load_ok h
  rcases hm with hm | ⟨hm, _⟩
  · cases hm
    unfold dwarfSections at hd
    rw [hw] at hd
    simp only [Bool.false_eq_true, if_false, Except.ok.injEq] at hd
    rw [e, ← hd, hs, List.map_map]
    rfl
  · cases hm

/-! ### Plain names -/

theorem last_part {s : Str} (p : Char → Bool) : ∃ u, s = u ++ (s.reverse.takeWhile p).reverse :=
  ⟨(s.reverse.dropWhile p).reverse, by
    rw [← List.reverse_append, List.takeWhile_append_dropWhile, List.reverse_reverse]⟩

theorem plain_basename {s : Str} (h : PlainName s) : PlainName (basename s) := by
  obtain ⟨u, hu⟩ := last_part (s := s) (· ≠ '/')
  have hu : s = u ++ basename s := hu
  rw [hu] at h
  exact ⟨h.1.suffix u, fun hc => h.2 (by simp [hc])⟩

theorem plain_abbrevSec {s : Str} (h : PlainName s) : PlainName (abbrevSec s) := by
  obtain ⟨u, hu⟩ := last_part (s := s) (· ≠ '.')
  unfold abbrevSec
  generalize (s.reverse.takeWhile (· ≠ '.')).reverse = b at hu
  rw [hu] at h
  refine ⟨.cons (by decide) (by decide) (h.1.suffix u), fun hc => ?_⟩
  rcases List.mem_cons.mp hc with hc | hc
  · revert hc; decide
  · exact h.2 (by simp [hc])

theorem plain_overflow {s : Str} (h : PlainName s) : PlainName (overflowKey s) := by
  refine ⟨h.1.append (q := '_') (w := str "overflow") (by decide) (by decide) (by decide), fun hc => ?_⟩
  rcases List.mem_append.mp hc with hc | hc
  · exact h.2 hc
  · revert hc; decide

theorem goes_key {types : Dict Str MemTypeInfo} {regions : List SReg} {s : MSec} {k key : Str}
    (h : Goes types regions s (some (k, key))) : key = s.name ∨ key = overflowKey s.name := by
  cases h <;> simp

/-! ### The run -/

theorem eff_simple {args : Args} (hd : truthy args.diff = false) (hu : args.unify = false) :
    effectiveArgs args = { args with abbrev_ := !args.noAbbrev } := by
  unfold effectiveArgs
  simp [hd, hu]

/-- **C71** the run with `--archives --format csv` on a link map file, without comparison: the output, read by a
standard CSV reader, has one row per archive, named by the archive, and the total in the row is the sum of the sizes
with which the input sections of the archive are listed in the file, over the output sections that count.  No archive
with a nonzero total is missing. -/
theorem C71_csv_archives_partial (R : RunIn) (input : Str) (args : Args) (rep : Report) {lines : List Str}
    {regs : List Region} {target : Str} {os : List ListedOut} {t : List (Str × List (Str × Str))}
    (hlines : R.w.lines input = .ok lines) (hfile : MapFileText regs target os t lines)
    (hpads : ∀ o ∈ os, ∀ i ∈ o.inputs, SimplePads o.address o.size i)
    (hform : args.format = str "csv") (harch : args.archives = true) (hdiff : truthy args.diff = false)
    (huni : args.unify = false) (hfilt : args.filter = none) (hdwarf : wantDwarf R.w input (useDwarfOf args) = false)
    (hsec : ∀ o ∈ os, PlainName o.name ∧ ∀ g ∈ o.counted, PlainName g.archive)
    (h : makeReport R input args = some (.ok rep)) :
    ∃ l regions parts goes ls, load R.w input (useDwarfOf args) none = .ok l ∧
      PartsOf R.n (loadSymbolsOf args) l regions parts ∧ (∀ s, Goes l.types regions s (goes s)) ∧ rep = .csv ls ∧
      (¬ Collision goes parts → (∀ s ∈ parts, goes s ≠ none) → (∀ k, IsAlias l.types k → PlainName k) →
        ∃ more archs rows, csvRead (printed ls) = (str "Archive File" :: str "Total Size" :: more) :: rows ∧ archs.Nodup ∧
          (∀ a, listedTotal (l.elf.map ElfData.shdrs) os a ≠ 0 → a ∈ archs) ∧
          All2 (fun a row => ∃ cells, row = strip (if args.noAbbrev then a else basename a) ::
            intStr (listedTotal (l.elf.map ElfData.shdrs) os a) :: cells) archs rows) := by
  obtain ⟨mf, elf, m, ref, d, h1, _, h3, _, h5, h6⟩ := makeReport_ok h
  have heff := eff_simple hdiff huni
  generalize effectiveArgs args = ea at heff h3 h5 h6
  have e1 : ea.format = str "csv" := by rw [heff]; exact hform
  have e2 : ea.archives = true := by rw [heff]; exact harch
  have e3 : truthy ea.diff = false := by rw [heff]; exact hdiff
  have e4 : ea.unify = false := by rw [heff]; exact huni
  have e5 : ea.filter = none := by rw [heff]; exact hfilt
  have e6 : ea.abbrev_ = !args.noAbbrev := by rw [heff]
  have e7 : loadSymbolsOf ea = loadSymbolsOf args := by rw [heff]; rfl
  clear heff
  rw [e7] at h3
  have hmf : mf = { regions := regs, target := target, sections := os.map ListedOut.toPOut, crt := some t } := by
    unfold loadMap at h1
    rw [hlines] at h1
    simp only [C70_map_file_partial hfile hpads, Except.ok.injEq] at h1
    exact h1.symm
  have h3' := h3
  rw [← getMap_self (e := none) h1] at h3'
  obtain ⟨l, regions, parts, goes, hl, hp, hwf, _, _, _, _, hg, _, htot, hold, _⟩ := C58_accounted _ _ _ _ _ _ _ _ h3
  have hl' : load R.w input (useDwarfOf args) none = .ok l := by
    have : useMap R.w input none = useMap R.w input (some mf) := by simp [useMap, h1, wrapMap]
    unfold load at hl ⊢
    rw [this]; exact hl
  have hsections : l.sections = os.map ListedOut.toOSec := load_listed hl hdwarf (by rw [hmf])
  have hkept := keptOf_listed hsections
  have hpos : ∀ s ∈ keptOf l, 0 < s.size := by
    intro s hs
    have hk : s.size ≠ 0 := by
      have hk := (List.mem_filter.mp hs).2
      simp only [decide_eq_true_eq] at hk
      exact hk.1
    rw [hkept] at hs
    obtain ⟨o, ho, rfl⟩ := List.mem_map.mp hs
    have : 0 ≤ o.size := by
      cases hfile with
      | mk _ _ _ h4 _ _ => exact outsText_nonneg h4 o (List.mem_filter.mp ho).1
    have e : o.toOSec.size = o.size := rfl
    omega
  have hshown := prepare_shown hwf e3 e4 h5
  -- the table
  simp only [showReport, e1, selectTable, e2, if_true] at h6
  rw [if_neg (by decide), if_neg (by decide), if_neg (by decide)] at h6
  simp only [bind, Except.bind] at h6
  cases htab : getArchivesTable d ea with
  | error x => rw [htab] at h6; cases h6
  | ok tab =>
    rw [htab] at h6
    cases h6
    refine ⟨l, regions, parts, goes, _, hl', hp, hg, rfl, ?_⟩
    intro hnc hall hplain
    -- nothing counts in the memory types that are not shown
    have hempty : ∀ t ∈ m.memoryTypes, t.2.used = 0 → t.2.sections = [] := by
      intro t ht hu
      have ho := (hold t.1 t.2 (dget_of_mem hwf.1 ht)).2.1
      cases hs : t.2.sections with
      | nil => rfl
      | cons q qs =>
        exfalso
        obtain ⟨p, hp1, hp2⟩ := (ho.keys q.1).mp (by rw [hs, dget_cons]; simp)
        have hused := ho.used
        rw [hu, sumBy_filter] at hused
        have hps : ∀ p ∈ parts, 0 < p.size := by
          intro p hpp
          obtain ⟨s, hs, _, h2, _⟩ := parts_from hp hpp
          exact h2 (hpos s hs)
        have hlt : ∀ ps : List MSec, (∀ p ∈ ps, 0 < p.size) → p ∈ ps →
            0 < sumBy (fun s => if (goes s).any (fun x => decide (x.1 = t.1)) = true then s.size else 0) ps := by
          intro ps
          induction ps with
          | nil => intro _ h; cases h
          | cons x xs ih =>
            intro hpos hm
            have hnn : 0 ≤ sumBy (fun s => if (goes s).any (fun x => decide (x.1 = t.1)) = true then s.size else 0) xs :=
              sumBy_nonneg fun y hy => by
                have := hpos y (by simp [hy])
                split <;> omega
            rw [sumBy_cons]
            rcases List.mem_cons.mp hm with rfl | hm
            · rw [hp2]
              have := hpos p (by simp)
              simp only [Option.any_some, decide_true, if_true]
              omega
            · have := ih (fun y hy => hpos y (by simp [hy])) hm
              have := hpos x (by simp)
              split <;> omega
        have := hlt parts hps hp1
        omega
    have htotal : ∀ a, archTotal Node.size d a = listedTotal (l.elf.map ElfData.shdrs) os a := by
      intro a
      rw [hshown.totals hempty a, htot hnc hall a, hkept, sumBy_map]
      unfold listedTotal
      exact sumBy_congr fun o _ => listed_inputSum o a
    -- names
    have hsecname : ∀ t s x, getSec d t s = some x → PlainName s ∧ PlainName x.abb ∧
        ∀ a ar, dget x.kids a = some ar → ar.abb = basename a ∧ PlainName a := by
      intro t s x hx
      obtain ⟨mt, hmt, hsx⟩ := Option.bind_eq_some_iff.mp (hshown.secs t s x hx)
      obtain ⟨pre, p, post, e, hgo, rfl, _⟩ := ((hold t mt hmt).2.1).last s x hsx
      obtain ⟨q, hq, hn, _, _, har⟩ := parts_from hp (p := p) (by rw [e]; simp)
      rw [hkept] at hq
      obtain ⟨o, ho, rfl⟩ := List.mem_map.mp hq
      have hos := hsec o (List.mem_filter.mp ho).1
      have hpn : PlainName p.name := by rw [hn]; exact hos.1
      have hs : PlainName s := by
        have := hg p
        rw [hgo] at this
        rcases goes_key this with rfl | rfl
        · exact hpn
        · exact plain_overflow hpn
      refine ⟨hs, plain_abbrevSec hs, ?_⟩
      intro a ar ha
      obtain ⟨hb, i, hi, rfl⟩ := har a ar ha
      refine ⟨hb, ?_⟩
      simp only [ListedOut.toOSec, toOSec, ListedOut.toPOut, List.map_map, List.mem_map] at hi
      obtain ⟨g, hgm, rfl⟩ := hi
      exact hos.2 g hgm
    have hcols : ∀ c ∈ reportCols d, PlainName (colTitle d ea.abbrev_ c) := by
      intro c hc
      unfold reportCols at hc
      rcases List.mem_cons.mp hc with rfl | hc
      · exact plain_lit (s := str "Total Size") (by decide)
      · obtain ⟨t, ht, hc⟩ := List.mem_flatMap.mp hc
        have htd := dget_of_mem hshown.wf.1 ht
        rcases List.mem_cons.mp hc with rfl | hc
        · have := hshown.types t.1 (by show (dget d.memoryTypes t.1).isSome = true; rw [htd]; rfl)
          obtain ⟨mt, hmt⟩ := Option.isSome_iff_exists.mp this
          exact hplain _ (hold t.1 mt hmt).1
        · obtain ⟨s, hs, rfl⟩ := List.mem_map.mp hc
          have hsd : getSec d t.1 s.1 = some s.2 :=
            Option.bind_eq_some_iff.mpr ⟨t.2, htd, dget_of_mem (hshown.wf.2 t ht).1 hs⟩
          have := hsecname _ _ _ hsd
          simp only [colTitle, hsd]
          split
          · exact this.2.1
          · exact this.1
    -- the entries
    obtain ⟨E, S, hS, hnd, hES, hkeys, hsizes, _⟩ := C11_archives_summary d hshown.wf ea
    obtain ⟨S', hS', htspec⟩ := C39_archives_table d hshown.wf ea
    have : S' = S := by rw [hS] at hS'; cases hS'; rfl
    subst this
    have hnames := fun k e he => C11_names d hshown.wf ea hS (k := k) (e := e) he
    have hall' : ∀ k e, dget S' k = some e ↔ dget E k = some e := by
      intro k e
      rw [hES k e]
      constructor
      · exact fun h => h.1
      · exact fun h => ⟨h, fun hx => by rw [e3] at hx; cases hx⟩
    have hF : getSummaryFiltered Entry.abb S' ea = S' := by
      unfold getSummaryFiltered; simp only [e5]
    have hSnd : KeysNodup S' := by
      obtain ⟨E', hE', inv⟩ := summarize_inv (mtWF_summaryTypes hshown.wf) _ (archRecs_ok hshown.wf)
      have : getArchivesSummary d ea = .ok (remSummaryUnchanged E' ea) := by
        unfold getArchivesSummary; simp [hE', bind, Except.bind]
      rw [hS] at this
      cases this
      unfold remSummaryUnchanged
      split
      · exact inv.nodup
      · exact inv.nodup.dfilter _
    have hname : ∀ p ∈ S', PlainName p.1 ∧ p.2.abb = basename p.1 ∧ p.2.size = listedTotal (l.elf.map ElfData.shdrs) os p.1 := by
      intro p hpS
      have hget := dget_of_mem hSnd hpS
      obtain ⟨⟨t', s', ax, hax, hab⟩, _⟩ := hnames p.1 p.2 hget
      obtain ⟨sx, hsx, hk⟩ := Option.bind_eq_some_iff.mp hax
      obtain ⟨e1, e2⟩ := (hsecname _ _ _ hsx).2.2 _ _ hk
      refine ⟨e2, hab.trans e1, ?_⟩
      rw [(hsizes p.1 p.2 ((hall' _ _).mp hget)).1, htotal]
    have hmem : ∀ a, listedTotal (l.elf.map ElfData.shdrs) os a ≠ 0 → a ∈ S'.map (·.1) := by
      intro a ha
      have hex : (dget E a).isSome = true := by
        rw [hkeys a]
        refine Classical.byContradiction fun hno => ha ?_
        rw [← htotal a]
        unfold archTotal
        apply sumBy_zero
        intro t' ht'
        apply sumBy_zero
        intro s' hs'
        cases hk : dget s'.2.kids a with
        | none => rfl
        | some ar =>
          refine absurd ⟨t'.1, s'.1, ?_⟩ hno
          have hsd : getSec d t'.1 s'.1 = some s'.2 :=
            Option.bind_eq_some_iff.mpr ⟨t'.2, dget_of_mem hshown.wf.1 ht', dget_of_mem (hshown.wf.2 t' ht').1 hs'⟩
          unfold getArch
          rw [hsd]
          simp [hk]
      obtain ⟨e, he⟩ := Option.isSome_iff_exists.mp hex
      exact List.mem_map.mpr ⟨(a, e), mem_of_dget ((hall' a e).mpr he), rfl⟩
    unfold TableSpec at htspec
    simp only [hF, htab] at htspec
    by_cases hne : S' = []
    · subst hne
      rcases htspec.2 rfl with h7 | h7
      · cases h7
        refine ⟨[], [], [], ?_, List.nodup_nil, hmem, trivial⟩
        have := C41_csv_read_partial { headers := [str "Archive File", str "Total Size"], rows := [] } (by simp) (by simp)
          (by
            intro c hc
            simp only [List.mem_cons, List.not_mem_nil, or_false] at hc
            rcases hc with rfl | rfl
            · exact ⟨tidy_noBracket (by decide), by rw [C64_verbatim_partial _ (by decide)]; decide⟩
            · exact ⟨tidy_noBracket (by decide), by rw [C64_verbatim_partial _ (by decide)]; decide⟩)
          (by simp)
        rw [this]
        simp [C64_verbatim_partial (str "Archive File") (by decide), C64_verbatim_partial (str "Total Size") (by decide)]
      · cases h7
    · obtain ⟨hsel, hnosel⟩ := htspec.1 hne
      by_cases hx : ∃ i, Selects (str "Archive File") ((reportCols d).map (colTitle d ea.abbrev_)) ea.sort i
      · obtain ⟨i, hi⟩ := hx
        obtain ⟨c, es, rows, _, h7, hsort, hrows⟩ := hsel i hi
        cases h7
        obtain ⟨out, hread, hout⟩ := C41_detail_csv_partial d ea (str "Archive File") es rows hrows
          (by exact plain_lit (by decide)) hcols (by
            intro p hpe
            have := hname p (hsort.perm.mem_iff.mp hpe)
            split
            · rw [this.2.1]; exact plain_basename this.1
            · exact this.1)
        refine ⟨((reportCols d).map (colTitle d ea.abbrev_)).tail, es.map (·.1), out, ?_, ?_, ?_, ?_⟩
        · rw [hread]
          simp [reportCols, colTitle]
        · exact (hsort.perm.map Prod.fst).nodup_iff.mpr hSnd
        · intro a ha
          exact (hsort.perm.map (·.1)).mem_iff.mpr (hmem a ha)
        · have key : ∀ (es : List (Str × Entry)) (out : List (List Str)), (∀ p ∈ es, p ∈ S') →
              All2 (fun p row => ∃ cells, row = strip (if ea.abbrev_ = true then p.2.abb else p.1) :: cells ∧
                All2 (fun c cell => ∃ z d, cellOf p.2 c = some (z, d) ∧ cell = shown z d (truthy ea.diff)) (reportCols d) cells) es out →
              All2 (fun a row => ∃ cells, row = strip (if args.noAbbrev then a else basename a) ::
                intStr (listedTotal (l.elf.map ElfData.shdrs) os a) :: cells) (es.map (·.1)) out := by
            intro es
            induction es with
            | nil => intro out _ h; cases out with
              | nil => trivial
              | cons _ _ => exact h.elim
            | cons p es ih =>
              intro out hin h
              cases out with
              | nil => exact h.elim
              | cons row out =>
                obtain ⟨⟨cells, hrow, hcells⟩, hrest⟩ := h
                refine ⟨?_, ih out (fun x hx => hin x (by simp [hx])) hrest⟩
                have hp' := hname p (hin p (by simp))
                cases cells with
                | nil => exact hcells.elim
                | cons c0 cells =>
                  obtain ⟨⟨z, dd, hz, hc0⟩, _⟩ := hcells
                  simp only [cellOf, Option.some.injEq, Prod.mk.injEq] at hz
                  refine ⟨cells, ?_⟩
                  rw [hrow, hc0, ← hz.1, hp'.2.2, hp'.2.1]
                  simp only [shown, e3, e6]
                  cases args.noAbbrev <;> rfl
          exact key es out (fun p hpe => hsort.perm.mem_iff.mp hpe) hout
      · rw [hnosel hx] at htab
        have := hnosel hx
        cases this

/-! ### Example: two archives, one of them in two output sections -/

def exCsvRegs : List Region := [⟨str "iram0_0_seg", 0x100, 0x100, str "xr"⟩]

def exCsvOuts : List ListedOut :=
  [⟨str ".iram0.text", 0x100, 0x20, [⟨str ".text.a", 0x100, 0x18, str "lib/liba.a", str "a.o", []⟩,
      ⟨str ".text.b", 0x118, 8, str "lib/libb.a", str "b.o", []⟩]⟩,
    ⟨str ".iram0.data", 0x120, 4, [⟨str ".data.a", 0x120, 4, str "lib/liba.a", str "a.o", []⟩]⟩]

def exCsvCrt : List (Str × List (Str × Str)) := [(str "f", [(str "lib/liba.a", str "a.o"), (str "lib/libb.a", str "b.o")])]

def exCsvWorld : World :=
  { exWorld with lines := fun fn => if fn = str "/b/x.map" then .ok (printMap exCsvRegs (str "espx") exCsvOuts exCsvCrt) else .error .osError }

def exCsvRead : Option (Except Err Report) → Option (List (List Str))
  | some (.ok (.csv ls)) => some (csvRead (printed ls))
  | _ => none

example : exCsvRead (makeReport (exRun exCsvWorld) (str "/b/x.map") { format := str "csv", archives := true }) =
    some [[str "Archive File", str "Total Size", str "IRAM", str ".data", str ".text"],
      [str "liba.a", str "28", str "28", str "4", str "24"], [str "libb.a", str "8", str "8", str "0", str "8"]] := by
  decide +kernel

end EspSize
