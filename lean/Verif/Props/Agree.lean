import Verif.Proofs.Agree
import Verif.Props.MapRun
import Verif.Props.Nested
/-! # C86: the reports of one project agree with each other -/
namespace EspSize

theorem prepared_of {R : RunIn} {input : Str} {args : Args} {rep : Report} (h : makeReport R input args = some (.ok rep)) :
    ∃ crt elf d, prepared R input (effectiveArgs args) = some (.ok (crt, elf, d)) ∧ showReport R crt elf (effectiveArgs args) d = .ok rep := by
  rw [makeReport_presented] at h
  cases hp : prepared R input (effectiveArgs args) with
  | none => rw [hp] at h; cases h
  | some r =>
    cases r with
    | error x => rw [hp] at h; cases h
    | ok x =>
      rw [hp] at h
      simp only [presented, Option.some.injEq] at h
      exact ⟨x.1, x.2.1, x.2.2, rfl, h⟩

theorem prepared_ok {R : RunIn} {input : Str} {args : Args} {crt : Option Crt} {elf : Option (List ElfSym)} {d : MemMap}
    (h : prepared R input args = some (.ok (crt, elf, d))) :
    ∃ mf e m ref, loadMap R.w input = .ok mf ∧
      getMap R.n R.w input (loadSymbolsOf args) (useDwarfOf args) (some mf) e = some (.ok m) ∧ prepare args m ref = .ok d := by
  unfold prepared at h
  split at h
  · cases h
  rename_i mf hmf
  split at h
  · cases h
  split at h
  · cases h
  · cases h
  rename_i m hm
  split at h
  · cases h
  · cases h
  rename_i ref href
  split at h
  · cases h
  rename_i d' hd
  cases h
  exact ⟨mf, _, m, ref, hmf, hm, hd⟩

/-- The maps behind the reports of archives and of files are the same. -/
theorem prepared_listing {R : RunIn} {input : Str} {args : Args} (b c : Bool) (h : b = true ∨ c = true) :
    prepared R input (effectiveArgs { args with archives := b, files := c }) =
      prepared R input (effectiveArgs { args with archives := true, files := true }) := by
  have hx : ∀ x : Bool, (x || b || c) = true := by rcases h with rfl | rfl <;> simp
  refine prepared_same ⟨?_, ?_, ?_, ?_, ?_, ?_⟩ <;> rw [eff_eq, eff_eq]
  · rfl
  · unfold useDwarfOf
    simp only [hx, Bool.or_true, Bool.true_or]

theorem archives_entries {R : RunIn} {crt : Option Crt} {elf : Option (List ElfSym)} {args : Args} {d : MemMap} (hd : d.WF)
    (hf : args.format = str "json2") (ha : args.archives = true) {E : Dict Str Entry} (h : showReport R crt elf args d = .ok (.entries E)) :
    ∃ E0, SumInv (summaryTypes d) ((walk d (str "archives")).filterMap archRec) E0 ∧ E = getSummarySorted (remSummaryUnchanged E0 args) args := by
  obtain ⟨E0, hE, inv⟩ := summarize_inv (mtWF_summaryTypes hd) _ (archRecs_ok hd)
  unfold showReport at h
  rw [if_neg (by rw [hf]; decide), if_pos hf] at h
  unfold showJson getArchivesSummary at h
  rw [if_pos ha] at h
  simp only [hE, bind, Except.bind, Except.ok.injEq, Report.entries.injEq] at h
  exact ⟨E0, inv, h.symm⟩

theorem files_entries {R : RunIn} {crt : Option Crt} {elf : Option (List ElfSym)} {args : Args} {d : MemMap} (hd : d.WF)
    (hf : args.format = str "json2") (ha : args.archives = false) (hdet : truthy args.archiveDetails = false)
    (hdep : args.archiveDependencies = false) (hff : args.files = true) {E : Dict Str Entry}
    (h : showReport R crt elf args d = .ok (.entries E)) :
    ∃ E0, SumInv (summaryTypes d) ((walk d (str "objects")).filterMap (objRec args.unify)) E0 ∧
      E = getSummarySorted (remSummaryUnchanged E0 args) args := by
  obtain ⟨E0, hE, inv⟩ := summarize_inv (mtWF_summaryTypes hd) _ (objRecs_ok hd args.unify)
  unfold showReport at h
  rw [if_neg (by rw [hf]; decide), if_pos hf] at h
  unfold showJson getObjectFilesSummary at h
  rw [if_neg (by simp [ha]), if_neg (by simp [hdet]), if_neg (by simp [hdep]), if_pos hff] at h
  simp only [hE, bind, Except.bind, Except.ok.injEq, Report.entries.injEq] at h
  exact ⟨E0, inv, h.symm⟩

/-- What the report of archives shows, in terms of the map. -/
theorem archives_shown {d : MemMap} (hd : d.WF) {E0 : Dict Str Entry}
    (inv : SumInv (summaryTypes d) ((walk d (str "archives")).filterMap archRec) E0) (args : Args) {dif : Bool} {c : Col}
    (hcomp : Complete args dif c) (P : Str → Bool) :
    shownIn dif P c (getSummarySorted (remSummaryUnchanged E0 args) args) =
      sumArchs d (fun t s a => if P a.1 && c.has t s then (if dif then a.2.sizeDiff else a.2.size) else 0) := by
  rw [shownIn_summary hd inv (archRecs_ok hd) args (fun _ => archRecs_noClash hd) hcomp, sumIf_archs]
  simp only [sumIf_singleton]
  cases dif <;> rfl

theorem files_shown {d : MemMap} (hd : d.WF) {u : Bool} {E0 : Dict Str Entry}
    (inv : SumInv (summaryTypes d) ((walk d (str "objects")).filterMap (objRec u)) E0) (args : Args) {dif : Bool} {c : Col}
    (hc : (∃ t s, c = .sec t s) → ObjKeysInj u d) (hcomp : Complete args dif c) (P : Str → Bool) :
    shownIn dif P c (getSummarySorted (remSummaryUnchanged E0 args) args) =
      sumObjs d (fun t s a o => if P (objKey u a o) && c.has t s then (if dif then o.2.sizeDiff else o.2.size) else 0) := by
  rw [shownIn_summary hd inv (objRecs_ok hd u) args (fun h => objRecs_noClash hd (hc h)) hcomp, sumIf_objs]
  simp only [sumIf_singleton]
  cases dif <;> rfl

/-- The two reports, in terms of the map behind them. -/
structure TwoListings (args : Args) (d : MemMap) (EA EF : Dict Str Entry) : Prop where
  wf : d.WF
  adds : EachArch (fun _ => AddsUp) d
  nodup : KeysNodup EA
  archives : ∀ dif c, Complete args dif c → ∀ P, shownIn dif P c EA =
    sumArchs d (fun t s a => if P a.1 && c.has t s then (if dif then a.2.sizeDiff else a.2.size) else 0)
  files : ∀ dif c, ((∃ t s, c = .sec t s) → ObjKeysInj args.unify d) → Complete args dif c → ∀ P, shownIn dif P c EF =
    sumObjs d (fun t s a o => if P (objKey args.unify a o) && c.has t s then (if dif then o.2.sizeDiff else o.2.size) else 0)
  names : truthy args.diff = false ∨ args.showUnchanged = true →
    ∀ t ∈ d.memoryTypes, ∀ s ∈ t.2.sections, ∀ x ∈ s.2.kids, x.1 ∈ dkeys EA

theorem two_listings {R : RunIn} {input : Str} {args : Args} {EA EF : Dict Str Entry} (hf : args.format = str "json2")
    (hdet : truthy args.archiveDetails = false) (hdep : args.archiveDependencies = false)
    (hA : makeReport R input { args with archives := true, files := false } = some (.ok (.entries EA)))
    (hF : makeReport R input { args with archives := false, files := true } = some (.ok (.entries EF))) :
    ∃ d, TwoListings args d EA EF := by
  obtain ⟨crt, elf, d, hp, hs⟩ := prepared_of hA
  obtain ⟨crt', elf', d', hp', hs'⟩ := prepared_of hF
  rw [prepared_listing true false (.inl rfl)] at hp
  rw [prepared_listing false true (.inr rfl), hp] at hp'
  cases hp'
  have hd := prepared_wf hp
  have hadd := prepared_addsUp hp
  have he : ∀ b c, effectiveArgs { args with archives := b, files := c } =
      { args with archives := b, files := c, noAbbrev := args.noAbbrev && !args.unify, abbrev_ := !(args.noAbbrev && !args.unify) } := by
    intro b c
    rw [eff_eq]
    simp only [hdep, Bool.false_and, Bool.false_eq_true, if_false]
  rw [he] at hs hs'
  obtain ⟨E1, inv1, rfl⟩ := archives_entries hd (by exact hf) (by rfl) hs
  obtain ⟨E2, inv2, rfl⟩ := files_entries hd (by exact hf) (by rfl) (by exact hdet) (by exact hdep) (by rfl) hs'
  have hnd : ∀ a : Args, KeysNodup (remSummaryUnchanged E1 a) := by
    intro a
    unfold remSummaryUnchanged
    split
    · exact inv1.nodup
    · exact List.Nodup.sublist (List.Sublist.map _ List.filter_sublist) inv1.nodup
  refine ⟨d, hd, hadd, (entries_sorted (C07_summary_sorted _ _) (hnd _)).1, fun dif c hc P => archives_shown hd inv1 _ (by exact hc) P,
    fun dif c hi hc P => files_shown hd inv2 _ (by exact hi) (by exact hc) P, ?_⟩
  intro hcomp t ht s hs' x hx
  have hr : (⟨x.1, x.2.abb, t.1, s.1, x.2.size, x.2.sizeDiff⟩ : Rec) ∈ (walk d (str "archives")).filterMap archRec := by
    rw [archRecs_eq]
    exact List.mem_flatMap.mpr ⟨t, ht, List.mem_flatMap.mpr ⟨s, hs', List.mem_map.mpr ⟨x, hx, rfl⟩⟩⟩
  rw [← dget_isSome, (entries_sorted (C07_summary_sorted _ _) (hnd _)).2.1]
  unfold remSummaryUnchanged
  rw [if_pos (by rcases hcomp with h | h <;> simp [h]), inv1.look, if_pos (List.any_eq_true.mpr ⟨_, hr, by simp [onK]⟩)]
  rfl

/-- **C86** the reports of archives and of files show the same sizes in total and for each memory type, and the same
differences. -/
theorem C86_archives_files (R : RunIn) (input : Str) (args : Args) (EA EF : Dict Str Entry) (hf : args.format = str "json2")
    (hdet : truthy args.archiveDetails = false) (hdep : args.archiveDependencies = false)
    (hA : makeReport R input { args with archives := true, files := false } = some (.ok (.entries EA)))
    (hF : makeReport R input { args with archives := false, files := true } = some (.ok (.entries EF)))
    (dif : Bool) (c : Col) (hc : ∀ t s, c ≠ .sec t s) (hcomp : Complete args dif c) :
    shownIn dif (fun _ => true) c EA = shownIn dif (fun _ => true) c EF := by
  obtain ⟨d, h⟩ := two_listings hf hdet hdep hA hF
  rw [h.archives dif c hcomp, h.files dif c (by rintro ⟨t, s, h⟩; exact absurd h (hc t s)) hcomp]
  have := archs_files h.adds (u := args.unify) (PA := fun _ => true) (PF := fun _ => true) c (fun _ _ _ _ _ _ _ _ => rfl)
  cases dif
  · exact this.1
  · exact this.2

theorem colon_prefix {a b o : Str} (h : (a ++ str ":") <+: (b ++ str ":" ++ o)) :
    (a ++ str ":") <+: (b ++ str ":") ∨ (b ++ str ":") <+: (a ++ str ":") := by
  rcases Nat.le_total (a ++ str ":").length (b ++ str ":").length with hl | hl
  · exact .inl (List.prefix_of_prefix_length_le h (List.prefix_append _ _) hl)
  · exact .inr (List.prefix_of_prefix_length_le (List.prefix_append _ _) h hl)

theorem shownIn_one {E : Dict Str Entry} (hE : KeysNodup E) {a : Str} {e : Entry} (h : dget E a = some e) (dif : Bool) (c : Col) :
    shownIn dif (fun k => decide (k = a)) c E = ((cellOf e c).map fun z => if dif then z.2 else z.1).getD 0 := by
  unfold shownIn
  rw [sumBy_congr (g := fun p : Str × Entry => if p.1 = a then ((cellOf e c).map fun z => if dif then z.2 else z.1).getD 0 else 0)]
  · rw [sumBy_ite_key E hE, if_pos (dget_isSome.mp (by rw [h]; rfl))]
  · intro p hp
    by_cases hk : p.1 = a
    · have := dget_of_mem (k := p.1) (v := p.2) hE hp
      rw [hk, h] at this
      cases this
      simp [hk]
    · simp [hk]

/-- **C86** without `--unify`: the row of an archive is the sum of the rows of its files, in all columns. -/
theorem C86_archive_row (R : RunIn) (input : Str) (args : Args) (EA EF : Dict Str Entry) (hf : args.format = str "json2")
    (hdet : truthy args.archiveDetails = false) (hdep : args.archiveDependencies = false) (hu : args.unify = false)
    (hA : makeReport R input { args with archives := true, files := false } = some (.ok (.entries EA)))
    (hF : makeReport R input { args with archives := false, files := true } = some (.ok (.entries EF)))
    (dif : Bool) (c : Col) (hcomp : truthy args.diff = false ∨ args.showUnchanged = true) (hcol : ColonFree EA) (a : Str) (e : Entry)
    (ha : dget EA a = some e) :
    ((cellOf e c).map fun z => if dif then z.2 else z.1).getD 0 = shownIn dif (nameIn a) c EF := by
  obtain ⟨d, h⟩ := two_listings hf hdet hdep hA hF
  have hcomp' : Complete args dif c := hcomp.elim .inl fun h => .inr (.inl h)
  have hcol' : ∀ a ∈ dkeys EA, ∀ b ∈ dkeys EA, ∀ o, (a ++ str ":") <+: (b ++ str ":" ++ o) → a = b := by
    intro a ha b hb o ho
    rcases colon_prefix ho with h1 | h1
    · exact hcol a ha b hb h1
    · exact (hcol b hb a ha h1).symm
  have hak : a ∈ dkeys EA := dget_isSome.mp (by rw [ha]; rfl)
  rw [← shownIn_one h.nodup ha dif c, h.archives dif c hcomp', h.files dif c ?_ hcomp']
  · have := archs_files h.adds (u := args.unify) (PA := fun k => decide (k = a)) (PF := nameIn a) c ?_
    · cases dif
      · exact this.1
      · exact this.2
    intro t ht s hs x hx o ho
    have hxk := h.names hcomp t ht s hs x hx
    simp only [objKey, hu, Bool.false_eq_true, if_false, nameIn]
    by_cases e : x.1 = a
    · subst e
      simp only [decide_true]
      exact List.isPrefixOf_iff_prefix.mpr (List.prefix_append _ _)
    · simp only [e, decide_false]
      cases hp : List.isPrefixOf (a ++ str ":") (x.1 ++ str ":" ++ o.1) with
      | false => rfl
      | true => exact absurd (hcol' a hak x.1 hxk o.1 (List.isPrefixOf_iff_prefix.mp hp)).symm e
  · intro _ t s x o x' o' ox ox' g1 g2 hk
    simp only [hu, Bool.false_eq_true, if_false, join] at hk
    obtain ⟨ax, hax, _⟩ := Option.bind_eq_some_iff.mp g1
    obtain ⟨ax', hax', _⟩ := Option.bind_eq_some_iff.mp g2
    obtain ⟨t1, ht1, s1, hs1, _, _, hx1⟩ := mem_of_getArch hax
    obtain ⟨t2, ht2, s2, hs2, _, _, hx2⟩ := mem_of_getArch hax'
    have k1 := h.names hcomp t1 ht1 s1 hs1 _ hx1
    have k2 := h.names hcomp t2 ht2 s2 hs2 _ hx2
    have hk' : x ++ str ":" ++ o = x' ++ str ":" ++ o' := by simpa [List.append_assoc] using hk
    have e : x = x' := hcol' x k1 x' k2 o' (by rw [← hk']; exact List.prefix_append _ _)
    subst e
    exact ⟨rfl, List.append_cancel_left hk'⟩

/-- Bytes of a part that belong to no input section. -/
def unlisted (p : MSec) : Int := p.size - partsFiles (fun _ _ => true) [p]

/-- **C86** the summary and the report of archives: what is used of a memory type are the archives in it and the bytes
that belong to no input section. -/
theorem C86_used (R : RunIn) (input : Str) (args : Args) (EA : Dict Str Entry) (J : JsonSummary) {l : GetIn} (hr : Readable R args input l)
    (hf : args.format = str "json2") (hdet : truthy args.archiveDetails = false) (hdep : args.archiveDependencies = false)
    (hdw : args.useDwarf ≠ some true) (hdiff : truthy args.diff = false) (hun : args.showUnused = false)
    (hA : makeReport R input { args with archives := true, files := false } = some (.ok (.entries EA)))
    (hJ : makeReport R input { args with archives := false, files := false } = some (.ok (.summary J))) :
    ∃ b, BuildOf R args l b ∧ ∀ x ∈ J.layout, x.used = shownIn false (fun _ => true) (.type x.name) EA +
      sumBy unlisted ((b.sections false).filter (b.sends x.name fun _ => true)) := by
  obtain ⟨crt, elf, d, hp, hs⟩ := prepared_of hA
  obtain ⟨crt', elf', d', hp', hs'⟩ := prepared_of hJ
  have hsame : ∀ b, prepared R input (effectiveArgs { args with archives := b, files := false }) = prepared R input args := by
    intro b
    refine prepared_same ⟨?_, ?_, ?_, ?_, ?_, ?_⟩ <;> rw [eff_eq]
    · rfl
    · unfold useDwarfOf
      simp only [if_neg hdw]
    · simp [hdep]
  rw [hsame] at hp hp'
  rw [hp] at hp'
  cases hp'
  have hd := prepared_wf hp
  have hadd := prepared_addsUp hp
  have he : ∀ b, effectiveArgs { args with archives := b, files := false } =
      { args with archives := b, files := false, noAbbrev := args.noAbbrev && !args.unify, abbrev_ := !(args.noAbbrev && !args.unify) } := by
    intro b
    rw [eff_eq]
    simp only [hdep, Bool.false_and, Bool.false_eq_true, if_false]
  rw [he] at hs hs'
  obtain ⟨E1, inv1, hEA⟩ := archives_entries hd (by exact hf) (by rfl) hs
  obtain ⟨mf, e, m, ref, h1, h3, h5⟩ := prepared_ok hp
  obtain ⟨parts, goes, regions, hparts, hg, hm, ht⟩ := cell_map_types hr.loads hr.sizes (fun f hf => by cases hf; exact h1) h3
  have hmap := prepare_map (cur := ⟨l.types, regions, parts, goes⟩) (ref := none) hm ht (by rw [show truthy args.diff = false from hdiff]; rfl)
    (by intro b hb; cases hb) h5
  have hcells := prepare_cells hm.wf hm.named hm.empty (by intro hx; rw [hdiff] at hx; cases hx) h5
  refine ⟨⟨l.types, regions, parts, goes⟩, ⟨rfl, hparts, hg⟩, ?_⟩
  intro x hx
  -- the memory type
  unfold showReport at hs'
  rw [if_neg (by rw [hf]; decide), if_pos hf] at hs'
  unfold showJson at hs'
  rw [if_neg (by simp), if_neg (by simp [hdet]), if_neg (by simp [hdep]), if_neg (by simp)] at hs'
  simp only [Except.ok.injEq, Report.summary.injEq] at hs'
  rw [← hs'] at hx
  obtain ⟨t, htm, rfl⟩ := List.mem_map.mp hx
  have htype : ∃ mt, getType d t.1 = some mt ∧ mt.used = t.2.used := by
    have htm' : t ∈ (sortDict (if args.sortDiff then MType.usedDiff else MType.used) args.sortReverse d.memoryTypes).map
        fun p => (p.1, sortMType args p.2) := htm
    obtain ⟨q, hq, rfl⟩ := List.mem_map.mp htm'
    have hq' : q ∈ d.memoryTypes := ((sortedBy_stable _ _ _).perm.mem_iff).mp hq
    exact ⟨q.2, dget_of_mem hd.1 hq', rfl⟩
  obtain ⟨mt, hmt, hused⟩ := htype
  show t.2.used = shownIn false (fun _ => true) (.type t.1) EA +
    sumBy unlisted ((Build.sections ⟨l.types, regions, parts, goes⟩ false).filter (Build.sends ⟨l.types, regions, parts, goes⟩ t.1 fun _ => true))
  have hu := (hmap.used t.1 mt hmt).1
  rw [hun] at hu
  rw [← hused, hu]
  -- the archives in it
  have hsum : shownIn false (fun _ => true) (.type t.1) EA =
      filesIn args.unify goes parts (fun _ _ => true) (.type t.1) := by
    rw [hEA, archives_shown hd inv1 _ (dif := false) (c := .type t.1) (.inl (by exact hdiff))]
    simp only [Bool.true_and, Bool.false_eq_true, if_false]
    rw [← hm.every]
    refine (hcells.archSize fun x s _ => Col.has (.type t.1) x s).trans ?_
    unfold archCell sumObjs
    apply sumArchs_congr
    intro t' ht' s' hs' a ha
    have hadd := (get_addsUp h3).2 t' ht' s' hs' a ha
    simp only [Bool.true_and]
    by_cases hx : Col.has (.type t.1) t'.1 (secKey args.unify s'.1) = true
    · simp only [hx, if_true]; exact hadd.2.1
    · simp only [hx]; exact (sumBy_zero fun _ _ => rfl).symm
  rw [hsum]
  have hpf : ∀ ps : List MSec, partsFiles (fun _ _ => true) ps = sumBy (fun p => partsFiles (fun _ _ => true) [p]) ps := by
    intro ps
    unfold partsFiles
    apply sumBy_congr
    intro p _
    simp [sumBy]
  unfold filesIn partsIn Build.used Build.sections unlisted
  rw [hpf]
  simp only [Bool.false_eq_true, if_false, sumBy_filter]
  rw [← sumBy_add]
  apply sumBy_congr
  intro p hp
  have hs : Build.sends ⟨l.types, regions, parts, goes⟩ t.1 (fun _ => true) p = (goes p).any fun x => Col.has (.type t.1) x.1 (secKey args.unify x.2) := by
    simp [Build.sends, Col.has]
  rw [hs]
  cases hx : (goes p).any fun x => Col.has (.type t.1) x.1 (secKey args.unify x.2) with
  | false => simp
  | true =>
    cases ha : p.archives with
    | nil => simp [partsFiles, ha, sumBy]
    | cons a as => simp; omega

/-- **C86** if the input sections of each output section lie in it and do not overlap, no part lists more than it has: what
is used of a memory type is not less than the archives in it. -/
theorem C86_room (R : RunIn) (args : Args) {l : GetIn} {b : Build} (hb : BuildOf R args l b)
    (hin : ∀ s ∈ l.sections, InputsInside s ∧ s.inputs.Pairwise DisjointISec ∧ 0 ≤ s.size)
    (hd : ∀ x, l.elf = some x → ∀ y ∈ x.syms, 0 ≤ y.size) (p : MSec) (hp : p ∈ b.parts) : 0 ≤ unlisted p := by
  obtain ⟨h1, _, h3⟩ := parts_room hb.parts hin hd hp
  obtain ⟨q, hok⟩ := parts_archives hb.parts hp
  unfold unlisted partsFiles
  have e : sumBy (fun a : Str × Arch => sumBy (fun o : Str × Obj => if true = true then o.2.size else 0) a.2.kids) p.archives =
      sumBy (fun a : Str × Arch => a.2.size) p.archives := by
    apply sumBy_congr
    intro a ha
    simp only [if_true]
    exact (h3 a.1 a.2 (dget_of_mem hok.wf.1 ha)).symm
  simp only [sumBy] at e ⊢
  rw [e]
  omega

/-! ### Examples -/

/-- An archive whose files changed, but which did not. -/
def exShiftOuts (n : Int) : List ListedOut :=
  [⟨str ".iram0.text", 0x100, 0x20, [⟨str ".text.a", 0x100, n, str "lib/liba.a", str "a.o", []⟩,
      ⟨str ".text.b", 0x100 + n, 0x20 - n, str "lib/liba.a", str "b.o", []⟩]⟩]

def exShiftWorld : World :=
  { exWorld with lines := fun fn => if fn = str "/b/x.map" then .ok (printMap exCsvRegs (str "espx") (exShiftOuts 0x18) exCsvCrt)
                   else if fn = str "/o/x.map" then .ok (printMap exCsvRegs (str "espx") (exShiftOuts 0x10) exCsvCrt) else .error .osError }

def exAgreeEntries : Option (Except Err Report) → Dict Str Entry
  | some (.ok (.entries E)) => E
  | _ => []

/-- Without `--show-unchanged` the sizes need not agree: the archive is hidden, its files are not.  The differences do. -/
theorem C86_hidden_archive :
    exDiffs (makeReport (exRun exShiftWorld) (str "/b/x.map") { format := str "json2", archives := true, diff := some (str "/o/x.map") }) = some [] ∧
    exDiffs (makeReport (exRun exShiftWorld) (str "/b/x.map") { format := str "json2", files := true, diff := some (str "/o/x.map") }) =
      some [(str "lib/liba.a:a.o", 24, 8), (str "lib/liba.a:b.o", 8, -8)] := by decide +kernel

/-- With it they do. -/
example :
    let EA := exAgreeEntries (makeReport (exRun exShiftWorld) (str "/b/x.map")
      { format := str "json2", archives := true, diff := some (str "/o/x.map"), showUnchanged := true })
    let EF := exAgreeEntries (makeReport (exRun exShiftWorld) (str "/b/x.map")
      { format := str "json2", files := true, diff := some (str "/o/x.map"), showUnchanged := true })
    shownIn false (fun _ => true) (.type (str "IRAM")) EA = 32 ∧ shownIn false (nameIn (str "lib/liba.a")) (.sec (str "IRAM") (str ".iram0.text")) EF = 32 ∧
    shownIn true (nameIn (str "lib/liba.a")) .total EF = 0 ∧ ColonFree EA := by
  refine ⟨by decide +kernel, by decide +kernel, by decide +kernel, ?_⟩
  unfold ColonFree
  decide +kernel

/-- The summary and the archives of a project: 36 bytes used, all of them listed. -/
example : (∃ l, Readable (exRun exCsvWorld) { format := str "json2" } (str "/b/x.map") l) ∧
    (match makeReport (exRun exCsvWorld) (str "/b/x.map") { format := str "json2" } with
      | some (.ok (.summary J)) => J.layout.map fun x => (x.name, x.used)
      | _ => []) = [(str "IRAM", 36)] ∧
    shownIn false (fun _ => true) (.type (str "IRAM"))
      (exAgreeEntries (makeReport (exRun exCsvWorld) (str "/b/x.map") { format := str "json2", archives := true })) = 36 :=
  ⟨readable_of (by decide +kernel), by decide +kernel, by decide +kernel⟩

end EspSize
