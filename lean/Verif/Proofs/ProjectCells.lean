import Verif.Proofs.PrepCells
/-! # The cells of the map of a project -/
namespace EspSize

section
variable {goes : MSec → Option (Str × Str)}

/-- Sums over the sections of a memory type, with their names, are sums over the parts shown there. -/
theorem holds_keyed {parts : List MSec} {k : Str} {mt : MType} (h : Holds goes parts k mt) (g : Str → Sec → Int) :
    sumBy (fun p => g p.1 p.2) mt.sections =
      sumBy (fun s => match goes s with | some x => if x.1 = k then g x.2 (secEntry x.2 s) else 0 | none => 0) (shownParts goes parts) := by
  have hL : sumBy (fun s => match goes s with | some x => if x.1 = k then g x.2 (secEntry x.2 s) else 0 | none => 0) (shownParts goes parts) =
      sumBy (fun p => g p.1 p.2) ((shownParts goes parts).filterMap (entryIn goes k)) := by
    rw [sumBy_filterMap]
    apply sumBy_congr
    intro s _
    unfold entryIn
    cases goes s with
    | none => rfl
    | some x =>
      simp only []
      by_cases hx : x.1 = k <;> simp [hx]
  have hn : KeysNodup ((shownParts goes parts).filterMap (entryIn goes k)) := by
    unfold KeysNodup dkeys List.Nodup
    rw [List.pairwise_map, List.pairwise_filterMap]
    refine (shown_pairwise parts).imp ?_
    intro s s' hne p hp q hq e
    have h1 := (entryIn_some hp).1
    have h2 := (entryIn_some hq).1
    exact hne (by rw [h1, h2, e])
  rw [hL]
  apply sumBy_of_dget h.nodup hn
  intro key
  cases hk : dget mt.sections key with
  | none =>
    symm
    rw [dget_eq_none]
    intro hm
    obtain ⟨p, hp, e⟩ := List.mem_map.mp hm
    obtain ⟨s, hs, he⟩ := List.mem_filterMap.mp hp
    have h1 := (entryIn_some he).1
    have : (dget mt.sections key).isSome = true := (h.keys key).mpr ⟨s, (mem_shown hs).1, by rw [h1, e]⟩
    rw [hk] at this; cases this
  | some x =>
    symm
    obtain ⟨pre, s, post, h1, h2, h3, h4⟩ := h.last key x hk
    apply dget_of_mem hn
    refine List.mem_filterMap.mpr ⟨s, ?_, ?_⟩
    · rw [h1]
      exact last_shown (by rw [h2]; simp) fun q hq => by rw [h2]; exact h4 q hq
    · unfold entryIn
      rw [h2]
      simp [h3]

theorem sumBy_pick {ks : List Str} (hn : ks.Nodup) (f : Str → Int) {x : Str} (hx : x ∈ ks) :
    sumBy (fun k => if x = k then f k else 0) ks = f x := by
  induction ks with
  | nil => cases hx
  | cons k ks ih =>
    obtain ⟨h1, h2⟩ := List.nodup_cons.mp hn
    rw [sumBy_cons]
    rcases List.mem_cons.mp hx with rfl | hx
    · rw [if_pos rfl, sumBy_zero]
      · omega
      · intro k' hk'
        exact if_neg fun (e : x = k') => h1 (e ▸ hk')
    · rw [if_neg fun (e : x = k) => h1 (e ▸ hx), ih h2 hx]
      omega

end

/-- The memory types of the map of a project. -/
structure TypesOf (types : Dict Str MemTypeInfo) (regions : List SReg) (goes : MSec → Option (Str × Str)) (parts : List MSec)
    (m : MemMap) : Prop where
  alias : ∀ k, (getType m k).isSome = true ↔ IsAlias types k
  holds : ∀ k mt, getType m k = some mt → Holds goes parts k mt
  size : ∀ k mt, getType m k = some mt → mt.size = sumBy (fun r => r.length) (firstViews k [] regions)
  same : ∀ k mt, getType m k = some mt → mt.sizeDiff = 0 ∧ mt.usedDiff = 0
  into : ∀ p t s, goes p = some (t, s) → IsAlias types t
  secs : ∀ t s x, getSec m t s = some x → x.sizeDiff = 0

/-- Sums over the sections of a map, with their names, are sums over the parts that are shown. -/
theorem get_keyed {n : Nat} {w : World} {fn : Str} {ls : Bool} {ud : Option Bool} {mf : Option MapFile} {m : MemMap} {e : Option ElfData}
    (h : getMap n w fn ls ud mf e = some (.ok m)) :
    ∃ l regs parts goes, load w fn ud mf = .ok l ∧ PartsOf n ls l regs parts ∧ (∀ s, Goes l.types regs s (goes s)) ∧ m.WF ∧
      (∀ k s x, getSec m k s = some x → ∃ p ∈ parts, x = secEntry s p ∧ goes p = some (k, s)) ∧
      TypesOf l.types regs goes parts m ∧
      ∀ g : Str → Str → Sec → Int, sumBy (fun t : Str × MType => sumBy (fun s => g t.1 s.1 s.2) t.2.sections) m.memoryTypes =
        sumBy (fun p => match goes p with | some x => g x.1 x.2 (secEntry x.2 p) | none => 0) (shownParts goes parts) := by
  obtain ⟨l, regs, parts, goes, hl, hp, hwf, _, _, hzero, hsec, hg, _, _, hold, hkeys⟩ := C58_accounted n w fn ls ud mf e m h
  refine ⟨l, regs, parts, goes, hl, hp, hg, hwf, fun k s x hx => (hsec k s x hx).2, ⟨?_, fun k mt hk => (hold k mt hk).2.1,
    fun k mt hk => (hold k mt hk).2.2, hzero, ?_, ?_⟩, ?_⟩
  rotate_left
  · intro p t s hx
    obtain ⟨ws, hsplit⟩ := hp.regions
    exact goes_isAlias (isAlias_of (splitRegions_fromTable (by intro p hp; cases hp) hsplit)) (key := s) (hx ▸ hg p)
  · intro t s x hx
    obtain ⟨p, _, rfl, _⟩ := (hsec t s x hx).2
    rfl
  rotate_left
  · intro k
    constructor
    · intro hk
      obtain ⟨mt, hk⟩ := Option.isSome_iff_exists.mp hk
      exact (hold k mt hk).1
    · exact hkeys k
  intro g
  obtain ⟨ws, hsplit⟩ := hp.regions
  have hft := isAlias_of (splitRegions_fromTable (by intro p hp; cases hp) hsplit)
  have e : sumBy (fun t : Str × MType => sumBy (fun s => g t.1 s.1 s.2) t.2.sections) m.memoryTypes =
      sumBy (fun k => sumBy (fun s => match goes s with | some x => if x.1 = k then g k x.2 (secEntry x.2 s) else 0 | none => 0)
        (shownParts goes parts)) (dkeys m.memoryTypes) := by
    unfold dkeys
    rw [sumBy_map]
    apply sumBy_congr
    intro p hp
    exact holds_keyed (hold p.1 p.2 (dget_of_mem hwf.1 hp)).2.1 (g p.1)
  rw [e, sumBy_comm]
  apply sumBy_congr
  intro s hs
  cases hx : goes s with
  | none => exact absurd hx (mem_shown hs).2
  | some x =>
    simp only []
    exact sumBy_pick hwf.1 (fun k => g k x.2 (secEntry x.2 s)) (dget_isSome.mp (hkeys _ (goes_isAlias hft (key := x.2) (hx ▸ hg s))))

/-- The map of a project. -/
structure CellMap (goes : MSec → Option (Str × Str)) (parts : List MSec) (m : MemMap) : Prop where
  wf : m.WF
  named : AllNamed m
  empty : UnusedEmpty m
  archs : ∀ u k c, archCell u Node.size (fun t s x => decide (x = k) && Col.has c t s) m =
    filesIn u goes parts (fun a _ => decide (archKey u a = k)) c
  files : ∀ u k c, fileCell u Node.size (fun t s x => decide (x = k) && Col.has c t s) m =
    filesIn u goes parts (fun a o => decide (fileKey u a o = k)) c
  syms : ∀ u det k c, symCell u Sym.size (fun t s b x => decide (some b = det ∧ x = k) && Col.has c t s) m =
    symbolsIn u goes parts (fun a o y => decide (some (basename a) = det ∧ reportedSym u a o y = k)) c
  noArch : ∀ u w, archCell u Node.sizeDiff w m = 0
  noFile : ∀ u w, fileCell u Node.sizeDiff w m = 0
  noSym : ∀ u w, symCell u Sym.sizeDiff w m = 0
  hasFiles : FilesIn (HasFile parts) m
  hasSyms : SymsIn (HasSym parts) m
  every : ∀ u P c, sumObjs m (fun t s a o => if (P a.1 o.1 && Col.has c t (secKey u s)) = true then o.2.size else 0) = filesIn u goes parts P c

theorem partsFiles_in {u : Bool} {goes : MSec → Option (Str × Str)} {parts : List MSec} {P : Str → Str → Bool} {c : Col} :
    filesIn u goes parts P c = sumBy (fun p => match goes p with
      | some x => sumBy (fun a : Str × Arch => sumBy (fun o : Str × Obj => if (P a.1 o.1 && c.has x.1 (secKey u x.2)) = true then o.2.size else 0) a.2.kids) p.archives
      | none => 0) (shownParts goes parts) := by
  unfold filesIn partsFiles partsIn
  rw [sumBy_filter]
  apply sumBy_congr
  intro p hp
  cases hx : goes p with
  | none => exact absurd hx (mem_shown hp).2
  | some x =>
    simp only [Option.any_some]
    by_cases hc : c.has x.1 (secKey u x.2) = true
    · simp only [hc, Bool.and_true, if_true]
    · simp only [Bool.not_eq_true] at hc
      simp only [hc, Bool.and_false, Bool.false_eq_true, if_false]
      exact (sumBy_zero fun _ _ => sumBy_zero fun _ _ => rfl).symm

theorem partsSyms_in {u : Bool} {goes : MSec → Option (Str × Str)} {parts : List MSec} {P : Str → Str → Str → Bool} {c : Col} :
    symbolsIn u goes parts P c = sumBy (fun p => match goes p with
      | some x => sumBy (fun a : Str × Arch => sumBy (fun o : Str × Obj => sumBy (fun y : Str × Sym =>
          if (P a.1 o.1 y.1 && c.has x.1 (secKey u x.2)) = true then y.2.size else 0) o.2.kids) a.2.kids) p.archives
      | none => 0) (shownParts goes parts) := by
  unfold symbolsIn partsSyms partsIn
  rw [sumBy_filter]
  apply sumBy_congr
  intro p hp
  cases hx : goes p with
  | none => exact absurd hx (mem_shown hp).2
  | some x =>
    simp only [Option.any_some]
    by_cases hc : c.has x.1 (secKey u x.2) = true
    · simp only [hc, Bool.and_true, if_true]
    · simp only [Bool.not_eq_true] at hc
      simp only [hc, Bool.and_false, Bool.false_eq_true, if_false]
      exact (sumBy_zero fun _ _ => sumBy_zero fun _ _ => sumBy_zero fun _ _ => rfl).symm

theorem cell_map_types {R : RunIn} {args : Args} {fn : Str} {l : GetIn} (hload : load R.w fn (useDwarfOf args) none = .ok l)
    (hnn : ∀ s ∈ l.sections, 0 ≤ s.size) {mf : Option MapFile} (hmf : ∀ f, mf = some f → loadMap R.w fn = .ok f) {m : MemMap}
    {e : Option ElfData} (h : getMap R.n R.w fn (loadSymbolsOf args) (useDwarfOf args) mf e = some (.ok m)) :
    ∃ parts goes regions, PartsOf R.n (loadSymbolsOf args) l regions parts ∧ (∀ s, Goes l.types regions s (goes s)) ∧
      CellMap goes parts m ∧ TypesOf l.types regions goes parts m := by
  have hl : load R.w fn (useDwarfOf args) mf = .ok l := by
    rw [← hload]
    cases mf with
    | none => rfl
    | some f =>
      have : useMap R.w fn none = useMap R.w fn (some f) := by simp [useMap, hmf f rfl, wrapMap]
      unfold load
      rw [this]
  obtain ⟨l', regions, parts, goes, hl', hp, hg, hwf, hsec, hold, hkey⟩ := get_keyed h
  rw [hl] at hl'
  cases hl'
  obtain ⟨_, _, hsk⟩ := sym_key h hl
  have hpos : ∀ s ∈ keptOf l, 0 < s.size := by
    intro s hs
    have hk : s.size ≠ 0 := by
      have hk := (List.mem_filter.mp hs).2
      simp only [decide_eq_true_eq] at hk
      exact hk.1
    have := hnn s (List.mem_filter.mp hs).1
    omega
  -- the archives of the map are the archives of a part
  have hfrom : ∀ t ∈ m.memoryTypes, ∀ s ∈ t.2.sections, ∃ p ∈ parts, ∃ q, ArchivesOk q p ∧ s.2 = secEntry s.1 p := by
    intro t ht s hs
    have hg' : getSec m t.1 s.1 = some s.2 :=
      Option.bind_eq_some_iff.mpr ⟨t.2, dget_of_mem hwf.1 ht, dget_of_mem (hwf.2 t ht).1 hs⟩
    obtain ⟨p, hpp, hx, _⟩ := hsec _ _ _ hg'
    obtain ⟨q, hq⟩ := parts_archives hp hpp
    exact ⟨p, hpp, q, hq, hx⟩
  have harch : ∀ t ∈ m.memoryTypes, ∀ s ∈ t.2.sections, ∀ a ∈ s.2.kids, a.2.abb = basename a.1 ∧ a.2.sizeDiff = 0 ∧
      a.2.size = sumBy (fun o => o.2.size) a.2.kids ∧ ∀ o ∈ a.2.kids, o.2.abb = basename o.1 ∧ o.2.sizeDiff = 0 := by
    intro t ht s hs a ha
    obtain ⟨p, _, q, hok, hk⟩ := hfrom t ht s hs
    rw [hk] at ha
    obtain ⟨h1, h2, _, h4, _, h6⟩ := hok.arch a.1 a.2 (dget_of_mem hok.wf.1 ha)
    refine ⟨h1, h2, h4, fun o ho => ?_⟩
    have := h6 o.1 o.2 (dget_of_mem (hok.wf.2 a ha).1 ho)
    exact ⟨this.1, this.2.1⟩
  have hsym : ∀ t ∈ m.memoryTypes, ∀ s ∈ t.2.sections, ∀ a ∈ s.2.kids, ∀ o ∈ a.2.kids, ∀ y ∈ o.2.kids,
      y.2.abb = y.1 ∧ y.2.sizeDiff = 0 := by
    intro t ht s hs a ha o ho y hy
    have h1 := hwf.2 t ht
    have h2 := h1.2 s hs
    have h3 := h2.2 a ha
    have h4 := h3.2 o ho
    have := hsk _ _ _ _ _ _ (show getSym m t.1 s.1 a.1 o.1 y.1 = some y.2 from
      Option.bind_eq_some_iff.mpr ⟨o.2, Option.bind_eq_some_iff.mpr ⟨a.2, Option.bind_eq_some_iff.mpr ⟨s.2,
      Option.bind_eq_some_iff.mpr ⟨t.2, dget_of_mem hwf.1 ht, dget_of_mem h1.1 hs⟩, dget_of_mem h2.1 ha⟩,
      dget_of_mem h3.1 ho⟩, dget_of_mem h4.1 hy⟩)
    exact ⟨this.1, this.2.1⟩
  have hfiles : ∀ (u : Bool) (P : Str → Str → Bool) (c : Col),
      sumObjs m (fun t s a o => if (P a.1 o.1 && Col.has c t (secKey u s)) = true then o.2.size else 0) = filesIn u goes parts P c := by
    intro u P c
    rw [partsFiles_in]
    exact hkey fun t s x => sumBy (fun a : Str × Arch => sumBy (fun o : Str × Obj =>
      if (P a.1 o.1 && Col.has c t (secKey u s)) = true then o.2.size else 0) a.2.kids) x.kids
  refine ⟨parts, goes, regions, hp, hg, ⟨hwf, ⟨?_, ?_, ?_⟩, ?_, ?_, ?_, ?_, ?_, ?_, ?_, ?_, ?_, hfiles⟩, hold⟩
  · intro t ht s hs a ha
    obtain ⟨h1, _, _, h4⟩ := harch t ht s hs a ha
    exact ⟨h1, fun o ho => (h4 o ho).1⟩
  · exact fun t ht s hs a ha o ho y hy => (hsym t ht s hs a ha o ho y hy).1
  · intro t ht s hs
    obtain ⟨p, _, q, hok, hk⟩ := hfrom t ht s hs
    rw [hk]; rfl
  · intro t ht hu
    refine empty_of_unused (hold.holds t.1 t.2 (dget_of_mem hwf.1 ht)) ?_ hu
    intro p hpp
    obtain ⟨s, hs, _, h2, _⟩ := parts_from hp hpp
    exact h2 (hpos s hs)
  · intro u k c
    rw [← hfiles u (fun a _ => decide (archKey u a = k)) c]
    unfold archCell sumObjs
    apply sumArchs_congr
    intro t ht s hs a ha
    cases hw : (decide (archKey u a.1 = k) && Col.has c t.1 (secKey u s.1)) with
    | false => simp only [hw, Bool.false_eq_true, if_false]; exact (sumBy_zero fun _ _ => rfl).symm
    | true => simp only [hw, if_true]; exact (harch t ht s hs a ha).2.2.1
  · exact fun u k c => hfiles u (fun a o => decide (fileKey u a o = k)) c
  · intro u det k c
    rw [partsSyms_in]
    exact hkey fun t s x => sumBy (fun a : Str × Arch => sumBy (fun o : Str × Obj => sumBy (fun y : Str × Sym =>
      if (decide (some (basename a.1) = det ∧ reportedSym u a.1 o.1 y.1 = k) && Col.has c t (secKey u s)) = true then y.2.size else 0)
      o.2.kids) a.2.kids) x.kids
  · intro u w
    unfold archCell
    rw [sumArchs_congr (G := fun _ _ _ => 0)]
    · exact sumBy_zero fun _ _ => sumBy_zero fun _ _ => sumBy_zero fun _ _ => rfl
    · intro t ht s hs a ha
      simp [(harch t ht s hs a ha).2.1]
  · intro u w
    unfold fileCell
    rw [sumObjs_congr (G := fun _ _ _ _ => 0)]
    · exact sumBy_zero fun _ _ => sumBy_zero fun _ _ => sumBy_zero fun _ _ => sumBy_zero fun _ _ => rfl
    · intro t ht s hs a ha o ho
      simp [((harch t ht s hs a ha).2.2.2 o ho).2]
  · intro u w
    refine (sumSyms_congr (G := fun _ _ _ _ _ => 0) ?_).trans (sumSyms_zero m)
    intro t ht s hs a ha o ho y hy
    simp [(hsym t ht s hs a ha o ho y hy).2]
  · intro t ht s hs a ha o ho
    obtain ⟨p, hpp, q, hok, hk⟩ := hfrom t ht s hs
    rw [hk] at ha
    exact ⟨p, hpp, a.2, dget_of_mem hok.wf.1 ha, by rw [dget_of_mem (hok.wf.2 a ha).1 ho]; rfl⟩
  · intro t ht s hs a ha o ho y hy
    obtain ⟨p, hpp, q, hok, hk⟩ := hfrom t ht s hs
    rw [hk] at ha
    exact ⟨p, hpp, a.2, o.2, dget_of_mem hok.wf.1 ha, dget_of_mem (hok.wf.2 a ha).1 ho, by
      rw [dget_of_mem ((hok.wf.2 a ha).2 o ho).1 hy]; rfl⟩

theorem cell_map {R : RunIn} {args : Args} {fn : Str} {l : GetIn} (hload : load R.w fn (useDwarfOf args) none = .ok l)
    (hnn : ∀ s ∈ l.sections, 0 ≤ s.size) {mf : Option MapFile} (hmf : ∀ f, mf = some f → loadMap R.w fn = .ok f) {m : MemMap}
    {e : Option ElfData} (h : getMap R.n R.w fn (loadSymbolsOf args) (useDwarfOf args) mf e = some (.ok m)) :
    ∃ parts goes, CutInto R args l parts goes ∧ CellMap goes parts m := by
  obtain ⟨parts, goes, regions, hp, hg, hm, _⟩ := cell_map_types hload hnn hmf h
  exact ⟨parts, goes, ⟨regions, hp, hg⟩, hm⟩

end EspSize
