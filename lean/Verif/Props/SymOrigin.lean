import Verif.Spec.SymOrigin
import Verif.Props.Lost
import Verif.Props.Nested
/-! # C78: the symbols of the map returned by `get` -/
namespace EspSize

/-! ### Splitting -/

theorem splitSyms_names (c : Int) (ys : List MSym) :
    ((splitSyms c ys).1.map MSym.name).Sublist (ys.map MSym.name) ∧ ((splitSyms c ys).2.map MSym.name).Sublist (ys.map MSym.name) := by
  induction ys with
  | nil => exact ⟨List.Sublist.refl _, List.Sublist.refl _⟩
  | cons y ys ih =>
    simp only [splitSyms]
    split
    · exact ⟨ih.1.cons_cons _, ih.2.cons _⟩
    · split
      · exact ⟨ih.1.cons _, ih.2.cons_cons _⟩
      · exact ⟨ih.1.cons_cons _, ih.2.cons_cons _⟩

theorem symKeys_cons (i : ISec) (is : List ISec) :
    symKeys (i :: is) = (i.symbols.map MSym.name).map (fun y => (i.archive, i.objectFile, y)) ++ symKeys is := by
  simp [symKeys, Function.comp_def]

theorem splitInputs_keys (c : Int) (is : List ISec) :
    (symKeys (splitInputs c is).1).Sublist (symKeys is) ∧ (symKeys (splitInputs c is).2).Sublist (symKeys is) := by
  induction is with
  | nil => exact ⟨List.Sublist.refl _, List.Sublist.refl _⟩
  | cons i is ih =>
    simp only [splitInputs]
    split
    · rw [symKeys_cons, symKeys_cons]
      exact ⟨(List.Sublist.refl _).append ih.1, ih.2.trans (List.sublist_append_right _ _)⟩
    · split
      · rw [symKeys_cons, symKeys_cons]
        exact ⟨ih.1.trans (List.sublist_append_right _ _), (List.Sublist.refl _).append ih.2⟩
      · rw [symKeys_cons, symKeys_cons, symKeys_cons]
        have := splitSyms_names c i.symbols
        exact ⟨(this.1.map _).append ih.1, (this.2.map _).append ih.2⟩

theorem splitStack_keys (regions : List SReg) (n : Nat) : ∀ s : OSec, s.size.toNat ≤ n →
    ∀ p ∈ splitStack regions [s], (symKeys p.inputs).Sublist (symKeys s.inputs) := by
  have base : ∀ s : OSec, splitSection regions s = none → ∀ p ∈ splitStack regions [s], (symKeys p.inputs).Sublist (symKeys s.inputs) := by
    intro s h p hp
    rw [splitStack_none h, splitStack] at hp
    simp at hp
    subst hp
    exact List.Sublist.refl _
  induction n with
  | zero =>
    intro s hn p hp
    cases h : splitSection regions s with
    | none => exact base s h p hp
    | some ab => have := splitSection_decreases (a := ab.1) (b := ab.2) h; omega
  | succ n ih =>
    intro s hn p hp
    cases h : splitSection regions s with
    | none => exact base s h p hp
    | some ab =>
      obtain ⟨a, b⟩ := ab
      have hdec := splitSection_decreases h
      rw [splitStack_some h] at hp
      obtain ⟨r, _, cut, hc, hin, hlt, rfl, rfl⟩ := splitSection_some h
      rcases List.mem_cons.mp hp with rfl | hp
      · exact (splitInputs_keys _ _).1
      · exact (ih _ (by omega) p hp).trans (splitInputs_keys _ _).2

/-- The symbols of a part are among those of its section. -/
theorem splitMapSections_keys (sections : List OSec) (regions : List SReg) {p : OSec}
    (h : p ∈ splitMapSections sections regions) : ∃ s ∈ sections, (symKeys p.inputs).Sublist (symKeys s.inputs) := by
  unfold splitMapSections at h
  rw [splitStack_flatMap] at h
  obtain ⟨s, hs, hp⟩ := List.mem_flatMap.mp h
  exact ⟨s, by simpa using hs, splitStack_keys regions _ s (Nat.le_refl _) p hp⟩

theorem symsOf_names (s : OSec) (a o : Str) :
    (symsOf s a o).map MSym.name = ((symKeys s.inputs).filter fun k => k.1 = a ∧ k.2.1 = o).map fun k => k.2.2 := by
  unfold symsOf
  generalize s.inputs = is
  induction is with
  | nil => rfl
  | cons i is ih =>
    rw [symKeys_cons, List.filter_append, List.map_append, ← ih]
    by_cases h : i.archive = a ∧ i.objectFile = o
    · rw [List.filter_cons_of_pos (by simpa using h), List.flatMap_cons, List.map_append]
      congr 1
      rw [List.filter_eq_self.mpr]
      · simp [Function.comp_def]
      · intro k hk
        obtain ⟨y, _, rfl⟩ := List.mem_map.mp hk
        simpa using h
    · rw [List.filter_cons_of_neg (by simpa using h)]
      have : (List.map (fun y => (i.archive, i.objectFile, y)) (i.symbols.map MSym.name)).filter
          (fun k => decide (k.1 = a ∧ k.2.1 = o)) = [] := by
        rw [List.filter_eq_nil_iff]
        intro k hk
        obtain ⟨y, _, rfl⟩ := List.mem_map.mp hk
        simpa using h
      rw [this]
      rfl

/-! ### Origin -/

/-- A symbol in the map is a symbol of an input section that counts. -/
theorem sym_key {n : Nat} {w : World} {fn : Str} {ls : Bool} {ud : Option Bool} {mf : Option MapFile} {e : Option ElfData} {m : MemMap}
    {l : GetIn} (h : getMap n w fn ls ud mf e = some (.ok m)) (hl : load w fn ud mf = .ok l) :
    ∃ osecs, symbolStep ls l.elf (filterMapSections l.sections (elfHeaders (l.elf.map ElfData.shdrs))) = .ok osecs ∧
      ∀ t s a o y yx, getSym m t s a o y = some yx → yx.abb = y ∧ yx.sizeDiff = 0 ∧ ∃ q ∈ osecs, (a, o, y) ∈ symKeys q.inputs := by
  obtain ⟨l', regs, parts, goes, hl', hp, hwf, _, _, _, hsec, _⟩ := C58_accounted n w fn ls ud mf e m h
  rw [hl] at hl'
  cases hl'
  obtain ⟨osecs, h1, rfl⟩ := hp.sections
  refine ⟨osecs, h1, ?_⟩
  intro t s a o y yx hy
  obtain ⟨ox, hox, hy⟩ := Option.bind_eq_some_iff.mp hy
  obtain ⟨ar, har, hox⟩ := Option.bind_eq_some_iff.mp hox
  obtain ⟨x, hx, har⟩ := Option.bind_eq_some_iff.mp har
  obtain ⟨_, p, hpp, rfl, _⟩ := hsec t s x hx
  obtain ⟨q, hq, hsy⟩ := (C55_symbols_partial (splitMapSections osecs regs)).mem_right hpp
  obtain ⟨s', hs', hsub⟩ := splitMapSections_keys _ _ hq
  obtain ⟨hk1, hk2, _⟩ := hsy a o ar ox har hox
  obtain ⟨h2, h3, _⟩ := hk2 y yx hy
  obtain ⟨z, hz, hzn⟩ := (hk1 y).mp (by rw [hy]; rfl)
  have : y ∈ (symsOf q a o).map MSym.name := List.mem_map.mpr ⟨z, hz, hzn⟩
  rw [symsOf_names] at this
  obtain ⟨k, hk, e⟩ := List.mem_map.mp this
  obtain ⟨hk, hd⟩ := List.mem_filter.mp hk
  simp only [decide_eq_true_eq] at hd
  refine ⟨h2, h3, s', hs', hsub.mem ?_⟩
  rw [← hd.1, ← hd.2, ← e]
  exact hk

/-- **C78** without `load_symbols` there are no symbols in the map returned by `get`. -/
theorem C78_no_symbols (n : Nat) (w : World) (fn : Str) (ud : Option Bool) (mf : Option MapFile) (e : Option ElfData) (m : MemMap)
    (h : getMap n w fn false ud mf e = some (.ok m)) (t s a o : Str) (ox : Obj) (hox : getObj m t s a o = some ox) : ox.kids = [] := by
  obtain ⟨l, hl⟩ : ∃ l, load w fn ud mf = .ok l := by
    obtain ⟨l, _, _, _, hl, _⟩ := C58_accounted n w fn false ud mf e m h
    exact ⟨l, hl⟩
  obtain ⟨osecs, h1, hkey⟩ := sym_key h hl
  cases hk : ox.kids with
  | nil => rfl
  | cons p ps =>
    exfalso
    have hy : getSym m t s a o p.1 = some p.2 := Option.bind_eq_some_iff.mpr ⟨ox, hox, by rw [hk, dget_cons]; simp⟩
    obtain ⟨_, _, q, hq, hm⟩ := hkey t s a o p.1 p.2 hy
    simp only [symbolStep, Bool.false_eq_true, if_false, Except.ok.injEq] at h1
    subst h1
    obtain ⟨q0, _, rfl⟩ := List.mem_map.mp hq
    obtain ⟨i, hi, hm⟩ := List.mem_flatMap.mp hm
    obtain ⟨i0, _, rfl⟩ := List.mem_map.mp hi
    cases hm

/-- The name of a symbol of an input section: the section itself, or a function or object of the ELF file in it. -/
def SymOrigin (elf : Option ElfData) (i : ISec) (y : Str) : Prop :=
  y = i.name ∨ ∃ d z, elf = some d ∧ z ∈ d.syms ∧ Sized z ∧ y = (if z.type = 2 then z.name ++ str "()" else z.name) ∧
    i.address ≤ z.value ∧ z.value + z.size ≤ i.address + i.size

/-- **C78** every symbol in the map returned by `get` is, for an input section of its archive and object file that counts,
the input section itself or a function or object of the ELF file that lies in it. -/
theorem C78_origin (n : Nat) (w : World) (fn : Str) (ls : Bool) (ud : Option Bool) (mf : Option MapFile) (e : Option ElfData)
    (m : MemMap) (l : GetIn) (h : getMap n w fn ls ud mf e = some (.ok m)) (hl : load w fn ud mf = .ok l)
    (t s a o y : Str) (yx : Sym) (hy : getSym m t s a o y = some yx) :
    ls = true ∧ yx.abb = y ∧ yx.sizeDiff = 0 ∧
      ∃ s0 ∈ keptOf l, ∃ i ∈ s0.inputs, i.archive = a ∧ i.objectFile = o ∧ SymOrigin l.elf i y := by
  obtain ⟨osecs, h1, hkey⟩ := sym_key h hl
  obtain ⟨h2, h3, q, hq, hm⟩ := hkey t s a o y yx hy
  obtain ⟨j, hj, hm⟩ := List.mem_flatMap.mp hm
  obtain ⟨z, hz, ez⟩ := List.mem_map.mp hm
  simp only [Prod.mk.injEq] at ez
  have hls : ls = true := by
    cases ls with
    | true => rfl
    | false =>
      simp only [symbolStep, Bool.false_eq_true, if_false, Except.ok.injEq] at h1
      subst h1
      obtain ⟨q0, _, rfl⟩ := List.mem_map.mp hq
      obtain ⟨i0, _, rfl⟩ := List.mem_map.mp hj
      cases hz
  subst hls
  refine ⟨rfl, h2, h3, ?_⟩
  simp only [symbolStep, if_true] at h1
  have key : All2 (SymsOf fun i l' => ∀ z ∈ l', SymOrigin l.elf i z.name)
      (filterMapSections l.sections (elfHeaders (l.elf.map ElfData.shdrs))) osecs := by
    cases he : l.elf with
    | none =>
      rw [he] at h1
      obtain ⟨os, h4, h5⟩ := C56_no_elf (filterMapSections l.sections (elfHeaders none))
      simp only [Option.map_none] at h1 ⊢
      rw [h1] at h4
      cases h4
      refine h5.imp fun _ _ _ ho => ho.imp ?_
      rintro i _ l' rfl z hz
      cases List.mem_singleton.mp hz
      exact .inl rfl
    | some d =>
      rw [he] at h1
      refine (C22_inside d.syms _ osecs h1).imp fun _ _ _ ho => ho.imp ?_
      rintro i _ l' (rfl | hl) z hz
      · cases List.mem_singleton.mp hz
        exact .inl rfl
      · obtain ⟨x, hx, hsz, rfl, h6, h7⟩ := hl z hz
        exact .inr ⟨d, x, rfl, hx, hsz, rfl, h6, h7⟩
  obtain ⟨q0, hq0, hso⟩ := key.mem_right hq
  obtain ⟨i, hi, hij, hor⟩ := hso.2.mem_right hj
  rw [C20_filter] at hq0
  obtain ⟨s0, hs0, rfl⟩ := List.mem_map.mp hq0
  refine ⟨s0, hs0, i, (List.mem_filter.mp hi).1, ?_, ?_, ez.2.2 ▸ hor z hz⟩
  · rw [← ez.1, hij]
  · rw [← ez.2.1, hij]

/-! ### Totals -/

theorem All2.sum' {α β : Type} {Q : α → β → Prop} {f : α → Int} {g : β → Int} {a : List α} {b : List β} (h : All2 Q a b)
    (hfg : ∀ x ∈ a, ∀ y, Q x y → f x = g y) : sumBy f a = sumBy g b := by
  induction a generalizing b with
  | nil => cases b with
    | nil => rfl
    | cons _ _ => exact h.elim
  | cons x a ih =>
    cases b with
    | nil => exact h.elim
    | cons y b => rw [sumBy_cons, sumBy_cons, hfg x (by simp) y h.1, ih h.2 fun z hz => hfg z (by simp [hz])]

theorem symbolSum_of {s : OSec} {p : MSec} (hok : ArchivesOk s p) (hsy : SymbolsOk s p) (hn : (symKeys s.inputs).Nodup)
    (P : Str → Str → Str → Bool) :
    sumBy (fun a => sumBy (fun o => sumBy (fun y => if P a.1 o.1 y.1 then y.2.size else 0) o.2.kids) a.2.kids) p.archives = symbolSum P s := by
  -- one object file
  have hobj : ∀ a ∈ p.archives, ∀ o ∈ a.2.kids, sumBy (fun y => if P a.1 o.1 y.1 then y.2.size else 0) o.2.kids =
      sumBy (fun z => if P a.1 o.1 z.name then z.size else 0) (symsOf s a.1 o.1) := by
    intro a ha o ho
    have hwa := hok.wf.2 a ha
    have hwo : KeysNodup o.2.kids := (hwa.2 o ho).1
    obtain ⟨hk1, hk2, _⟩ := hsy a.1 o.1 a.2 o.2 (dget_of_mem hok.wf.1 ha) (dget_of_mem hwa.1 ho)
    have hnames : ((symsOf s a.1 o.1).map MSym.name).Nodup := by
      rw [symsOf_names]
      have hf : ((symKeys s.inputs).filter fun k => k.1 = a.1 ∧ k.2.1 = o.1).Nodup := hn.sublist List.filter_sublist
      refine List.pairwise_map.mpr (hf.imp_of_mem ?_)
      intro x y hx hy hne e
      have h1 := of_decide_eq_true (List.mem_filter.mp hx).2
      have h2 := of_decide_eq_true (List.mem_filter.mp hy).2
      apply hne
      obtain ⟨x1, x2, x3⟩ := x
      obtain ⟨y1, y2, y3⟩ := y
      simp only [] at h1 h2 e
      rw [h1.1, h1.2, h2.1, h2.2, e]
    rw [← sum_by_key o.2.kids hwo MSym.name (fun z => if P a.1 o.1 z.name then z.size else 0) (symsOf s a.1 o.1)
      (fun z hz _ => dget_isSome.mp ((hk1 z.name).mpr ⟨z, hz, rfl⟩))]
    apply sumBy_congr
    intro y hy
    obtain ⟨_, _, pre, z, post, ez, hzn, hzs, hpost⟩ := hk2 y.1 y.2 (dget_of_mem hwo hy)
    rw [ez] at hnames ⊢
    rw [List.map_append, List.map_cons, List.nodup_append] at hnames
    rw [sumBy_append, sumBy_cons, if_pos hzn, hzn, hzs]
    have g1 : sumBy (fun i : MSym => if i.name = y.1 then (if P a.1 o.1 i.name then i.size else 0) else 0) pre = 0 := by
      apply sumBy_zero
      intro i hi
      refine if_neg fun e => ?_
      exact hnames.2.2 i.name (List.mem_map.mpr ⟨i, hi, rfl⟩) z.name (by simp) (e.trans hzn.symm)
    have g2 : sumBy (fun i : MSym => if i.name = y.1 then (if P a.1 o.1 i.name then i.size else 0) else 0) post = 0 := by
      apply sumBy_zero
      intro i hi
      exact if_neg (hpost i hi)
    rw [g1, g2]
    omega
  have hsum : ∀ (a o : Str), sumBy (fun z => if P a o z.name then z.size else 0) (symsOf s a o) =
      sumBy (fun i => if i.objectFile = o then (if i.archive = a then
        sumBy (fun y => if P i.archive i.objectFile y.name then y.size else 0) i.symbols else 0) else 0) s.inputs := by
    intro a o
    unfold symsOf
    rw [sumBy_flatMap, sumBy_filter]
    apply sumBy_congr
    intro i _
    by_cases h1 : i.archive = a <;> by_cases h2 : i.objectFile = o <;> simp [h1, h2]
  unfold symbolSum
  rw [← sum_by_key p.archives hok.wf.1 ISec.archive
    (fun i => sumBy (fun y => if P i.archive i.objectFile y.name then y.size else 0) i.symbols) s.inputs]
  · apply sumBy_congr
    intro a ha
    have hget := dget_of_mem hok.wf.1 ha
    obtain ⟨_, _, _, _, hkeys, _⟩ := hok.arch a.1 a.2 hget
    have hwf := hok.wf.2 a ha
    rw [← sum_by_key a.2.kids hwf.1 ISec.objectFile (fun i => if i.archive = a.1 then
      sumBy (fun y => if P i.archive i.objectFile y.name then y.size else 0) i.symbols else 0) s.inputs]
    · apply sumBy_congr
      intro o ho
      rw [hobj a ha o ho, hsum]
    · intro i hi hf
      by_cases h1 : i.archive = a.1
      · exact dget_isSome.mp ((hkeys _).mpr ⟨i, hi, h1, rfl⟩)
      · simp [h1] at hf
  · intro i hi _
    exact dget_isSome.mp ((hok.keys _).mpr ⟨i, hi, rfl⟩)

/-- What `get` passes on: the output sections that count, with symbols. -/
def withSymbols (ls : Bool) (l : GetIn) : Except Err (List OSec) :=
  symbolStep ls l.elf (filterMapSections l.sections (elfHeaders (l.elf.map ElfData.shdrs)))

/-- **C78** (if no two symbols of an object file in a section have one name) the sizes of the selected symbols in the map
returned by `get`, and in the parts that it does not show, add up to the sizes of the symbols of the input sections. -/
theorem C78_totals_partial (n : Nat) (w : World) (fn : Str) (ls : Bool) (ud : Option Bool) (mf : Option MapFile) (e : Option ElfData)
    (m : MemMap) (l : GetIn) (h : getMap n w fn ls ud mf e = some (.ok m)) (hl : load w fn ud mf = .ok l)
    (osecs : List OSec) (hos : withSymbols ls l = .ok osecs) (hn : ∀ q ∈ osecs, (symKeys q.inputs).Nodup) :
    ∃ regs parts goes, PartsOf n ls l regs parts ∧ (∀ s, Goes l.types regs s (goes s)) ∧
      ∀ P : Str → Str → Str → Bool, sumSyms m (fun _ _ a o y => if P a.1 o.1 y.1 then y.2.size else 0) +
        partsSyms P (lostParts goes parts) = sumBy (symbolSum P) osecs := by
  obtain ⟨l', regs, parts, goes, hl', hp, hg, _, _, _, _, htot, _⟩ := get_shown h
  rw [hl] at hl'
  cases hl'
  refine ⟨regs, parts, goes, hp, hg, fun P => ?_⟩
  have e1 := htot
    (fun s => sumBy (fun a => sumBy (fun o => sumBy (fun y => if P a.1 o.1 y.1 then y.2.size else 0) o.2.kids) a.2.kids) s.kids)
    (fun s : MSec => sumBy (fun a => sumBy (fun o => sumBy (fun y => if P a.1 o.1 y.1 then y.2.size else 0) o.2.kids) a.2.kids) s.archives)
    (fun key s => rfl)
  have e2 : sumSyms m (fun _ _ a o y => if P a.1 o.1 y.1 then y.2.size else 0) = secsTotal
    (fun s => sumBy (fun a => sumBy (fun o => sumBy (fun y => if P a.1 o.1 y.1 then y.2.size else 0) o.2.kids) a.2.kids) s.kids) m := rfl
  rw [e2, e1]
  unfold partsSyms
  rw [shown_lost_sum]
  obtain ⟨osecs', h1, rfl⟩ := hp.sections
  have : osecs' = osecs := by
    unfold withSymbols at hos
    rw [h1] at hos
    exact Except.ok.inj hos
  subst this
  have h2 : sumBy (fun s : MSec => sumBy (fun a => sumBy (fun o => sumBy (fun y => if P a.1 o.1 y.1 then y.2.size else 0) o.2.kids) a.2.kids)
      s.archives) (addArchives (splitMapSections osecs' regs)) = sumBy (symbolSum P) (splitMapSections osecs' regs) := by
    symm
    refine (all2_and (C23_archives (splitMapSections osecs' regs)) (C55_symbols_partial (splitMapSections osecs' regs))).sum' ?_
    intro s hs ms hsm
    obtain ⟨s', hs', hsub⟩ := splitMapSections_keys _ _ hs
    exact (symbolSum_of hsm.1 hsm.2 ((hn s' hs').sublist hsub) P).symm
  rw [h2]
  obtain ⟨ps, hp1, hp2⟩ := C19_split_sections osecs' regs
  rw [hp1, sumBy_flatMap, sumBy_perm (List.reverse_perm osecs')]
  exact sumBy_congr fun s _ => (hp2 s).symbols P

/-- **C78** (as above, and with disjoint input sections) for names that are not those of input sections, the symbols of the
input sections are the functions and objects of the ELF file that start in them. -/
theorem C78_elf_totals_partial (l : GetIn) (d : ElfData) (he : l.elf = some d) (osecs : List OSec) (hos : withSymbols true l = .ok osecs)
    (hd : ((filterMapSections l.sections (elfHeaders (l.elf.map ElfData.shdrs))).flatMap (·.inputs)).Pairwise DisjointISec)
    (P : Str → Str → Str → Bool)
    (hP : ∀ s ∈ l.sections, ∀ i ∈ s.inputs, P i.archive i.objectFile i.name = false) :
    sumBy (symbolSum P) osecs =
      elfSyms P d.syms ((filterMapSections l.sections (elfHeaders (l.elf.map ElfData.shdrs))).flatMap (·.inputs)) := by
  unfold withSymbols symbolStep at hos
  simp only [if_true, he, Option.map_some] at hos hd ⊢
  obtain ⟨ys, hy, _, hall⟩ := C22_complete d.syms _ osecs hos hd
  unfold elfSyms
  rw [sumBy_flatMap]
  symm
  refine hall.sum' ?_
  intro o ho o' hoo
  unfold symbolSum
  refine hoo.2.sum' ?_
  intro i hi i' hii
  have hp0 : P i.archive i.objectFile i.name = false := by
    rw [C20_filter] at ho
    obtain ⟨s0, hs0, rfl⟩ := List.mem_map.mp ho
    exact hP s0 (List.mem_filter.mp hs0).1 i (List.mem_filter.mp hi).1
  have hsum : sumBy (fun z => if StartsIn i z ∧ P i.archive i.objectFile (symEntry z).name = true then z.size else 0)
      (d.syms.filter fun z => Sized z) =
      sumBy (fun y => if P i.archive i.objectFile y.name then y.size else 0) ((ys.filter fun y => StartsIn i y).map symEntry) := by
    rw [sumBy_perm hy.perm.symm, sumBy_map, sumBy_filter]
    apply sumBy_congr
    intro z _
    by_cases h1 : StartsIn i z
    · simp only [h1, true_and, decide_true, if_true]; rfl
    · simp only [h1, false_and, decide_false, Bool.false_eq_true, if_false]
  have e1 : i'.archive = i.archive := by rw [hii.1]
  have e2 : i'.objectFile = i.objectFile := by rw [hii.1]
  rw [hsum, e1, e2]
  rcases hii.2 with ⟨_, h2⟩ | ⟨h1, h2⟩
  · rw [h2]
  · rw [h1]
    rcases h2 with h2 | h2 <;> rw [h2]
    · rfl
    · simp [ownEntry, hp0]

/-! ### Examples -/

/-- Without `load_symbols` an object file that has functions has no symbols. -/
example : (match getMap 3 (exSymWorld [exFunc "f" 0x100 0x10]) (str "/b/x.map") false none none none with
    | some (.ok m) => (getObj m (str "IRAM") (str ".iram0.text") (str "lib/liba.a") (str "a.o")).map fun o => (o.size, o.kids.length)
    | _ => none) = some (24, 0) := by decide +kernel

/-- With it, the function is a symbol; the totals of the symbols of the ELF file and of the map are the same. -/
example : (match load (exSymWorld [exFunc "f" 0x100 0x10, exFunc "g" 0x110 4]) (str "/b/x.map") none none with
    | .ok l => match withSymbols true l with
      | .ok os => some (sumBy (symbolSum fun _ _ y => y = str "f()" ∨ y = str "g()") os, os.all fun q => decide (symKeys q.inputs).Nodup)
      | _ => none
    | _ => none) = some (20, true) ∧
    (match getMap 3 (exSymWorld [exFunc "f" 0x100 0x10, exFunc "g" 0x110 4]) (str "/b/x.map") true none none none with
    | some (.ok m) => some (sumSyms m fun _ _ _ _ y => if y.1 = str "f()" ∨ y.1 = str "g()" then y.2.size else 0)
    | _ => none) = some 20 := by decide +kernel

end EspSize
