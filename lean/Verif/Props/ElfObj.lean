import Verif.Spec.ElfObj
import Verif.Proofs.ElfObjNames
import Verif.Props.DwarfNames
/-! # C96: uses of an `Elf` object -/
namespace EspSize

/-! ## Entries are filed under their offsets -/

theorem filed_dset {D : Dict Nat (Die × CU)} (h : Filed D) {k : Nat} {x : Die × CU} (hk : k = x.1.offset) : Filed (dset D k x) := by
  refine ⟨KeysNodup.dset h.1 _ _, fun p hp => ?_⟩
  rcases dset_mem p hp with rfl | hp
  · exact hk
  · exact h.2 p hp

theorem getDIEs_keys {V : DieEnv} {cu : CU} {ds : Dict Nat Die} (h : getDIEs V cu = .ok ds) : ∀ p ∈ ds, p.1 = p.2.offset := by
  unfold getDIEs at h
  cases hr : getDie V cu.dieOff none 0 with
  | error x => rw [hr] at h; cases h
  | ok r =>
    rw [hr] at h
    cases h
    have gen : ∀ (l : List Die) (acc : Dict Nat Die), (∀ p ∈ acc, p.1 = p.2.offset) →
        ∀ p ∈ l.foldl (fun acc x => dset acc x.offset x) acc, p.1 = p.2.offset := by
      intro l
      induction l with
      | nil => exact fun _ h => h
      | cons d t ih =>
        refine fun acc h => ih _ fun p hp => ?_
        rcases dset_mem p hp with rfl | hp
        · rfl
        · exact h p hp
    exact gen _ _ (fun p hp => by cases hp)

theorem filed_update {D : Dict Nat (Die × CU)} (h : Filed D) (cu : CU) {ds : Dict Nat Die} (hk : ∀ p ∈ ds, p.1 = p.2.offset) :
    Filed (ds.foldl (fun acc p => dset acc p.1 (p.2, cu)) D) := by
  induction ds generalizing D with
  | nil => exact h
  | cons p t ih => exact ih (filed_dset h (hk p (by simp))) (fun q hq => hk q (by simp [hq]))

theorem allDies_filed {e : ElfFile} {info : Bytes} {cus : List CU} {acc D : Dict Nat (Die × CU)} (hacc : Filed acc)
    (h : e.allDies info cus acc = .ok D) : Filed D := by
  induction cus generalizing acc with
  | nil => cases h; exact hacc
  | cons cu t ih =>
    unfold ElfFile.allDies at h
    cases hd : getDIEs ⟨formEnv e cu, info, e.abbrevs cu, some cuTags⟩ cu with
    | error x => rw [hd] at h; cases h
    | ok ds =>
      rw [hd] at h
      exact ih (filed_update hacc cu (getDIEs_keys hd)) h

/-! ## `add_cus_to_symbols` -/

/-- All units, with the filter of `add_cus_to_symbols`. -/
abbrev GoodT (s : Prop) (e : ElfFile) (o : ElfObj) : Prop := GoodS s e (fun _ => True) (fun _ => some cuTags) o

theorem accAllDies_good {s : Prop} {e : ElfFile} {J : Left} (cus : List CU) (acc : Dict Nat (Die × CU)) {o : ElfObj} (h : GoodT s e o)
    (hp : s ∨ ∃ D, e.allDies e.unitData cus acc = .ok D) :
    (accAllDies e J cus acc o).1 = e.allDies e.unitData cus acc ∧
      (∀ D, e.allDies e.unitData cus acc = .ok D → GoodT s e (accAllDies e J cus acc o).2) ∧
      (accAllDies e J cus acc o).2.attrs = o.attrs ∧ (accAllDies e J cus acc o).2.names = o.names := by
  induction cus generalizing acc o with
  | nil => exact ⟨rfl, fun _ _ => h, rfl, rfl⟩
  | cons cu t ih =>
    have hp' : s ∨ ∃ l, pureDies e (fun _ => some cuTags) cu = .ok l := by
      rcases hp with hp | ⟨D, hp⟩
      · exact .inl hp
      · unfold ElfFile.allDies at hp
        cases hd : pureDies e (fun _ => some cuTags) cu with
        | ok l => exact .inr ⟨l, rfl⟩
        | error x =>
          unfold pureDies at hd
          rw [hd] at hp
          cases hp
    obtain ⟨h1, h2, h3, h4⟩ := accDIEs_good (J := J) cu trivial h hp'
    unfold accAllDies Acc.bind ElfFile.allDies
    generalize accDIEs e J cu (some cuTags) o = r at h1 h2 h3 h4 ⊢
    obtain ⟨r1, o1⟩ := r
    simp only at h1 h2 h3 h4
    subst h1
    cases hd : pureDies e (fun _ => some cuTags) cu with
    | error x =>
      have hd' : getDIEs ⟨formEnv e cu, e.unitData, e.abbrevs cu, some cuTags⟩ cu = .error x := hd
      rw [hd']
      exact ⟨rfl, (fun _ h => nomatch h), h3, h4⟩
    | ok ds =>
      have hd' : getDIEs ⟨formEnv e cu, e.unitData, e.abbrevs cu, some cuTags⟩ cu = .ok ds := hd
      rw [hd']
      have hp'' : s ∨ ∃ D, e.allDies e.unitData t (ds.foldl (fun acc p => dset acc p.1 (p.2, cu)) acc) = .ok D := by
        rcases hp with hp | ⟨D, hp⟩
        · exact .inl hp
        · unfold ElfFile.allDies at hp
          rw [hd'] at hp
          exact .inr ⟨D, hp⟩
      obtain ⟨k1, k2, k3, k4⟩ := ih (ds.foldl (fun acc p => dset acc p.1 (p.2, cu)) acc) (h2 ds hd) hp''
      exact ⟨k1, k2, k3.trans h3, k4.trans h4⟩

/-- What is left after `add_cus_to_symbols` has succeeded. -/
structure Added (e : ElfFile) (D : Dict Nat (Die × CU)) (l : List (Option (Nat × Str))) (o : ElfObj) : Prop where
  names : NamesOk e D o.attrs
  locs : ∀ p ∈ D, hasLocation p.2 → (o.attrs (p.2.2, p.2.1.offset, 2)).1 ≠ none
  cuNames : o.names = updNames (fun _ => none) l

/-- The parts of a successful `add_cus_to_symbols`. -/
structure AddParts (e : ElfFile) (r : Dict Nat (RawSym × Option Str)) (cus : List CU) (D : Dict Nat (Die × CU)) (syms : List RawSym)
    (l : List (Option (Nat × Str))) : Prop where
  hcus : e.cus = .ok cus
  hdies : e.allDies e.unitData cus [] = .ok D
  hsyms : e.symbols = .ok syms
  hasg : asgAll e D (symsByAddr syms) D = .ok l
  hres : r = withNames (updNames (fun _ => none) l) (symsByAddr syms)

theorem unitData_ok {e : ElfFile} {info : Bytes} (h : e.infoData = .ok info) : e.unitData = info := by
  unfold ElfFile.unitData; rw [h]

theorem cus_info {e : ElfFile} {cus : List CU} (h : e.cus = .ok cus) : e.infoData = .ok e.unitData := by
  unfold ElfFile.cus at h
  cases hi : e.infoData with
  | error x => rw [hi] at h; cases h
  | ok info => rw [unitData_ok hi]

theorem addCus_parts {e : ElfFile} {r : Dict Nat (RawSym × Option Str)} (h : e.addCus = .ok r) : ∃ cus D syms l, AddParts e r cus D syms l := by
  unfold ElfFile.addCus at h
  cases hi : e.infoData with
  | error x => rw [hi] at h; cases h
  | ok info =>
    rw [hi] at h
    cases hc : e.cus with
    | error x => simp only [hc, bind, Except.bind] at h; cases h
    | ok cus =>
      simp only [hc, bind, Except.bind] at h
      rw [← unitData_ok hi] at h
      cases hd : e.allDies e.unitData cus [] with
      | error x => rw [hd] at h; cases h
      | ok D =>
        simp only [hd] at h
        cases hs : e.symbols with
        | error x => rw [hs] at h; cases h
        | ok syms =>
          simp only [hs] at h
          have hl := loop_asg e D (symsByAddr_nodup syms) D (fun _ => none)
          rw [symsByAddr_names] at hl
          rw [hl] at h
          cases ha : asgAll e D (symsByAddr syms) D with
          | error x => rw [ha] at h; cases h
          | ok l => rw [ha] at h; cases h; exact ⟨cus, D, syms, l, hc, hd, hs, ha, rfl⟩

/-- With good caches and attributes never evaluated, `add_cus_to_symbols` is that of a fresh object. -/
theorem accAddCus_good {s : Prop} {e : ElfFile} {J : Left} {o : ElfObj} (h : GoodT s e o) (hA : o.attrs = fun _ => (none, none))
    (hN : o.names = fun _ => none) (hp : s ∨ ∃ r, e.addCus = .ok r) :
    (accAddCus e J o).1 = e.addCus ∧
      ∀ r cus D syms l, AddParts e r cus D syms l → GoodT s e (accAddCus e J o).2 ∧ Added e D l (accAddCus e J o).2 := by
  have hp1 : s ∨ ∃ l, e.cus = .ok l := hp.imp_right fun ⟨r, hr⟩ => by obtain ⟨cus, D, syms, l, P⟩ := addCus_parts hr; exact ⟨cus, P.hcus⟩
  obtain ⟨a1, a2, a3, a4⟩ := accCUs_good h hp1
  unfold accAddCus Acc.bind
  generalize accCUs e o = x1 at a1 a2 a3 a4 ⊢
  obtain ⟨r1, o1⟩ := x1
  simp only at a1 a2 a3 a4
  subst a1
  cases hc : e.cus with
  | error x =>
    refine ⟨?_, fun r cus D syms l P => by have := P.hcus; rw [hc] at this; cases this⟩
    unfold ElfFile.addCus
    cases hi : e.infoData with
    | error y =>
      unfold ElfFile.cus at hc
      rw [hi] at hc
      cases hc; rfl
    | ok info => simp only [bind, Except.bind, hc]
  | ok cus =>
    simp only
    have hi := cus_info hc
    have g1 := a2 cus hc
    have hp2 : s ∨ ∃ D, e.allDies e.unitData cus [] = .ok D := hp.imp_right fun ⟨r, hr⟩ => by
      obtain ⟨cus', D, syms, l, P⟩ := addCus_parts hr
      have := P.hcus
      rw [hc] at this
      cases this
      exact ⟨D, P.hdies⟩
    obtain ⟨b1, b2, b3, b4⟩ := accAllDies_good (J := J) cus [] g1 hp2
    generalize accAllDies e J cus [] o1 = x2 at b1 b2 b3 b4 ⊢
    obtain ⟨r2, o2⟩ := x2
    simp only at b1 b2 b3 b4
    subst b1
    cases hd : e.allDies e.unitData cus [] with
    | error x =>
      refine ⟨?_, fun r cus' D syms l P => ?_⟩
      · unfold ElfFile.addCus
        simp only [bind, Except.bind, hi, hc, hd]
      · have e1 := P.hcus
        rw [hc] at e1
        cases e1
        have e2 := P.hdies
        rw [hd] at e2
        cases e2
    | ok D =>
      simp only
      have hF : Filed D := allDies_filed ⟨KeysNodup.nil, fun p hp => by cases hp⟩ hd
      have g2 := b2 D hd
      have hp3 : s ∨ ∃ l, e.symbols = .ok l := hp.imp_right fun ⟨r, hr⟩ => by obtain ⟨_, _, syms, _, P⟩ := addCus_parts hr; exact ⟨syms, P.hsyms⟩
      obtain ⟨c1, c2, c3, c4⟩ := accSymbols_good g2 hp3
      generalize accSymbols e o2 = x3 at c1 c2 c3 c4 ⊢
      obtain ⟨r3, o3⟩ := x3
      simp only at c1 c2 c3 c4
      subst c1
      cases hs : e.symbols with
      | error x =>
        refine ⟨?_, fun r cus' D syms l P => by have := P.hsyms; rw [hs] at this; cases this⟩
        unfold ElfFile.addCus
        simp only [bind, Except.bind, hi, hc, hd, hs]
      | ok syms =>
        simp only
        have g3 := c2 syms hs
        have hA3 : o3.attrs = fun _ => (none, none) := by rw [c3, b3, a3, hA]
        have hN3 : o3.names = fun _ => none := by rw [c4, b4, a4, hN]
        obtain ⟨d1, d2, d3⟩ := accLoop_spec (e := e) hF (symsByAddr syms) D hF (o := o3) (fun p hp a ha => .inl (by rw [hA3])) (fun p hp hl => by rw [hA3])
        have g4 := accLoop_keeps D (symsByAddr syms) D o3 g3
        generalize accLoop e D (symsByAddr syms) D o3 = x4 at d1 d2 d3 g4 ⊢
        obtain ⟨r4, o4⟩ := x4
        simp only at d1 d2 d3 g4
        subst d1
        have hl := loop_asg e D (symsByAddr_nodup syms) D (fun _ => none)
        rw [symsByAddr_names] at hl
        cases ha : asgAll e D (symsByAddr syms) D with
        | error x =>
          refine ⟨?_, fun r cus' D' syms' l P => ?_⟩
          · unfold ElfFile.addCus
            simp only [bind, Except.bind, hi, hc, hd, hs]
            simp only [hl, ha]; rfl
          · have e1 := P.hcus
            rw [hc] at e1
            cases e1
            have e2 := P.hdies
            rw [hd] at e2
            cases e2
            have e3 := P.hsyms
            rw [hs] at e3
            cases e3
            have e4 := P.hasg
            rw [ha] at e4
            cases e4
        | ok l =>
          obtain ⟨k1, k2, k3⟩ := d2 l ha
          rw [hN3] at k2
          refine ⟨?_, fun r cus' D' syms' l' P => ?_⟩
          · unfold ElfFile.addCus
            simp only [bind, Except.bind, hi, hc, hd, hs]
            simp only [hl, ha]
            show Except.ok (withNames o4.names _) = _
            rw [k2]; rfl
          · have e1 := P.hcus
            rw [hc] at e1
            cases e1
            have e2 := P.hdies
            rw [hd] at e2
            cases e2
            have e3 := P.hsyms
            rw [hs] at e3
            cases e3
            have e4 := P.hasg
            rw [ha] at e4
            cases e4
            exact ⟨g4, k1, k3, k2⟩

/-- A second `add_cus_to_symbols`. -/
theorem accAddCus_again {e : ElfFile} {J : Left} {o : ElfObj} (h : GoodT False e o) {r : Dict Nat (RawSym × Option Str)} {cus : List CU}
    {D : Dict Nat (Die × CU)} {syms : List RawSym} {l : List (Option (Nat × Str))} (P : AddParts e r cus D syms l) (hA : Added e D l o) :
    ((∃ p ∈ D, hasLocation p.2) → (accAddCus e J o).1 = .error .keyError) ∧
    ((¬ ∃ p ∈ D, hasLocation p.2) → (accAddCus e J o).1 = .ok r ∧ GoodT False e (accAddCus e J o).2 ∧ Added e D l (accAddCus e J o).2) := by
  have hF : Filed D := allDies_filed ⟨KeysNodup.nil, fun p hp => by cases hp⟩ P.hdies
  obtain ⟨a1, a2, a3, a4⟩ := accCUs_good h (.inr ⟨cus, P.hcus⟩)
  have g1 := a2 cus P.hcus
  obtain ⟨b1, b2, b3, b4⟩ := accAllDies_good (J := J) cus [] g1 (.inr ⟨D, P.hdies⟩)
  have g2 := b2 D P.hdies
  obtain ⟨c1, c2, c3, c4⟩ := accSymbols_good g2 (.inr ⟨syms, P.hsyms⟩)
  have g3 := c2 syms P.hsyms
  unfold accAddCus Acc.bind
  rw [show accCUs e o = (.ok cus, (accCUs e o).2) from Prod.ext (a1.trans P.hcus) rfl]
  generalize (accCUs e o).2 = o1 at *
  simp only
  rw [show accAllDies e J cus [] o1 = (.ok D, (accAllDies e J cus [] o1).2) from Prod.ext (b1.trans P.hdies) rfl]
  generalize (accAllDies e J cus [] o1).2 = o2 at *
  simp only
  rw [show accSymbols e o2 = (.ok syms, (accSymbols e o2).2) from Prod.ext (c1.trans P.hsyms) rfl]
  generalize (accSymbols e o2).2 = o3 at *
  simp only
  have hA3 : o3.attrs = o.attrs := by rw [c3, b3, a3]
  have hN3 : o3.names = o.names := by rw [c4, b4, a4]
  have hnames : NamesOk e D o3.attrs := by rw [hA3]; exact hA.names
  have hlocs : ∀ p ∈ D, hasLocation p.2 → (o3.attrs (p.2.2, p.2.1.offset, 2)).1 ≠ none := by rw [hA3]; exact hA.locs
  constructor
  · intro hex
    have := accLoop_again (e := e) hF (symsByAddr syms) D hnames hlocs hF P.hasg hex
    rw [show accLoop e D (symsByAddr syms) D o3 = (.error .keyError, (accLoop e D (symsByAddr syms) D o3).2) from Prod.ext this rfl]
  · intro hno
    obtain ⟨d1, d2, d3⟩ := accLoop_spec (e := e) hF (symsByAddr syms) D hF hnames (fun p hp hl => absurd ⟨p, hp, hl⟩ hno)
    have g4 := accLoop_keeps D (symsByAddr syms) D o3 g3
    obtain ⟨k1, k2, k3⟩ := d2 l P.hasg
    rw [hN3, hA.cuNames, updNames_twice] at k2
    rw [P.hasg] at d1
    rw [show accLoop e D (symsByAddr syms) D o3 = (.ok (), (accLoop e D (symsByAddr syms) D o3).2) from Prod.ext d1 rfl]
    refine ⟨?_, g4, k1, k3, k2⟩
    show Except.ok (withNames (accLoop e D (symsByAddr syms) D o3).2.names _) = _
    rw [k2, P.hres]

/-! ## Executions -/

theorem runOps_keeps {e : ElfFile} {J : Left} {U : CU → Prop} {F : CU → Option (List Nat)} {ops : List ElfOp}
    (h : ∀ op ∈ ops, match op with | .dies cu f => U cu → f = F cu | .addCus => ∀ cu, U cu → F cu = some cuTags | _ => True)
    {o : ElfObj} (ho : GoodS False e U F o) : GoodS False e U F (runOps e J ops o) := by
  induction ops generalizing o with
  | nil => exact ho
  | cons op t ih =>
    refine ih (fun op' h' => h op' (by simp [h'])) ?_
    have h0 := h op (by simp)
    cases op with
    | symbols => exact accSymbols_keeps ho
    | cus => exact accCUs_keeps ho
    | abbrevs cu => exact accAbbrevs_keeps cu ho
    | dies cu f => exact accDIEs_keeps cu h0 ho
    | addCus => exact accAddCus_keeps h0 o ho

theorem runOps_attrs {e : ElfFile} {J : Left} {ops : List ElfOp} (h : PlainUses ops) (o : ElfObj) :
    (runOps e J ops o).attrs = o.attrs ∧ (runOps e J ops o).names = o.names := by
  induction ops generalizing o with
  | nil => exact ⟨rfl, rfl⟩
  | cons op t ih =>
    have h1 := ih (fun op' h' => h op' (by simp [h'])) (op.run e J o)
    have h0 := h op (by simp)
    have h2 : (op.run e J o).attrs = o.attrs ∧ (op.run e J o).names = o.names := by
      cases op with
      | symbols => exact accSymbols_attrs e o
      | cus => exact accCUs_attrs e o
      | abbrevs cu => exact (accAbbrevs_dies e cu o).2
      | dies cu f => exact accDIEs_attrs e J cu f o
      | addCus => exact h0.elim
    exact ⟨h1.1.trans h2.1, h1.2.trans h2.2⟩

theorem runOps_plain {e : ElfFile} {J : Left} {ops : List ElfOp} (h : PlainUses ops) {o : ElfObj} (ho : GoodT False e o) : GoodT False e (runOps e J ops o) := by
  refine runOps_keeps (fun op hop => ?_) ho
  have := h op hop
  cases op with
  | dies cu f => exact fun _ => this
  | addCus => exact this.elim
  | _ => trivial

/-- **C96** (files whose symbols can be read) Whatever was done with an `Elf` object, `symbols` gives the symbols of the file. -/
theorem C96_symbols_partial (e : ElfFile) (J : Left) (ops : List ElfOp) {l : List RawSym} (h : e.symbols = .ok l) :
    (accSymbols e (runOps e J ops {})).1 = .ok l := by
  have g := runOps_keeps (e := e) (J := J) (U := fun _ => False) (F := fun _ => none) (ops := ops)
    (fun op _ => by cases op <;> first | trivial | exact fun h => h.elim | exact fun _ h => h.elim) (good_fresh False e _ _)
  rw [(accSymbols_good g (.inr ⟨l, h⟩)).1, h]

/-- **C96** (files whose units can be read) Whatever was done with an `Elf` object, `CUs` gives the units of the file. -/
theorem C96_units_partial (e : ElfFile) (J : Left) (ops : List ElfOp) {l : List CU} (h : e.cus = .ok l) :
    (accCUs e (runOps e J ops {})).1 = .ok l := by
  have g := runOps_keeps (e := e) (J := J) (U := fun _ => False) (F := fun _ => none) (ops := ops)
    (fun op _ => by cases op <;> first | trivial | exact fun h => h.elim | exact fun _ h => h.elim) (good_fresh False e _ _)
  rw [(accCUs_good g (.inr ⟨l, h⟩)).1, h]

/-- **C96** (abbreviations that can be read) Whatever was done with an `Elf` object, `abbrev_table` of a unit gives its abbreviations. -/
theorem C96_abbrevs_partial (e : ElfFile) (J : Left) (ops : List ElfOp) (cu : CU) {l : List AbbrevEntry} (h : e.abbrevs cu = .ok l) :
    (accAbbrevs e cu (runOps e J ops {})).1 = .ok l := by
  have g := runOps_keeps (e := e) (J := J) (U := fun _ => False) (F := fun _ => none) (ops := ops)
    (fun op _ => by cases op <;> first | trivial | exact fun h => h.elim | exact fun _ h => h.elim) (good_fresh False e _ _)
  rw [(accAbbrevs_good cu g (.inr ⟨l, h⟩)).1, h]

/-- **C96** (entries that can be read, one filter) As long as the entries of a unit are asked for with the same filter
(`add_cus_to_symbols` has its own), `get_DIEs` gives the entries of the unit that pass it. -/
theorem C96_entries_partial (e : ElfFile) (J : Left) (ops : List ElfOp) (cu : CU) (f : Option (List Nat))
    (hops : ∀ op ∈ ops, (∀ f', op = .dies cu f' → f' = f) ∧ (op = .addCus → f = some [0x11, 0x2E, 0x34])) {ds : Dict Nat Die}
    (h : getDIEs ⟨formEnv e cu, e.unitData, e.abbrevs cu, f⟩ cu = .ok ds) :
    (accDIEs e J cu f (runOps e J ops {})).1 = .ok ds := by
  have g := runOps_keeps (e := e) (J := J) (U := fun u => u = cu) (F := fun _ => f) (ops := ops)
    (fun op hop => by
      cases op with
      | dies u f' => exact fun hu => by subst hu; exact (hops _ hop).1 f' rfl
      | addCus => exact fun _ _ => (hops _ hop).2 rfl
      | _ => trivial) (good_fresh False e _ _)
  have := (accDIEs_good (J := J) (U := fun u => u = cu) (F := fun _ => f) cu rfl g (.inr ⟨ds, h⟩)).1
  exact this.trans h

/-- **C96** On a fresh object `add_cus_to_symbols` does what was proved about it (C51, C67, C88), exceptions included. -/
theorem C96_first (e : ElfFile) (J : Left) : (accAddCus e J {}).1 = e.addCus :=
  (accAddCus_good (s := True) (good_fresh True e _ _) rfl rfl (.inl trivial)).1

/-- **C96** (files for which it succeeds) The same after any uses that only read, with its own filter for entries. -/
theorem C96_add_partial (e : ElfFile) (J : Left) (ops : List ElfOp) (hops : PlainUses ops) {r : Dict Nat (RawSym × Option Str)}
    (h : e.addCus = .ok r) : (accAddCus e J (runOps e J ops {})).1 = .ok r := by
  have ha := runOps_attrs (e := e) (J := J) hops {}
  rw [(accAddCus_good (J := J) (runOps_plain hops (good_fresh False e _ _)) ha.1 ha.2 (.inr ⟨r, h⟩)).1, h]

/-- **C96** (violated) A second `add_cus_to_symbols` raises `KeyError` if the file has a variable with a location, and gives the
same result otherwise. -/
theorem C96_twice_partial (e : ElfFile) (J : Left) (ops ops' : List ElfOp) (hops : PlainUses ops) (hops' : PlainUses ops')
    {r : Dict Nat (RawSym × Option Str)} (h : e.addCus = .ok r) :
    (LocatedVariable e → (accAddCus e J (runOps e J (ops ++ .addCus :: ops') {})).1 = .error .keyError) ∧
    (¬ LocatedVariable e → (accAddCus e J (runOps e J (ops ++ .addCus :: ops') {})).1 = .ok r) := by
  obtain ⟨cus, D, syms, l, P⟩ := addCus_parts h
  have ha := runOps_attrs (e := e) (J := J) hops {}
  obtain ⟨-, h2⟩ := accAddCus_good (J := J) (runOps_plain hops (good_fresh False e _ _)) ha.1 ha.2 (.inr ⟨r, h⟩)
  obtain ⟨g, A⟩ := h2 r cus D syms l P
  have hb := runOps_attrs (e := e) (J := J) hops' (accAddCus e J (runOps e J ops {})).2
  have hrun : runOps e J (ops ++ .addCus :: ops') {} = runOps e J ops' (accAddCus e J (runOps e J ops {})).2 := by
    unfold runOps
    rw [List.foldl_append]
    rfl
  rw [hrun]
  have A' : Added e D l (runOps e J ops' (accAddCus e J (runOps e J ops {})).2) :=
    ⟨by rw [hb.1]; exact A.names, by rw [hb.1]; exact A.locs, by rw [hb.2]; exact A.cuNames⟩
  obtain ⟨k1, k2⟩ := accAddCus_again (J := J) (runOps_plain hops' g) P A'
  have hiff : LocatedVariable e ↔ ∃ p ∈ D, hasLocation p.2 := by
    constructor
    · rintro ⟨info, cus', D', h1, h2, h3, h4⟩
      rw [P.hcus] at h2
      cases h2
      rw [← unitData_ok h1, P.hdies] at h3
      cases h3
      exact h4
    · exact fun h => ⟨_, _, _, cus_info P.hcus, P.hcus, P.hdies, h⟩
  rw [hiff]
  exact ⟨k1, fun hn => (k2 hn).1⟩

/-! ## Violations -/

/-- **C96** (violated) What cannot be read raises only once: the next access gives, without an exception, what was read before it. -/
theorem C96_raises_once (e : ElfFile) (o : ElfObj) (cu : CU) :
    (∀ x, o.syms = none → e.symbols = .error x →
      (accSymbols e o).1 = .error x ∧ (accSymbols e (accSymbols e o).2).1 = .ok (e.symbolsRead e.shdrs)) ∧
    (∀ x, o.cus = none → e.cus = .error x → (accCUs e o).1 = .error x ∧ (accCUs e (accCUs e o).2).1 = .ok e.cusRead) ∧
    (∀ x, o.abbr cu = none → e.abbrevs cu = .error x →
      (accAbbrevs e cu o).1 = .error x ∧ (accAbbrevs e cu (accAbbrevs e cu o).2).1 = .ok (e.abbrevsRead cu)) := by
  refine ⟨fun x h0 h => ?_, fun x h0 h => ?_, fun x h0 h => ?_⟩
  · have : accSymbols e o = (.error x, { o with syms := some (e.symbolsRead e.shdrs) }) := by
      unfold accSymbols; rw [h0, h]
    rw [this]; exact ⟨rfl, rfl⟩
  · have : accCUs e o = (.error x, { o with cus := some e.cusRead }) := by
      unfold accCUs; rw [h0, h]
    rw [this]; exact ⟨rfl, rfl⟩
  · have : accAbbrevs e cu o = (.error x, { o with abbr := fun u => if u = cu then some (e.abbrevsRead cu) else o.abbr u }) := by
      unfold accAbbrevs; rw [h0, h]
    rw [this]
    refine ⟨rfl, ?_⟩
    unfold accAbbrevs
    simp

/-- **C96** (violated) Entries read with a filter are returned whatever filter is given next. -/
theorem C96_filter_ignored (e : ElfFile) (J : Left) (cu : CU) (f f' : Option (List Nat)) {ds : Dict Nat Die} (hne : ds ≠ [])
    (h : getDIEs ⟨formEnv e cu, e.unitData, e.abbrevs cu, f⟩ cu = .ok ds) :
    (accDIEs e J cu f' (accDIEs e J cu f {}).2).1 = .ok ds := by
  have h1 := accDIEs_good (J := J) (U := fun u => u = cu) (F := fun _ => f) cu rfl (good_fresh False e _ _) (.inr ⟨ds, h⟩)
  have hd : (accDIEs e J cu f {}).2.dies cu = ds := by
    have hr : (accDIEs e J cu f {}).1 = .ok ds := h1.1.trans h
    unfold accDIEs at hr ⊢
    simp only [ne_eq, not_true, if_false] at hr ⊢
    generalize (if usesAbbrevs e.unitData cu then accAbbrevs e cu {} else (.ok [], {})) = t at hr ⊢
    cases hg : getDIEs ⟨formEnv e cu, e.unitData, t.1, f⟩ cu with
    | error x => rw [hg] at hr; cases hr
    | ok ds' => rw [hg] at hr; cases hr; simp
  generalize (accDIEs e J cu f {}).2 = o at hd
  unfold accDIEs
  rw [hd, if_pos hne]

/-! ## Witnesses -/

theorem exDwarf_located : ∃ e r, openElf 8 exDwarfFile = .ok e ∧ e.addCus = .ok r ∧ LocatedVariable e := by
  obtain ⟨v, cu, s, h1, h2, _⟩ := exDwarf_view
  obtain ⟨e, k1, e1, e2, e3, e4, e5, e6, e7⟩ := named_elf 8 .little .c32 exDwarfHdr exDwarfSecs exDwarfSyms exDwarfFile exDwarfNamed (.inl rfl)
    (.inr rfl) (by decide +kernel)
  have hv : e.view = .ok v := by
    unfold elfView at h1
    rw [k1] at h1
    exact h1
  obtain ⟨r, hr⟩ : ∃ r, e.addCus = .ok r := by
    unfold ElfFile.view at hv
    obtain ⟨_, _, hv⟩ := bind_ok hv
    obtain ⟨_, _, hv⟩ := bind_ok hv
    obtain ⟨_, _, hv⟩ := bind_ok hv
    cases hv
    unfold ElfFile.cuSyms at h2
    obtain ⟨r, hr, _⟩ := bind_ok h2
    exact ⟨r, hr⟩
  refine ⟨e, r, k1, hr, ?_⟩
  have hus := exUnits_dies
  have hinfo : (([(exUnit, exDies)] = [] ∧ ∀ p ∈ exDwarfSecs, p.1 ≠ str ".debug_info") ∨
      (SectionNamed exDwarfSecs exDwarfFile (str ".debug_info") ([(exUnit, exDies)].flatMap fun p => p.1.bytes .little) ∧
        SectionNamed exDwarfSecs exDwarfFile (str ".debug_abbrev") exAbbrevBytes)) :=
    .inr ⟨⟨exDwarfSecs.take 3, _, exDwarfSecs.drop 4, rfl, by decide +kernel, sectionBytes_slice (by decide +kernel) (by decide +kernel) (by decide +kernel)⟩,
      ⟨exDwarfSecs.take 4, _, [], rfl, by decide +kernel, sectionBytes_slice (by decide +kernel) (by decide +kernel) (by decide +kernel)⟩⟩
  rw [← e2] at hus hinfo
  obtain ⟨info, cus, dies, i1, i2, i3, hf⟩ := entries_found ⟨e1, e4, e5⟩ hinfo hus
  rw [exEntries_of] at hf
  refine ⟨info, cus, dies, i1, i2, i3, ?_⟩
  match dies, hf with
  | [_, p], ⟨_, hp, _⟩ =>
    refine ⟨p, by simp, hp.alike.tag.trans (by decide), ?_⟩
    have ha := hp.alike.attrs
    match hpa : p.2.1.attrs, ha with
    | q :: _, ⟨hq, _⟩ =>
      have hk : q.1 = 2 := hq.1.trans (by decide)
      rw [dget_cons, if_pos hk]
      exact fun h => nomatch h

/-- **C96** (violated) There is a file for which the second `add_cus_to_symbols` of an object raises `KeyError`. -/
theorem C96_twice_raises : ∃ e r, openElf 8 exDwarfFile = .ok e ∧ ∀ J, (accAddCus e J {}).1 = .ok r ∧
    (accAddCus e J (accAddCus e J {}).2).1 = .error .keyError := by
  obtain ⟨e, r, h1, h2, h3⟩ := exDwarf_located
  exact ⟨e, r, h1, fun J => ⟨(C96_first e J).trans h2, (C96_twice_partial e J [] [] (fun _ h => by cases h) (fun _ h => by cases h) h2).1 h3⟩⟩

/-- The symbols of a file whose table is outside of it: an exception, then no symbols. -/
def exCutElf : ElfFile := ⟨[], .little, .c32, exEhdr, [⟨1, 2, 0, 0, 252, 16, 2, 0, 4, 16⟩]⟩

example : (accSymbols exCutElf {}).1 = .error .elf ∧ (accSymbols exCutElf (accSymbols exCutElf {}).2).1 = .ok [] := by
  have h : exCutElf.symbols = .error .elf := by decide +kernel
  have h' := (C96_raises_once exCutElf {} exCu).1 .elf rfl h
  exact ⟨h'.1, by rw [h'.2]; decide +kernel⟩

example (J : Left) (ops : List ElfOp) (h : PlainUses ops) : ∃ e r, openElf 8 exDwarfFile = .ok e ∧
    (accAddCus e J (runOps e J ops {})).1 = .ok r ∧ (accAddCus e J (runOps e J (ops ++ .addCus :: ops) {})).1 = .error .keyError := by
  obtain ⟨e, r, h1, h2, h3⟩ := exDwarf_located
  exact ⟨e, r, h1, C96_add_partial e J ops h h2, (C96_twice_partial e J ops ops h h h2).1 h3⟩

example : PlainUses [.symbols, .cus, .abbrevs exCu, .dies exCu (some [0x11, 0x2E, 0x34]), .symbols] := by
  intro op h
  simp only [List.mem_cons, List.not_mem_nil, or_false] at h
  rcases h with rfl | rfl | rfl | rfl | rfl <;> trivial

end EspSize
