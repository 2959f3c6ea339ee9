import Verif.Model.ElfObj
import Verif.Proofs.Dict
/-! # Caches of an `Elf` object -/
namespace EspSize

/-- A cache and what it caches: if the latter can be read the cache is empty or right; with `s` also, if it cannot be
read the cache is empty. -/
def FitS {α : Type} (s : Prop) (c : Option α) (p : Except Err α) : Prop :=
  (∀ l, p = .ok l → c = none ∨ c = some l) ∧ (s → ∀ x, p = .error x → c = none)

/-- The entries of a unit read with the filter `F cu`. -/
def pureDies (e : ElfFile) (F : CU → Option (List Nat)) (cu : CU) : Except Err (Dict Nat Die) :=
  getDIEs ⟨formEnv e cu, e.unitData, e.abbrevs cu, F cu⟩ cu

/-- All caches are good; those of entries for the units `U`. -/
structure GoodS (s : Prop) (e : ElfFile) (U : CU → Prop) (F : CU → Option (List Nat)) (o : ElfObj) : Prop where
  syms : FitS s o.syms e.symbols
  cus : FitS s o.cus e.cus
  abbr : ∀ cu, FitS s (o.abbr cu) (e.abbrevs cu)
  dies : ∀ cu, U cu → (∀ l, pureDies e F cu = .ok l → o.dies cu = [] ∨ o.dies cu = l) ∧
    (s → ∀ x, pureDies e F cu = .error x → o.dies cu = [])

theorem fitS_none {α : Type} (s : Prop) (p : Except Err α) : FitS s none p := ⟨fun _ _ => .inl rfl, fun _ _ _ => rfl⟩

theorem fitS_ok {α : Type} {s : Prop} {p : Except Err α} {l : α} (h : p = .ok l) : FitS s (some l) p :=
  ⟨fun _ h' => .inr (by rw [h] at h'; exact congrArg some (Except.ok.inj h')), fun _ _ h' => by rw [h] at h'; cases h'⟩

theorem fitS_error {α : Type} {c : Option α} {p : Except Err α} {x : Err} (h : p = .error x) : FitS False c p :=
  ⟨fun _ h' => (by rw [h] at h'; cases h'), fun h => h.elim⟩

theorem good_fresh (s : Prop) (e : ElfFile) (U : CU → Prop) (F : CU → Option (List Nat)) : GoodS s e U F {} :=
  ⟨fitS_none _ _, fitS_none _ _, fun _ => fitS_none _ _, fun _ _ => ⟨fun _ _ => .inl rfl, fun _ _ _ => rfl⟩⟩

/-! ## Single accesses -/

theorem accSymbols_good {s : Prop} {e : ElfFile} {U : CU → Prop} {F : CU → Option (List Nat)} {o : ElfObj} (h : GoodS s e U F o)
    (hp : s ∨ ∃ l, e.symbols = .ok l) : (accSymbols e o).1 = e.symbols ∧ (∀ l, e.symbols = .ok l → GoodS s e U F (accSymbols e o).2) ∧
      (accSymbols e o).2.attrs = o.attrs ∧ (accSymbols e o).2.names = o.names := by
  unfold accSymbols
  cases hc : o.syms with
  | some l =>
    cases hs : e.symbols with
    | ok l' =>
      rcases h.syms.1 l' hs with h1 | h1
      · rw [hc] at h1; cases h1
      · rw [hc] at h1; cases h1; exact ⟨rfl, fun _ _ => h, rfl, rfl⟩
    | error x =>
      rcases hp with hp | ⟨l', hp⟩
      · have := h.syms.2 hp x hs; rw [hc] at this; cases this
      · rw [hs] at hp; cases hp
  | none =>
    cases hs : e.symbols with
    | ok l' => exact ⟨rfl, fun _ _ => ⟨fitS_ok hs, h.cus, h.abbr, h.dies⟩, rfl, rfl⟩
    | error x => exact ⟨rfl, (fun _ h => nomatch h), rfl, rfl⟩

theorem accCUs_good {s : Prop} {e : ElfFile} {U : CU → Prop} {F : CU → Option (List Nat)} {o : ElfObj} (h : GoodS s e U F o)
    (hp : s ∨ ∃ l, e.cus = .ok l) : (accCUs e o).1 = e.cus ∧ (∀ l, e.cus = .ok l → GoodS s e U F (accCUs e o).2) ∧
      (accCUs e o).2.attrs = o.attrs ∧ (accCUs e o).2.names = o.names := by
  unfold accCUs
  cases hc : o.cus with
  | some l =>
    cases hs : e.cus with
    | ok l' =>
      rcases h.cus.1 l' hs with h1 | h1
      · rw [hc] at h1; cases h1
      · rw [hc] at h1; cases h1; exact ⟨rfl, fun _ _ => h, rfl, rfl⟩
    | error x =>
      rcases hp with hp | ⟨l', hp⟩
      · have := h.cus.2 hp x hs; rw [hc] at this; cases this
      · rw [hs] at hp; cases hp
  | none =>
    cases hs : e.cus with
    | ok l' => exact ⟨rfl, fun _ _ => ⟨h.syms, fitS_ok hs, h.abbr, h.dies⟩, rfl, rfl⟩
    | error x => exact ⟨rfl, (fun _ h => nomatch h), rfl, rfl⟩

theorem accAbbrevs_good {s : Prop} {e : ElfFile} {U : CU → Prop} {F : CU → Option (List Nat)} {o : ElfObj} (cu : CU) (h : GoodS s e U F o)
    (hp : s ∨ ∃ l, e.abbrevs cu = .ok l) : (accAbbrevs e cu o).1 = e.abbrevs cu ∧ (∀ l, e.abbrevs cu = .ok l → GoodS s e U F (accAbbrevs e cu o).2) ∧
      (accAbbrevs e cu o).2.attrs = o.attrs ∧ (accAbbrevs e cu o).2.names = o.names ∧ (accAbbrevs e cu o).2.dies = o.dies := by
  unfold accAbbrevs
  cases hc : o.abbr cu with
  | some l =>
    cases hs : e.abbrevs cu with
    | ok l' =>
      rcases (h.abbr cu).1 l' hs with h1 | h1
      · rw [hc] at h1; cases h1
      · rw [hc] at h1; cases h1; exact ⟨rfl, fun _ _ => h, rfl, rfl, rfl⟩
    | error x =>
      rcases hp with hp | ⟨l', hp⟩
      · have := (h.abbr cu).2 hp x hs; rw [hc] at this; cases this
      · rw [hs] at hp; cases hp
  | none =>
    cases hs : e.abbrevs cu with
    | ok l' =>
      refine ⟨rfl, fun _ _ => ⟨h.syms, h.cus, fun u => ?_, h.dies⟩, rfl, rfl, rfl⟩
      simp only
      split
      · rename_i hu; subst hu; exact fitS_ok hs
      · exact h.abbr u
    | error x => exact ⟨rfl, (fun _ h => nomatch h), rfl, rfl, rfl⟩

theorem getDIEs_unused {E : FormEnv} {d : Bytes} {cu : CU} {f : Option (List Nat)} (h : usesAbbrevs d cu = false) (t t' : Except Err (List AbbrevEntry)) :
    getDIEs ⟨E, d, t, f⟩ cu = getDIEs ⟨E, d, t', f⟩ cu := by
  unfold usesAbbrevs at h
  unfold getDIEs getDie
  cases hu : getUleb128 d cu.dieOff with
  | error x => rfl
  | ok r =>
    rw [hu] at h
    have : r.1 = 0 := by simpa using h
    obtain ⟨c, n⟩ := r
    simp only at this
    subst this
    rfl

theorem getDIEs_used {E : FormEnv} {d : Bytes} {cu : CU} {f : Option (List Nat)} (h : usesAbbrevs d cu = true) (x : Err) :
    getDIEs ⟨E, d, .error x, f⟩ cu = .error x := by
  unfold usesAbbrevs at h
  unfold getDIEs getDie
  cases hu : getUleb128 d cu.dieOff with
  | error y => rw [hu] at h; cases h
  | ok r =>
    rw [hu] at h
    have : r.1 ≠ 0 := by simpa using h
    obtain ⟨c, n⟩ := r
    simp only at this
    simp only [this, abbrevOf]
    rfl

theorem accDIEs_good {s : Prop} {e : ElfFile} {J : Left} {U : CU → Prop} {F : CU → Option (List Nat)} {o : ElfObj} (cu : CU) (hU : U cu) (h : GoodS s e U F o)
    (hp : s ∨ ∃ l, pureDies e F cu = .ok l) :
    (accDIEs e J cu (F cu) o).1 = pureDies e F cu ∧ (∀ l, pureDies e F cu = .ok l → GoodS s e U F (accDIEs e J cu (F cu) o).2) ∧
      (accDIEs e J cu (F cu) o).2.attrs = o.attrs ∧ (accDIEs e J cu (F cu) o).2.names = o.names := by
  unfold accDIEs
  by_cases hc : o.dies cu ≠ []
  · rw [if_pos hc]
    cases hs : pureDies e F cu with
    | ok l =>
      rcases (h.dies cu hU).1 l hs with h1 | h1
      · exact absurd h1 hc
      · rw [h1]; exact ⟨rfl, fun _ _ => h, rfl, rfl⟩
    | error x =>
      rcases hp with hp | ⟨l', hp⟩
      · exact absurd ((h.dies cu hU).2 hp x hs) hc
      · rw [hs] at hp; cases hp
  rw [if_neg hc]
  have key : ∃ t : Except Err (List AbbrevEntry) × ElfObj, t = (if usesAbbrevs e.unitData cu then accAbbrevs e cu o else (.ok [], o)) ∧
      getDIEs ⟨formEnv e cu, e.unitData, t.1, F cu⟩ cu = pureDies e F cu ∧ (∀ l, pureDies e F cu = .ok l → GoodS s e U F t.2) ∧
      t.2.attrs = o.attrs ∧ t.2.names = o.names ∧ t.2.dies = o.dies := by
    refine ⟨_, rfl, ?_⟩
    cases hu : usesAbbrevs e.unitData cu with
    | false =>
      simp only [Bool.false_eq_true, if_false]
      exact ⟨getDIEs_unused hu _ _, fun _ _ => h, trivial, trivial, trivial⟩
    | true =>
      simp only [if_true]
      have hp' : s ∨ ∃ l, e.abbrevs cu = .ok l := by
        rcases hp with hp | ⟨l, hp⟩
        · exact .inl hp
        · cases ha : e.abbrevs cu with
          | ok t => exact .inr ⟨t, rfl⟩
          | error x =>
            unfold pureDies at hp
            rw [ha, getDIEs_used hu] at hp
            cases hp
      obtain ⟨h1, h2, h3, h4, h5⟩ := accAbbrevs_good cu h hp'
      refine ⟨by rw [h1]; rfl, fun l hl => ?_, h3, h4, h5⟩
      cases ha : e.abbrevs cu with
      | ok t => exact h2 t ha
      | error x =>
        unfold pureDies at hl
        rw [ha, getDIEs_used hu] at hl
        cases hl
  obtain ⟨t, ht, h1, h2, h3, h4, h5⟩ := key
  simp only [← ht, h1]
  cases hs : pureDies e F cu with
  | ok ds =>
    have g := h2 ds hs
    refine ⟨rfl, fun _ _ => ⟨g.syms, g.cus, g.abbr, fun u hUu => ?_⟩, h3, h4⟩
    simp only
    split
    · rename_i hu
      subst hu
      exact ⟨fun l hl => .inr (by rw [hs] at hl; exact Except.ok.inj hl), fun _ x hx => by rw [hs] at hx; cases hx⟩
    · exact g.dies u hUu
  | error x => exact ⟨rfl, (fun _ h => nomatch h), h3, h4⟩

/-! ## All accesses keep the caches good -/

theorem accSymbols_keeps {e : ElfFile} {U : CU → Prop} {F : CU → Option (List Nat)} {o : ElfObj} (h : GoodS False e U F o) : GoodS False e U F (accSymbols e o).2 := by
  cases hs : e.symbols with
  | ok l => exact (accSymbols_good h (.inr ⟨l, hs⟩)).2.1 l hs
  | error x =>
    unfold accSymbols
    cases o.syms with
    | some l => exact h
    | none => simp only [hs]; exact ⟨fitS_error hs, h.cus, h.abbr, h.dies⟩

theorem accCUs_keeps {e : ElfFile} {U : CU → Prop} {F : CU → Option (List Nat)} {o : ElfObj} (h : GoodS False e U F o) : GoodS False e U F (accCUs e o).2 := by
  cases hs : e.cus with
  | ok l => exact (accCUs_good h (.inr ⟨l, hs⟩)).2.1 l hs
  | error x =>
    unfold accCUs
    cases o.cus with
    | some l => exact h
    | none => simp only [hs]; exact ⟨h.syms, fitS_error hs, h.abbr, h.dies⟩

theorem accAbbrevs_keeps {e : ElfFile} {U : CU → Prop} {F : CU → Option (List Nat)} {o : ElfObj} (cu : CU) (h : GoodS False e U F o) : GoodS False e U F (accAbbrevs e cu o).2 := by
  cases hs : e.abbrevs cu with
  | ok l => exact (accAbbrevs_good cu h (.inr ⟨l, hs⟩)).2.1 l hs
  | error x =>
    unfold accAbbrevs
    cases o.abbr cu with
    | some l => exact h
    | none =>
      simp only [hs]
      refine ⟨h.syms, h.cus, fun u => ?_, h.dies⟩
      simp only
      split
      · rename_i hu; subst hu; exact fitS_error hs
      · exact h.abbr u

theorem accAbbrevs_dies (e : ElfFile) (cu : CU) (o : ElfObj) : (accAbbrevs e cu o).2.dies = o.dies ∧ (accAbbrevs e cu o).2.attrs = o.attrs ∧
    (accAbbrevs e cu o).2.names = o.names := by
  unfold accAbbrevs
  split
  · exact ⟨rfl, rfl, rfl⟩
  · split <;> exact ⟨rfl, rfl, rfl⟩

theorem accDIEs_keeps {e : ElfFile} {J : Left} {U : CU → Prop} {F : CU → Option (List Nat)} {o : ElfObj} (cu : CU) {f : Option (List Nat)}
    (hf : U cu → f = F cu) (h : GoodS False e U F o) : GoodS False e U F (accDIEs e J cu f o).2 := by
  by_cases hp : U cu ∧ ∃ l, pureDies e F cu = .ok l
  · obtain ⟨hU, l, hs⟩ := hp
    rw [hf hU]
    exact (accDIEs_good cu hU h (.inr ⟨l, hs⟩)).2.1 l hs
  · unfold accDIEs
    split
    · exact h
    have ht : GoodS False e U F (if usesAbbrevs e.unitData cu then accAbbrevs e cu o else (.ok [], o)).2 := by
      split
      · exact accAbbrevs_keeps cu h
      · exact h
    generalize (if usesAbbrevs e.unitData cu then accAbbrevs e cu o else (.ok [], o)) = t at ht ⊢
    simp only
    split
    all_goals
      refine ⟨ht.syms, ht.cus, ht.abbr, fun u hu => ?_⟩
      simp only
      split
      · rename_i heq; subst heq; exact ⟨fun l hl => absurd ⟨hu, l, hl⟩ hp, fun h => h.elim⟩
      · exact ht.dies u hu

theorem accDIEs_attrs (e : ElfFile) (J : Left) (cu : CU) (f : Option (List Nat)) (o : ElfObj) :
    (accDIEs e J cu f o).2.attrs = o.attrs ∧ (accDIEs e J cu f o).2.names = o.names := by
  unfold accDIEs
  split
  · exact ⟨rfl, rfl⟩
  have ht : (if usesAbbrevs e.unitData cu then accAbbrevs e cu o else (.ok [], o)).2.attrs = o.attrs ∧
      (if usesAbbrevs e.unitData cu then accAbbrevs e cu o else (.ok [], o)).2.names = o.names := by
    split
    · exact (accAbbrevs_dies e cu o).2
    · exact ⟨rfl, rfl⟩
  generalize (if usesAbbrevs e.unitData cu then accAbbrevs e cu o else (.ok [], o)) = t at ht ⊢
  simp only
  split <;> exact ht

theorem accSymbols_attrs (e : ElfFile) (o : ElfObj) : (accSymbols e o).2.attrs = o.attrs ∧ (accSymbols e o).2.names = o.names := by
  unfold accSymbols
  split
  · exact ⟨rfl, rfl⟩
  · split <;> exact ⟨rfl, rfl⟩

theorem accCUs_attrs (e : ElfFile) (o : ElfObj) : (accCUs e o).2.attrs = o.attrs ∧ (accCUs e o).2.names = o.names := by
  unfold accCUs
  split
  · exact ⟨rfl, rfl⟩
  · split <;> exact ⟨rfl, rfl⟩

/-- A computation that keeps a property of the object. -/
def AccKeeps {α : Type} (P : ElfObj → Prop) (x : Acc α) : Prop := ∀ o, P o → P (x o).2

theorem keeps_bind {α β : Type} {P : ElfObj → Prop} {x : Acc α} {f : α → Acc β} (hx : AccKeeps P x) (hf : ∀ a, AccKeeps P (f a)) : AccKeeps P (x.bind f) := by
  intro o h
  have h1 := hx o h
  unfold Acc.bind
  split
  · rename_i a o' he; rw [he] at h1; exact hf a o' h1
  · rename_i a o' he; rw [he] at h1; exact h1

theorem keeps_pure {α : Type} {P : ElfObj → Prop} (a : α) : AccKeeps P (Acc.pure a) := fun _ h => h
theorem keeps_lift {α : Type} {P : ElfObj → Prop} (a : Except Err α) : AccKeeps P (Acc.lift a) := fun _ h => h
theorem keeps_fail {α : Type} {P : ElfObj → Prop} (x : Err) : AccKeeps P (Acc.fail (α := α) x) := fun _ h => h

/-- The caches of the entries' attributes and the names do not matter. -/
theorem good_attrs {s : Prop} {e : ElfFile} {U : CU → Prop} {F : CU → Option (List Nat)} {o : ElfObj} (h : GoodS s e U F o) (a : AttrId → Option EVal × Option Str)
    (n : Nat → Option Str) : GoodS s e U F { o with attrs := a, names := n } := ⟨h.syms, h.cus, h.abbr, h.dies⟩

theorem accAttr_keeps {s : Prop} {e : ElfFile} {U : CU → Prop} {F : CU → Option (List Nat)} {β : Type} (id : AttrId) (a : DAttr) (f : AttrObj → Except Err β × AttrObj) :
    AccKeeps (GoodS s e U F) (accAttr id a f) := fun o h => good_attrs h _ o.names

theorem accCuName_keeps {s : Prop} {e : ElfFile} {U : CU → Prop} {F : CU → Option (List Nat)} (dies : Dict Nat (Die × CU)) (x : Die × CU) :
    AccKeeps (GoodS s e U F) (accCuName e dies x) := by
  unfold accCuName
  refine keeps_bind (keeps_lift _) fun y => keeps_bind (keeps_lift _) fun c => ?_
  split
  · exact keeps_fail _
  · exact accAttr_keeps _ _ _

theorem accAddr_keeps {s : Prop} {e : ElfFile} {U : CU → Prop} {F : CU → Option (List Nat)} (x : Die × CU) : AccKeeps (GoodS s e U F) (accAddr e x) := by
  unfold accAddr
  split
  · split
    · exact keeps_pure _
    · exact keeps_lift _
  · split
    · split
      · exact keeps_pure _
      · refine keeps_bind (accAttr_keeps _ _ _) fun v => ?_
        cases v
        · exact keeps_pure _
        · exact keeps_fail _
        · exact keeps_pure _
    · exact keeps_pure _

theorem accNameStep_keeps {s : Prop} {e : ElfFile} {U : CU → Prop} {F : CU → Option (List Nat)} (dies : Dict Nat (Die × CU)) (syms : Dict Nat (RawSym × Option Str))
    (x : Die × CU) : AccKeeps (GoodS s e U F) (accNameStep e dies syms x) := by
  unfold accNameStep
  refine keeps_bind (accAddr_keeps x) fun addr => ?_
  split
  · exact keeps_pure _
  · split
    · exact keeps_pure _
    · split
      · exact keeps_pure _
      · exact keeps_bind (accCuName_keeps _ _) fun n => fun o h => good_attrs h o.attrs _

theorem accLoop_keeps {s : Prop} {e : ElfFile} {U : CU → Prop} {F : CU → Option (List Nat)} (dies : Dict Nat (Die × CU)) (syms : Dict Nat (RawSym × Option Str))
    (l : Dict Nat (Die × CU)) : AccKeeps (GoodS s e U F) (accLoop e dies syms l) := by
  induction l with
  | nil => exact keeps_pure _
  | cons p t ih => exact keeps_bind (accNameStep_keeps _ _ _) fun _ => ih

theorem accAllDies_keeps {e : ElfFile} {J : Left} {U : CU → Prop} {F : CU → Option (List Nat)} (hF : ∀ cu, U cu → F cu = some cuTags) (l : List CU) (acc : Dict Nat (Die × CU)) :
    AccKeeps (GoodS False e U F) (accAllDies e J l acc) := by
  induction l generalizing acc with
  | nil => exact keeps_pure _
  | cons cu t ih =>
    unfold accAllDies
    refine keeps_bind (fun o h => ?_) fun ds => ih _
    exact accDIEs_keeps cu (fun hU => (hF cu hU).symm) h

theorem accAddCus_keeps {e : ElfFile} {J : Left} {U : CU → Prop} {F : CU → Option (List Nat)} (hF : ∀ cu, U cu → F cu = some cuTags) :
    AccKeeps (GoodS False e U F) (accAddCus e J) := by
  unfold accAddCus
  refine keeps_bind (fun o h => accCUs_keeps h) fun cus => keeps_bind (accAllDies_keeps hF _ _) fun dies =>
    keeps_bind (fun o h => accSymbols_keeps h) fun syms => keeps_bind (accLoop_keeps _ _ _) fun _ => fun o h => h

end EspSize
