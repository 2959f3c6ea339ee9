import Verif.Props.Expand
import Verif.Proofs.ProjectCells
/-! # Bytes of expanded input sections -/
namespace EspSize

section
variable (P : Str → Str → Str → Bool)

/-- Bytes of an input section that are selected. -/
def isecBytes (i : ISec) : Int := if P i.archive i.objectFile i.name then i.size else 0

theorem setLastFill_bytes (l : List ISec) (f : Int) : sumBy (isecBytes P) (setLastFill l f) = sumBy (isecBytes P) l := by
  rcases List.eq_nil_or_concat l with rfl | ⟨m, x, rfl⟩
  · rfl
  · have := setLastFill_append [] m x f
    simp only [List.nil_append, List.concat_eq_append] at this ⊢
    rw [this]
    simp [sumBy_append, sumBy, isecBytes]

/-- The symbols that start in an input section. -/
def xWithin (syms : List XSym) (i : ISec) : List XSym := syms.filter fun y => decide (i.address ≤ y.value ∧ y.value < i.stop)

theorem expandInput_bytes (syms : List XSym) (i : ISec) (new : List ISec) (he : i.archive = str "(exe)") (h0 : 0 ≤ i.size)
    (ok : XSymsOk syms) (hd : syms.Pairwise fun a b => a.value + a.size ≤ b.value)
    (hin : ∀ y ∈ xWithin syms i, y.value + y.size ≤ i.stop)
    (hb : i.size = 0 ∨ (∃ y ∈ xWithin syms i, y.value + y.size = i.stop) ∨ ∃ y ∈ syms, i.stop ≤ y.value) :
    sumBy (isecBytes P) (expandInput syms i new) = sumBy (isecBytes P) new +
      (sumBy (fun y => isecBytes P (symSection y)) (xWithin syms i) +
        if P i.archive i.objectFile i.name then i.size - sumBy (fun y : XSym => y.size) (xWithin syms i) else 0) := by
  induction syms generalizing i new with
  | nil =>
    have : i.size = 0 := by
      rcases hb with h | ⟨y, hy, _⟩ | ⟨y, hy, _⟩
      · exact h
      · cases hy
      · cases hy
    simp [expandInput, xWithin, this]
  | cons y ys ih =>
    have ok' : XSymsOk ys := ⟨(List.pairwise_cons.mp ok.sorted).2, fun z hz => ok.key z (by simp [hz]), fun z hz => ok.pos z (by simp [hz])⟩
    obtain ⟨hd1, hd'⟩ := List.pairwise_cons.mp hd
    have hk := ok.key y (by simp)
    have hpos := ok.pos y (by simp)
    unfold expandInput
    by_cases h1 : y.addr < i.address
    · rw [if_pos h1]
      have hw : xWithin (y :: ys) i = xWithin ys i := by
        unfold xWithin
        rw [List.filter_cons, if_neg (by simp; omega)]
      rw [hw] at hin hb ⊢
      refine ih i new he h0 ok' hd' hin ?_
      rcases hb with h | h | ⟨z, hz, hz'⟩
      · exact .inl h
      · exact .inr (.inl h)
      · rcases List.mem_cons.mp hz with rfl | hz
        · unfold ISec.stop at hz'; omega
        · exact .inr (.inr ⟨z, hz, hz'⟩)
    · rw [if_neg h1]
      by_cases hin1 : y.value < i.stop
      · -- the symbol lies in the input section
        have hw : xWithin (y :: ys) i = y :: xWithin ys i := by
          unfold xWithin
          rw [List.filter_cons, if_pos (by simp; omega)]
        have hyin : y.value + y.size ≤ i.stop := hin y (by rw [hw]; simp)
        have key : ∀ (i' : ISec) (new' : List ISec), i'.archive = i.archive → i'.objectFile = i.objectFile → i'.name = i.name →
            i'.address = y.value + y.size → i'.stop = i.stop →
            sumBy (isecBytes P) new' = sumBy (isecBytes P) new + (if P i.archive i.objectFile i.name then y.value - i.address else 0) +
              isecBytes P (symSection y) →
            sumBy (isecBytes P) (expandInput ys i' new') = sumBy (isecBytes P) new +
              (sumBy (fun y => isecBytes P (symSection y)) (xWithin (y :: ys) i) +
                if P i.archive i.objectFile i.name then i.size - sumBy (fun y : XSym => y.size) (xWithin (y :: ys) i) else 0) := by
          intro i' new' e1 e2 e3 e4 e5 e6
          have hsz : i'.size = i.size - (y.value - i.address) - y.size := by unfold ISec.stop at e5; omega
          have hw' : xWithin ys i' = xWithin ys i := by
            unfold xWithin
            apply List.filter_congr
            intro z hz
            have := hd1 z hz
            rw [e5, e4]
            simp only [decide_eq_decide]
            omega
          have h := ih i' new' (e1.trans he) (by unfold ISec.stop at hyin; omega) ok' hd' (by
              rw [hw', e5]
              intro z hz
              exact hin z (by rw [hw]; simp [hz])) (by
              rw [hw', e5]
              rcases hb with h | ⟨z, hz, hz'⟩ | ⟨z, hz, hz'⟩
              · unfold ISec.stop at hyin hin1; omega
              · rw [hw] at hz
                rcases List.mem_cons.mp hz with rfl | hz
                · left; unfold ISec.stop at hz'; omega
                · exact .inr (.inl ⟨z, hz, hz'⟩)
              · rcases List.mem_cons.mp hz with rfl | hz
                · omega
                · exact .inr (.inr ⟨z, hz, hz'⟩))
          rw [h, hw', hw, e6, e1, e2, e3]
          simp only [sumBy]
          by_cases hp : P i.archive i.objectFile i.name = true
          · simp only [hp, if_true]; omega
          · simp only [hp, Bool.false_eq_true, if_false]; omega
        by_cases h2 : y.addr = i.address ∧ i.size ≠ 0
        · rw [if_pos h2]
          refine key _ _ rfl rfl rfl (by simp only []; omega) (by unfold ISec.stop; simp only []; omega) ?_
          rw [sumBy_append]
          have : y.value - i.address = 0 := by omega
          simp [sumBy, this]
        · rw [if_neg h2, if_pos (by unfold ISec.stop at hin1; omega)]
          simp only []
          refine key _ _ rfl rfl rfl (by simp only []; omega) (by unfold ISec.stop; simp only []; omega) ?_
          rw [sumBy_append]
          simp only [sumBy]
          have : isecBytes P { i with size := y.value - i.address, archive := str "(exe)", fill := 0 } =
              if P i.archive i.objectFile i.name then y.value - i.address else 0 := by
            unfold isecBytes
            simp only [he]
          rw [this]
          omega
      · -- and neither do the others
        have hw : xWithin (y :: ys) i = [] := by
          unfold xWithin
          rw [List.filter_eq_nil_iff]
          intro z hz
          simp only [decide_eq_true_eq]
          rcases List.mem_cons.mp hz with rfl | hz
          · omega
          · have := hd1 z hz; omega
        unfold ISec.stop at hin1
        rw [if_neg (by omega), if_neg (by omega), hw]
        simp only [sumBy, Int.sub_zero, Int.zero_add]
        by_cases h4 : i.size ≠ 0 ∨ new = []
        · rw [if_pos h4, sumBy_append]
          simp [sumBy, isecBytes]
        · rw [if_neg h4, setLastFill_bytes]
          have : i.size = 0 := by
            by_cases hz : i.size = 0
            · exact hz
            · exact absurd (.inl hz) h4
          simp [this]

theorem expandSection_bytes (syms : List XSym) (o : OSec) (ok : XSymsOk syms)
    (hd : syms.Pairwise fun a b => a.value + a.size ≤ b.value)
    (hi : ∀ i ∈ o.inputs, i.archive = str "(exe)" → 0 ≤ i.size ∧ (∀ y ∈ xWithin syms i, y.value + y.size ≤ i.stop) ∧
      (i.size = 0 ∨ (∃ y ∈ xWithin syms i, y.value + y.size = i.stop) ∨ ∃ y ∈ syms, i.stop ≤ y.value)) :
    inputSum P ISec.size (expandSection syms o) = sumBy (fun i => if i.archive = str "(exe)" then
      sumBy (fun y => isecBytes P (symSection y)) (xWithin syms i) +
        (if P i.archive i.objectFile i.name then i.size - sumBy (fun y : XSym => y.size) (xWithin syms i) else 0)
      else isecBytes P i) o.inputs := by
  show sumBy (isecBytes P) _ = _
  unfold expandSection
  simp only []
  have key : ∀ (l : List ISec), (∀ i ∈ l, i ∈ o.inputs) → ∀ new : List ISec,
      sumBy (isecBytes P) (l.foldl (fun new i => if i.archive ≠ str "(exe)" then new ++ [i] else expandInput syms i new) new) =
        sumBy (isecBytes P) new + sumBy (fun i => if i.archive = str "(exe)" then
          sumBy (fun y => isecBytes P (symSection y)) (xWithin syms i) +
            (if P i.archive i.objectFile i.name then i.size - sumBy (fun y : XSym => y.size) (xWithin syms i) else 0)
          else isecBytes P i) l := by
    intro l
    induction l with
    | nil => intro _ new; simp [sumBy]
    | cons i l ih =>
      intro hl new
      rw [List.foldl_cons, ih fun j hj => hl j (by simp [hj])]
      simp only [sumBy]
      by_cases he : i.archive = str "(exe)"
      · obtain ⟨h1, h2, h3⟩ := hi i (hl i (by simp)) he
        rw [if_neg (by simpa using he), if_pos he, expandInput_bytes P syms i new he h1 ok hd h2 h3]
        omega
      · rw [if_pos he, if_neg he, sumBy_append]
        simp only [sumBy]
        omega
  rw [key o.inputs (fun _ h => h) []]
  simp [sumBy]

end

/-- The symbol used for the expansion. -/
def toX (y : CuSym × Str × Str) : XSym :=
  { addr := y.1.value, name := y.1.name, value := y.1.value, size := y.1.size, archive := y.2.1, objectFile := y.2.2 }

/-- All symbols with an archive. -/
def ownedSyms (owner : Str → Option Str) (syms : Dict Int CuSym) : List (CuSym × Str × Str) :=
  syms.filterMap fun p => (ownerOf owner p.2).map fun x => (p.2, x)

theorem mem_owned {owner : Str → Option Str} {syms : Dict Int CuSym} {y : CuSym × Str × Str} :
    y ∈ ownedSyms owner syms ↔ ∃ p ∈ syms, p.2 = y.1 ∧ ownerOf owner p.2 = some y.2 := by
  unfold ownedSyms
  rw [List.mem_filterMap]
  constructor
  · rintro ⟨p, hp, h⟩
    rw [Option.map_eq_some_iff] at h
    obtain ⟨x, h1, rfl⟩ := h
    exact ⟨p, hp, rfl, h1⟩
  · rintro ⟨p, hp, h1, h2⟩
    exact ⟨p, hp, by rw [h2, h1]; rfl⟩

theorem symsWithin_eq (owner : Str → Option Str) (syms : Dict Int CuSym) (i : ISec) :
    symsWithin owner syms i = (ownedSyms owner syms).filter fun y => decide (i.address ≤ y.1.value ∧ y.1.value < i.stop) := by
  unfold symsWithin ownedSyms
  rw [List.filter_filterMap]
  congr 1
  funext p
  cases h : ownerOf owner p.2 with
  | none => simp
  | some x =>
    by_cases hc : i.address ≤ p.2.value ∧ p.2.value < i.stop
    · simp [hc, Option.filter]
    · simp only [hc, if_false, Option.map_some, Option.filter, decide_false, Bool.false_eq_true]

theorem expandSymbols_owned {build : Str} {comps : List Comp} {syms : Dict Int CuSym} {xs : List XSym}
    (h : expandSymbols build comps syms = .ok xs) (hk : ∀ p ∈ syms, p.1 = p.2.value) :
    ∃ cs, sortedComponents build comps = .ok cs ∧
      xs = sortedBy (fun y => y.addr) false ((ownedSyms (fun cu => (findComponent cs (asPosix cu)).map (·.2)) syms).map toX) := by
  unfold expandSymbols at h
  obtain ⟨cs, hc, h⟩ := bind_ok h
  refine ⟨cs, hc, ?_⟩
  cases h
  congr 1
  unfold ownedSyms
  rw [List.map_filterMap]
  apply filterMap_congr'
  intro p hp
  have := hk p hp
  unfold ownerOf
  cases hcu : p.2.cuName with
  | none => simp
  | some cu =>
    by_cases h1 : p.2.size = 0
    · simp [h1]
    · by_cases h2 : cu = []
      · simp [h2]
      · simp only [h1, h2, or_self, if_false]
        cases findComponent cs (asPosix cu) with
        | none => rfl
        | some c => simp [toX, this]

/-- The symbols used for the expansion, in terms of those of the ELF file. -/
theorem expand_attributed {owner : Str → Option Str} {syms : Dict Int CuSym} {xs : List XSym} (hs : SymsDisjoint owner syms)
    (hx : xs = sortedBy (fun y => y.addr) false ((ownedSyms owner syms).map toX)) (o : OSec) :
    AttributedTo owner syms o (expandSection xs o) := by
  refine ⟨rfl, rfl, rfl, fun hi P => ?_⟩
  have hst := sortedBy_stable (fun y : XSym => y.addr) false ((ownedSyms owner syms).map toX)
  rw [← hx] at hst
  have hmem : ∀ z, z ∈ xs ↔ ∃ y ∈ ownedSyms owner syms, toX y = z := fun z => by
    rw [hst.perm.mem_iff, List.mem_map]
  have hperm : ∀ i, (xWithin xs i).Perm ((symsWithin owner syms i).map toX) := by
    intro i
    rw [symsWithin_eq]
    unfold xWithin
    refine (hst.perm.filter _).trans ?_
    rw [List.filter_map]
    exact List.Perm.refl _
  have hin : ∀ i z, z ∈ xWithin xs i ↔ ∃ y ∈ symsWithin owner syms i, toX y = z := fun i z => by
    rw [(hperm i).mem_iff, List.mem_map]
  have ok : XSymsOk xs := by
    refine ⟨by simpa using hst.sorted, ?_, ?_⟩
    · intro z hz
      obtain ⟨y, _, rfl⟩ := (hmem z).mp hz
      rfl
    · intro z hz
      obtain ⟨y, hy, rfl⟩ := (hmem z).mp hz
      obtain ⟨p, hp, h1, h2⟩ := mem_owned.mp hy
      have h3 := hs.size p hp
      have h4 : p.2.size ≠ 0 := by
        intro h0
        unfold ownerOf at h2
        rw [if_pos h0] at h2
        cases h2
      show 0 < y.1.size
      rw [← h1]
      omega
  have hnd : ((ownedSyms owner syms).map toX).Pairwise fun a b => a.value ≠ b.value := by
    rw [List.pairwise_map]
    unfold ownedSyms
    rw [List.pairwise_filterMap]
    have hkeys : syms.Pairwise fun a b => a.1 ≠ b.1 := by
      have := hs.keys
      unfold KeysNodup dkeys at this
      exact List.pairwise_map.mp this
    refine hkeys.imp_of_mem ?_
    intro a b ha hb hab x hx y hy
    rw [Option.map_eq_some_iff] at hx hy
    obtain ⟨_, _, rfl⟩ := hx
    obtain ⟨_, _, rfl⟩ := hy
    show a.2.value ≠ b.2.value
    rw [← hs.address a ha, ← hs.address b hb]
    exact hab
  have hnd' : xs.Pairwise fun a b => a.value ≠ b.value :=
    (hst.perm.pairwise_iff fun hab => hab.symm).mpr hnd
  have hd : xs.Pairwise fun a b => a.value + a.size ≤ b.value := by
    refine (hnd'.and (show xs.Pairwise fun a b => a.addr ≤ b.addr by simpa using hst.sorted)).imp_of_mem ?_
    intro a b ha hb hab
    obtain ⟨y, hy, rfl⟩ := (hmem a).mp ha
    obtain ⟨z, hz, rfl⟩ := (hmem b).mp hb
    obtain ⟨p, hp, h1, h2⟩ := mem_owned.mp hy
    obtain ⟨q, hq, h3, h4⟩ := mem_owned.mp hz
    have hlt : y.1.value < z.1.value := by
      have e1 : y.1.value ≠ z.1.value := hab.1
      have e2 : y.1.value ≤ z.1.value := hab.2
      omega
    have := hs.apart p hp q hq (by rw [h2]; rfl) (by rw [h4]; rfl) (by rw [h1, h3]; exact hlt)
    rw [h1, h3] at this
    exact this
  rw [expandSection_bytes P xs o ok hd]
  · apply sumBy_congr
    intro i _
    unfold ltoBytes
    rw [sumBy_perm (hperm i), sumBy_perm (hperm i), sumBy_map, sumBy_map]
    rfl
  · intro i hi' he
    have ha := hi i hi' he
    refine ⟨ha.size, ?_, ?_⟩
    · intro z hz
      obtain ⟨y, hy, rfl⟩ := (hin i z).mp hz
      exact ha.inside y hy
    · rcases ha.behind with h | ⟨y, hy, h⟩ | ⟨p, hp, h1, h2⟩
      · exact .inl h
      · exact .inr (.inl ⟨toX y, (hin i _).mpr ⟨y, hy, rfl⟩, h⟩)
      · obtain ⟨x, hx'⟩ := Option.isSome_iff_exists.mp h1
        exact .inr (.inr ⟨toX (p.2, x), (hmem _).mpr ⟨(p.2, x), mem_owned.mpr ⟨p, hp, rfl, hx'⟩, rfl⟩, h2⟩)

end EspSize
