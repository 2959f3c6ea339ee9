import Verif.Proofs.Symbols
/-! # C22, C56: symbols of input sections -/
namespace EspSize

theorem stableSort_filter {α : Type} {key : α → Int} {rev : Bool} {a b : List α} (h : StableSort key rev a b) (p : α → Bool) :
    StableSort key rev (a.filter p) (b.filter p) := by
  refine ⟨h.perm.filter p, h.sorted.filter p, fun k => ?_⟩
  have := h.stable k
  rw [List.filter_filter, List.filter_filter]
  have e : ∀ l : List α, (l.filter fun x => decide (key x = k) && p x) = (l.filter fun x => decide (key x = k)).filter p := by
    intro l; rw [List.filter_filter]; apply List.filter_congr; intro x _; exact Bool.and_comm _ _
  rw [e, e, this]

theorem stableSort_map {α β : Type} {key : β → Int} {rev : Bool} (f : α → β) {a b : List α}
    (h : StableSort (fun x => key (f x)) rev a b) : StableSort key rev (a.map f) (b.map f) := by
  refine ⟨h.perm.map f, ?_, fun k => ?_⟩
  · rw [List.pairwise_map]; exact h.sorted
  · have := h.stable k
    rw [List.filter_map, List.filter_map]
    exact congrArg (List.map f) this

theorem sweepSymbols_eq (syms : List ElfSym) :
    sweepSymbols syms = (sortedBy (fun s => s.value) false syms).filter fun y => Sized y := by
  unfold sweepSymbols
  apply List.filter_congr
  intro y _
  by_cases h1 : y.type = 2 <;> by_cases h2 : y.type = 1 <;> by_cases h3 : y.size = 0 <;>
    simp [Sized, sttFunc, sttObject, h1, h2, h3]

theorem find_slot {slots : List Slot} {n : Nat} {i : ISec}
    (hmem : (n, i) ∈ slots.map fun t => (t.idx, t.isec))
    (huniq : ∀ j, (n, j) ∈ (slots.map fun t => (t.idx, t.isec)) → j = i) :
    ∃ t ∈ slots, slots.find? (fun t => t.idx = n) = some t ∧ t.isec = i := by
  obtain ⟨t, ht, e⟩ := List.mem_map.mp hmem
  have e1 : t.idx = n := congrArg Prod.fst e
  cases hf : slots.find? (fun t => t.idx = n) with
  | none =>
    have := List.find?_eq_none.mp hf t ht
    simp [e1] at this
  | some u =>
    have hu := List.mem_of_find?_eq_some hf
    have hn : u.idx = n := by simpa using List.find?_some hf
    refine ⟨u, hu, rfl, huniq _ ?_⟩
    exact List.mem_map.mpr ⟨u, hu, by rw [hn]⟩

/-- Exact result of `_add_symbols_to_sections` with an ELF file: with the input sections in the order of
addresses and the sized functions and objects in the order of addresses, it fails exactly if some symbol does
not fit, and otherwise changes only the symbols, as given by `symsAt`. -/
theorem addSymbols_exact (syms : List ElfSym) (osecs : List OSec) (hne : osecs.flatMap (·.inputs) ≠ []) :
    ∃ order ys, StableSort ISec.address false (osecs.flatMap (·.inputs)) order ∧
      StableSort ElfSym.value false (syms.filter fun y => Sized y) ys ∧
      (((∀ y ∈ ys, FitsIn order y) ∧ ∃ osecs', addSymbols (some syms) osecs = .ok osecs' ∧
          All2 (SymsOf fun i l => ∃ pre post, order = pre ++ i :: post ∧ l = symsAt ys pre i) osecs osecs') ∨
       ((∃ y ∈ ys, ¬ FitsIn order y) ∧ addSymbols (some syms) osecs = .error .memMap)) := by
  have hst := sortedBy_stable (fun p : Nat × ISec => p.2.address) false
    ((osecs.flatMap (·.inputs)).zipIdx.map fun p => (p.2, p.1))
  have hys : StableSort ElfSym.value false (syms.filter fun y => Sized y) (sweepSymbols syms) := by
    rw [sweepSymbols_eq]; exact stableSort_filter (sortedBy_stable _ _ _) _
  have hsorted : (sweepSymbols syms).Pairwise fun a b => a.value ≤ b.value := by simpa using hys.sorted
  have horder := stableSort_map (key := ISec.address) Prod.snd hst
  rw [List.map_map] at horder
  have eflat : List.map (Prod.snd ∘ fun p : ISec × Nat => (p.2, p.1)) (osecs.flatMap (·.inputs)).zipIdx = osecs.flatMap (·.inputs) := by
    have : (Prod.snd ∘ fun p : ISec × Nat => (p.2, p.1)) = Prod.fst := rfl
    rw [this, List.zipIdx_map_fst]
  rw [eflat] at horder
  refine ⟨_, sweepSymbols syms, horder, hys, ?_⟩
  unfold addSymbols
  simp only []
  cases hl : sortedBy (fun p : Nat × ISec => p.2.address) false
      ((osecs.flatMap (·.inputs)).zipIdx.map fun p => (p.2, p.1)) with
  | nil =>
    exfalso
    rw [hl] at hst
    have := hst.perm.length_eq
    simp only [List.length_nil, List.length_map, List.length_zipIdx] at this
    exact hne (List.length_eq_zero_iff.mp this.symm)
  | cons p rest =>
    obtain ⟨n0, i0⟩ := p
    simp only []
    rcases sweep_eq (sweepSymbols syms) hsorted { idx := n0, isec := i0, syms := [] } rest [] with ⟨h1, h2⟩ | ⟨h1, h2⟩
    · left
      refine ⟨by simpa using h1, ?_⟩
      rw [h2]
      refine ⟨_, rfl, ?_⟩
      generalize hs : ([] ++ fin (sweepSymbols syms) [] ({ idx := n0, isec := i0, syms := [] } :: rest.map slotOf)) = slots
      rw [List.nil_append] at hs
      have hkeys : slots.map (fun t => (t.idx, t.isec)) = (n0, i0) :: rest := by
        rw [← hs, fin_idx]
        simp [slotOf, Function.comp_def]
      have hperm := hst.perm
      rw [hl] at hperm
      have hcore : All2 (fun (i i' : ISec) => i' = { i with symbols := i'.symbols } ∧
          ∃ pre post, (i0 :: rest.map Prod.snd) = pre ++ i :: post ∧ i'.symbols = symsAt (sweepSymbols syms) pre i)
          (osecs.flatMap (·.inputs)) ((osecs.flatMap (·.inputs)).zipIdx.map fun p =>
            { p.1 with symbols := ((slots.find? fun t : Slot => t.idx = p.2).map Slot.syms).getD [] }) := by
        apply all2_zipIdx
        intro q hq
        refine ⟨rfl, ?_⟩
        obtain ⟨t, ht, hf, hi⟩ := find_slot (slots := slots) (n := q.2) (i := q.1) (by
            rw [hkeys]; exact hperm.mem_iff.mpr (List.mem_map.mpr ⟨q, hq, rfl⟩)) (by
            intro j hj
            rw [hkeys] at hj
            obtain ⟨q', hq', e⟩ := List.mem_map.mp (hperm.mem_iff.mp hj)
            have e1 : q'.2 = q.2 := congrArg Prod.fst e
            have e2 : q'.1 = j := congrArg Prod.snd e
            obtain ⟨a1, a2⟩ := q
            obtain ⟨b1, b2⟩ := q'
            have x1 := List.mem_zipIdx_iff_getElem?.mp hq
            have x2 := List.mem_zipIdx_iff_getElem?.mp hq'
            simp only [] at e1 e2 x1 x2 ⊢
            rw [e1, x1] at x2
            rw [← e2]; exact (Option.some.inj x2).symm)
        rw [← hs] at ht
        obtain ⟨a, u, b, k1, k2, k3, k4⟩ := fin_mem ht
        refine ⟨a.map Slot.isec, b.map Slot.isec, ?_, ?_⟩
        · have := congrArg (List.map Slot.isec) k1
          rw [List.map_append, List.map_cons, List.map_cons, ← k3, hi] at this
          rw [← this]
          simp [slotOf, Function.comp_def]
        · rw [hf]
          have hu : u.syms = [] := by
            have : u ∈ ({ idx := n0, isec := i0, syms := [] } :: rest.map slotOf : List Slot) := by rw [k1]; simp
            rcases List.mem_cons.mp this with rfl | h
            · rfl
            · obtain ⟨_, _, rfl⟩ := List.mem_map.mp h; rfl
          show t.syms = _
          rw [k4, ← hi, k3]
          have : u = { idx := u.idx, isec := u.isec, syms := [] } := by rw [← hu]
          rw [this, finSyms_empty]; simp
      have := all2_refill osecs _ hcore
      exact this
    · right
      refine ⟨by simpa using h1, ?_⟩
      rw [h2]; rfl

theorem All2.imp {α β : Type} {R S : α → β → Prop} {a : List α} {b : List β} (h : All2 R a b)
    (f : ∀ x ∈ a, ∀ y, R x y → S x y) : All2 S a b := by
  induction a generalizing b with
  | nil => cases b with
    | nil => trivial
    | cons _ _ => cases h
  | cons x a ih => cases b with
    | nil => cases h
    | cons y b => exact ⟨f x (by simp) y h.1, ih h.2 fun z hz => f z (by simp [hz])⟩

theorem SymsOf.imp {R S : ISec → List MSym → Prop} {o o' : OSec} (h : SymsOf R o o')
    (f : ∀ i ∈ o.inputs, ∀ l, R i l → S i l) : SymsOf S o o' :=
  ⟨h.1, h.2.imp fun i hi _ hr => ⟨hr.1, f i hi _ hr.2⟩⟩

/-- C22, first half. Every symbol of an input section is the section itself, as only symbol, or a sized ELF function or object
that lies entirely inside it.  Sections may overlap. -/
theorem C22_inside (syms : List ElfSym) (osecs osecs' : List OSec) (h : addSymbols (some syms) osecs = .ok osecs') :
    All2 (SymsOf fun i l => l = [ownEntry i] ∨ ∀ x ∈ l, ∃ y ∈ syms, Sized y ∧ x = symEntry y ∧
      i.address ≤ y.value ∧ y.value + y.size ≤ i.stop) osecs osecs' := by
  by_cases hne : osecs.flatMap (·.inputs) = []
  · unfold addSymbols at h
    rw [hne] at h
    cases h
  · obtain ⟨order, ys, _, hy, ⟨hfit, os2, h2, hall⟩ | ⟨_, h2⟩⟩ := addSymbols_exact syms osecs hne
    · rw [h] at h2
      cases h2
      refine hall.imp fun o _ o' ho => ho.imp ?_
      rintro i _ l ⟨pre, post, e, rfl⟩
      unfold symsAt
      simp only []
      split
      · exact .inl rfl
      · rename_i hself
        right
        intro x hx
        obtain ⟨y, hy', rfl⟩ := List.mem_map.mp hx
        obtain ⟨hm, hd⟩ := List.mem_filter.mp hy'
        obtain ⟨hpre, hin⟩ := of_decide_eq_true hd
        have hms := List.mem_filter.mp (hy.perm.mem_iff.mp hm)
        refine ⟨y, hms.1, by simpa using hms.2, rfl, hin.1, ?_⟩
        obtain ⟨a, p, b, e', k1, k2, k3⟩ := hfit y hm
        -- both split the order at the first section that ends behind the start
        have : p = i := by
          rw [e] at e'
          clear e hall h hx hy' hd hms k3 hself
          induction pre generalizing a with
          | nil =>
            cases a with
            | nil => exact (List.cons.inj e').1.symm
            | cons c a =>
              have : i = c := (List.cons.inj e').1
              subst this
              have := k1 i (by simp)
              unfold StartsIn at hin; omega
          | cons c pre ih =>
            cases a with
            | nil =>
              have : c = p := (List.cons.inj e').1
              subst this
              have := hpre c (by simp); omega
            | cons d a =>
              exact ih (fun q hq => hpre q (by simp [hq])) a (List.cons.inj e').2 (fun q hq => k1 q (by simp [hq]))
        rw [← this]; exact k3
    · rw [h] at h2; cases h2

/-- In an order by address, a symbol that starts in a section that is disjoint from the others starts behind
the earlier ones. -/
theorem pre_stop {order pre post : List ISec} {i : ISec} {y : ElfSym}
    (hs : order.Pairwise fun a b => a.address ≤ b.address) (e : order = pre ++ i :: post)
    (hd : ∀ q ∈ pre, DisjointISec q i) (hin : StartsIn i y) : ∀ q ∈ pre, q.stop ≤ y.value := by
  intro q hq
  rw [e] at hs
  have h1 := (List.pairwise_append.mp hs).2.2 q hq i (by simp)
  have h2 := hd q hq y.value
  unfold StartsIn at hin
  omega

/-- C22, second half. With disjoint input sections, the symbols of each are exactly the sized ELF functions and objects that
start in it, each once, in the order of addresses; a section without any has itself as symbol or none. -/
theorem C22_complete (syms : List ElfSym) (osecs osecs' : List OSec) (h : addSymbols (some syms) osecs = .ok osecs')
    (hd : (osecs.flatMap (·.inputs)).Pairwise DisjointISec) :
    ∃ ys, StableSort ElfSym.value false (syms.filter fun y => Sized y) ys ∧
      (∀ y ∈ ys, ∀ i ∈ osecs.flatMap (·.inputs), StartsIn i y → y.value + y.size ≤ i.stop) ∧
      All2 (SymsOf fun i l =>
        ((ys.filter fun y => StartsIn i y) ≠ [] ∧ l = (ys.filter fun y => StartsIn i y).map symEntry) ∨
        ((ys.filter fun y => StartsIn i y) = [] ∧ (l = [] ∨ l = [ownEntry i]))) osecs osecs' := by
  have hne : osecs.flatMap (·.inputs) ≠ [] := by
    intro hne
    unfold addSymbols at h
    rw [hne] at h
    cases h
  obtain ⟨order, ys, ho, hy, ⟨hfit, os2, h2, hall⟩ | ⟨_, h2⟩⟩ := addSymbols_exact syms osecs hne
  · rw [h] at h2
    cases h2
    have hsym : ∀ {a b : ISec}, DisjointISec a b → DisjointISec b a := fun h x hx => h x ⟨hx.2.2.1, hx.2.2.2, hx.1, hx.2.1⟩
    have hdo : order.Pairwise DisjointISec := (ho.perm.pairwise_iff hsym).mpr hd
    have hsorted : order.Pairwise fun a b => a.address ≤ b.address := by simpa using ho.sorted
    refine ⟨ys, hy, ?_, hall.imp fun o _ o' hoo => hoo.imp ?_⟩
    · intro y hym i hi hin
      obtain ⟨a, p, b, e, k1, k2, k3⟩ := hfit y hym
      have him := ho.perm.mem_iff.mpr hi
      rw [e] at him hdo hsorted
      rcases List.mem_append.mp him with hia | him
      · have := k1 i hia; unfold StartsIn at hin; omega
      · rcases List.mem_cons.mp him with rfl | hib
        · exact k3
        · have h1 := (List.pairwise_cons.mp (List.pairwise_append.mp hsorted).2.1).1 i hib
          have h2 := (List.pairwise_cons.mp (List.pairwise_append.mp hdo).2.1).1 i hib y.value
          unfold StartsIn at hin; omega
    · rintro i _ l ⟨pre, post, e, rfl⟩
      have hdp : ∀ q ∈ pre, DisjointISec q i := by
        intro q hq
        rw [e] at hdo
        exact (List.pairwise_append.mp hdo).2.2 q hq i (by simp)
      have ef : (ys.filter fun y => decide ((∀ q ∈ pre, q.stop ≤ y.value) ∧ StartsIn i y)) =
          ys.filter fun y => decide (StartsIn i y) := by
        apply List.filter_congr
        intro y _
        have := pre_stop (y := y) hsorted e hdp
        simp only [decide_eq_decide]
        exact ⟨fun h => h.2, fun h => ⟨this h, h⟩⟩
      unfold symsAt
      simp only [ef]
      by_cases he : (ys.filter fun y => decide (StartsIn i y)) = []
      · right
        refine ⟨he, ?_⟩
        split
        · exact .inr rfl
        · rw [he]; exact .inl rfl
      · left
        refine ⟨he, ?_⟩
        rw [if_neg (fun hh => he hh.1)]
  · rw [h] at h2; cases h2

/-- C56. An input section has at least one symbol if some sized symbol lies behind it and behind all sections before
it in the order of addresses.

Partial: the sections at the end have none, see `C56_tail_empty`. -/
theorem C56_no_holes_partial (syms : List ElfSym) (osecs osecs' : List OSec) (h : addSymbols (some syms) osecs = .ok osecs') :
    ∃ order, StableSort ISec.address false (osecs.flatMap (·.inputs)) order ∧
      All2 (SymsOf fun i l => ∃ pre post, order = pre ++ i :: post ∧
        ((∃ y ∈ syms, Sized y ∧ i.stop ≤ y.value ∧ ∀ q ∈ pre, q.stop ≤ y.value) → l ≠ [])) osecs osecs' := by
  have hne : osecs.flatMap (·.inputs) ≠ [] := by
    intro hne
    unfold addSymbols at h
    rw [hne] at h
    cases h
  obtain ⟨order, ys, ho, hy, ⟨hfit, os2, h2, hall⟩ | ⟨_, h2⟩⟩ := addSymbols_exact syms osecs hne
  · rw [h] at h2
    cases h2
    refine ⟨order, ho, hall.imp fun o _ o' hoo => hoo.imp ?_⟩
    rintro i _ l ⟨pre, post, e, rfl⟩
    refine ⟨pre, post, e, ?_⟩
    rintro ⟨y, hym, hsz, h1, h2⟩
    have hm : y ∈ ys := hy.perm.mem_iff.mpr (List.mem_filter.mpr ⟨hym, by simpa using hsz⟩)
    unfold symsAt
    simp only []
    split
    · simp
    · rename_i hn
      intro hmap
      exact hn ⟨List.map_eq_nil_iff.mp hmap, y, hm, h2, h1⟩
  · rw [h] at h2; cases h2

def exIn (n : String) (a s : Int) : ISec :=
  { name := str n, address := a, size := s, archive := str "a", objectFile := str "o", fill := 0, symbols := [] }
def exOut : OSec := { name := str ".text", address := 100, size := 40, inputs := [exIn ".text.f" 100 10, exIn ".lit" 110 10, exIn ".text.g" 120 10, exIn ".end" 130 10] }
def exFunc (n : String) (a s : Int) : ElfSym := { name := str n, value := a, size := s, type := 2 }

/-- Against C56: the last input section has no symbol, while the one in the middle has itself. -/
theorem C56_tail_empty :
    (addSymbols (some [exFunc "f" 100 10, exFunc "g" 120 8]) [exOut]).toOption.map (fun l => l.map fun o => o.inputs.map fun i => i.symbols) =
      some [[[symEntry (exFunc "f" 100 10)], [ownEntry (exIn ".lit" 110 10)], [symEntry (exFunc "g" 120 8)], []]] := by
  decide

/-- Without ELF every input section has itself as symbol. -/
theorem C56_no_elf (osecs : List OSec) :
    ∃ osecs', addSymbols none osecs = .ok osecs' ∧ All2 (SymsOf fun i l => l = [ownEntry i]) osecs osecs' := by
  refine ⟨_, rfl, ?_⟩
  apply all2_map
  intro o _
  refine ⟨rfl, all2_map _ _ _ fun i _ => ?_⟩
  exact ⟨rfl, rfl⟩

end EspSize
