import Verif.Props.SymFit
/-! # C76: sizes nest in the map returned by `get` -/
namespace EspSize

theorem chain_of_pairwise {lo hi : Int} {ys : List MSym} (hs : ys.Pairwise fun y z => y.address + y.size ≤ z.address)
    (hb : ∀ y ∈ ys, lo ≤ y.address ∧ 0 ≤ y.size ∧ y.address + y.size ≤ hi) (hlh : lo ≤ hi) : SymChain lo hi ys := by
  induction ys generalizing lo with
  | nil => exact hlh
  | cons y ys ih =>
    obtain ⟨h1, h2, h3⟩ := hb y (by simp)
    obtain ⟨h4, h5⟩ := List.pairwise_cons.mp hs
    refine ⟨h1, h2, ih h5 (fun z hz => ?_) h3⟩
    have := hb z (by simp [hz])
    exact ⟨h4 z hz, this.2⟩

/-- Disjoint input sections take no more of a range than there is. -/
theorem disjoint_overlap {lo hi : Int} {is : List ISec} (hd : is.Pairwise DisjointISec) (hin : ∀ i ∈ is, ISecIn lo hi i)
    (hsz : ∀ i ∈ is, i.size ≠ 0) (hlh : lo ≤ hi) {a b : Int} (hab : a ≤ b) :
    sumBy (fun i => overlap a b i.address (i.address + i.size)) is ≤ b - a := by
  have hst := sortedBy_stable ISec.address false is
  generalize sortedBy ISec.address false is = js at hst
  rw [← sumBy_perm hst.perm]
  have hj : ∀ j ∈ js, ISecIn lo hi j ∧ j.size ≠ 0 := fun j hj => by
    have := hst.perm.mem_iff.mp hj
    exact ⟨hin j this, hsz j this⟩
  have hp : js.Pairwise fun i j => i.address + i.size ≤ j.address := by
    have h1 : js.Pairwise fun y z => y.address ≤ z.address := by simpa using hst.sorted
    have h2 : js.Pairwise DisjointISec := by
      refine (hst.perm.pairwise_iff ?_).mpr hd
      intro a b hab x hx
      exact hab x ⟨hx.2.2.1, hx.2.2.2, hx.1, hx.2.1⟩
    refine (h1.and h2).imp_of_mem ?_
    intro y z hy hz hyz
    have h3 := hyz.2 z.address
    have h4 := hj z hz
    have h5 := hyz.1
    unfold ISecIn at h4
    unfold ISec.stop at h3
    omega
  have hc : SymChain lo hi (js.map ownEntry) := by
    apply chain_of_pairwise
    · exact List.pairwise_map.mpr hp
    · intro y hy
      obtain ⟨j, hjm, rfl⟩ := List.mem_map.mp hy
      have h4 := (hj j hjm).1
      unfold ISecIn at h4
      simp only [ownEntry]
      omega
    · exact hlh
  have := hc.overlap a b
  rw [sumBy_map] at this
  refine Int.le_trans this ?_
  unfold overlap
  omega

theorem all2_pairwise {α β : Type} {R : α → β → Prop} {S : α → α → Prop} {T : β → β → Prop}
    (hRST : ∀ a b a' b', R a b → R a' b' → S a a' → T b b') {l : List α} {l' : List β} (h : All2 R l l') (hs : l.Pairwise S) :
    l'.Pairwise T := by
  induction l generalizing l' with
  | nil => cases l' with
    | nil => exact .nil
    | cons _ _ => exact h.elim
  | cons x l ih => cases l' with
    | nil => exact h.elim
    | cons y l' =>
      obtain ⟨h1, h2⟩ := List.pairwise_cons.mp hs
      refine List.pairwise_cons.mpr ⟨?_, ih h.2 h2⟩
      intro z hz
      obtain ⟨w, hw, hr⟩ := All2.mem_right h.2 hz
      exact hRST _ _ _ _ h.1 hr (h1 w hw)

theorem symbolStep_inside {ls : Bool} {elf : Option ElfData} {kept ws : List OSec} (hd : ∀ x, elf = some x → ∀ y ∈ x.syms, 0 ≤ y.size)
    (h : symbolStep ls elf kept = .ok ws) :
    All2 (SymsOf fun i l => 0 ≤ i.size → ∀ y ∈ l, 0 ≤ y.size ∧ i.address ≤ y.address ∧ y.address + y.size ≤ i.stop) kept ws := by
  unfold symbolStep at h
  split at h
  · cases elf with
    | none =>
      obtain ⟨os, h1, h2⟩ := C56_no_elf kept
      simp only [Option.map_none] at h
      rw [h] at h1
      cases h1
      refine h2.imp fun o _ o' ho => ho.imp ?_
      rintro i _ l rfl hi y hy
      cases List.mem_singleton.mp hy
      exact ⟨hi, Int.le_refl _, Int.le_refl _⟩
    | some e =>
      refine (C22_inside e.syms kept ws h).imp fun o _ o' ho => ho.imp ?_
      rintro i _ l (rfl | hl) hi y hy
      · cases List.mem_singleton.mp hy
        exact ⟨hi, Int.le_refl _, Int.le_refl _⟩
      · obtain ⟨z, hz, _, rfl, h2, h3⟩ := hl y hy
        exact ⟨hd e rfl z hz, h2, h3⟩
  · cases h
    unfold emptySymbols
    refine all2_map _ _ _ fun o _ => ⟨rfl, all2_map _ _ _ fun i _ => ⟨rfl, ?_⟩⟩
    intro hi y hy
    cases hy

/-- The archives of a part fit into it. -/
theorem parts_room {n : Nat} {ls : Bool} {l : GetIn} {regs : List SReg} {parts : List MSec} (hp : PartsOf n ls l regs parts)
    (hin : ∀ s ∈ l.sections, InputsInside s ∧ s.inputs.Pairwise DisjointISec ∧ 0 ≤ s.size)
    (hd : ∀ x, l.elf = some x → ∀ y ∈ x.syms, 0 ≤ y.size) {p : MSec} (hpp : p ∈ parts) :
    sumBy (fun a => a.2.size) p.archives ≤ p.size ∧ 0 ≤ p.size ∧
      ∀ a ar, dget p.archives a = some ar → ar.size = sumBy (fun o => o.2.size) ar.kids := by
  obtain ⟨osecs, h1, rfl⟩ := hp.sections
  obtain ⟨q, hq, hok⟩ := (C23_archives (splitMapSections osecs regs)).mem_right hpp
  obtain ⟨partsOf, hparts, hplaced⟩ := C74_placed osecs regs
  obtain ⟨s1, hs1, hfrom⟩ := splitMapSections_from _ _ hq
  rw [hparts] at hq
  obtain ⟨s', hs', hq⟩ := List.mem_flatMap.mp hq
  obtain ⟨o', ho', hso⟩ := (symbolStep_inside hd h1).mem_right (List.mem_reverse.mp hs')
  obtain ⟨o1, ho1, hso1⟩ := (symbolStep_inside hd h1).mem_right hs1
  rw [C20_filter] at ho' ho1
  obtain ⟨s0, hs0, rfl⟩ := List.mem_map.mp ho'
  obtain ⟨s2, hs2, rfl⟩ := List.mem_map.mp ho1
  obtain ⟨hin0, hdis, hpos⟩ := hin s0 (List.mem_filter.mp hs0).1
  have hinside : InputsInside s' := by
    intro j hj
    obtain ⟨k, hk, hkj⟩ := hso.2.mem_right hj
    have := hin0 k (List.mem_filter.mp hk).1
    rw [hso.1, hkj.1]
    exact this
  have hsyms : ∀ i ∈ s'.inputs, SymsInside i := by
    intro j hj y hy
    obtain ⟨k, hk, hkj⟩ := hso.2.mem_right hj
    have h2 := hin0 k (List.mem_filter.mp hk).1
    have h3 := hkj.2 h2.1 y hy
    have h4 : j.address = k.address ∧ j.size = k.size ∧ j.fill = k.fill := by rw [hkj.1]; exact ⟨rfl, rfl, rfl⟩
    unfold ISecIn at h2
    unfold ISec.stop at h3
    omega
  obtain ⟨_, hsize, _⟩ := hplaced s' hinside hsyms q hq
  have hqpos : 0 < q.size := by
    apply hfrom.positive
    have h5 : s2.size ≠ 0 := by
      have := (List.mem_filter.mp hs2).2
      simp only [decide_eq_true_eq] at this
      exact this.1
    have h6 := (hin s2 (List.mem_filter.mp hs2).1).2.2
    rw [symsOf_size hso1]
    show 0 < s2.size
    omega
  have hxs : p.size = q.size := hok.same.2.2.2
  refine ⟨?_, by omega, fun a ar har => (hok.arch a ar har).2.2.2.1⟩
  have htotal : sumBy (fun a => a.2.size) p.archives = inputSum (fun _ _ _ => true) ISec.size q := by
    refine hok.total.trans ?_
    unfold inputSum
    simp
  rw [htotal, hsize, hxs]
  simp only [if_true]
  have hsize' : s'.size = s0.size := by rw [symsOf_size hso]
  have := disjoint_overlap (lo := s'.address) (hi := s'.address + s'.size) (is := s'.inputs) ?_ hinside ?_ (by omega)
    (a := q.address) (b := q.address + q.size) (by omega)
  · omega
  · have hf : (s0.inputs.filter (·.size ≠ 0)).Pairwise DisjointISec := hdis.sublist List.filter_sublist
    exact all2_pairwise (fun i i' j j' h1 h2 hij => by
      unfold DisjointISec ISec.stop at hij ⊢
      rw [h1.1, h2.1]; exact hij) hso.2 hf
  · intro j hj
    obtain ⟨k, hk, hkj⟩ := hso.2.mem_right hj
    have := (List.mem_filter.mp hk).2
    rw [hkj.1]
    simpa using this

/-- **C76** in the map returned by `get`, if the input sections of each output section lie in it and do not overlap: the
archives of a section add up to at most the size of the section, and the object files of an archive to its size. -/
theorem C76_nested (n : Nat) (w : World) (fn : Str) (ls : Bool) (ud : Option Bool) (mf : Option MapFile)
    (e : Option ElfData) (m : MemMap) (l : GetIn) (h : getMap n w fn ls ud mf e = some (.ok m)) (hl : load w fn ud mf = .ok l)
    (hin : ∀ s ∈ l.sections, InputsInside s ∧ s.inputs.Pairwise DisjointISec ∧ 0 ≤ s.size) (t s : Str) (x : Sec) (hx : getSec m t s = some x)
    (hd : ∀ x, l.elf = some x → ∀ y ∈ x.syms, 0 ≤ y.size) :
    sumBy (fun a => a.2.size) x.kids ≤ x.size ∧ 0 ≤ x.size ∧
      ∀ a ar, dget x.kids a = some ar → ar.size = sumBy (fun o => o.2.size) ar.kids := by
  obtain ⟨l', regs, parts, goes, hl', hp, hwf, _, _, _, hsec, _⟩ := C58_accounted n w fn ls ud mf e m h
  rw [hl] at hl'
  cases hl'
  obtain ⟨_, p, hpp, rfl, _⟩ := hsec t s x hx
  exact parts_room hp hin hd hpp

theorem disjoint_of_stop {i j : ISec} (h : i.stop ≤ j.address) : DisjointISec i j := by
  intro x hx; unfold ISec.stop at *; omega

def exDisjoint : Except Err GetIn → Bool
  | .ok l => decide (∀ s ∈ l.sections, InputsInside s ∧ 0 ≤ s.size ∧ s.inputs.Pairwise fun i j => i.stop ≤ j.address)
  | _ => false

/-- The hypotheses hold of the example. -/
example : exDisjoint (load exWorld (str "/b/x.map") none none) = true := by decide +kernel

end EspSize
