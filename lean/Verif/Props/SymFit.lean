import Verif.Spec.SymFit
import Verif.Props.Pieces
import Verif.Props.RunTotals
/-! # C75: the symbols of an object file fit in its size -/
namespace EspSize

/-- Symbols in the order of addresses, one behind the other, in `[lo, hi]`. -/
def SymChain (lo hi : Int) : List MSym → Prop
  | [] => lo ≤ hi
  | y :: ys => lo ≤ y.address ∧ 0 ≤ y.size ∧ SymChain (y.address + y.size) hi ys

theorem SymChain.le {lo hi : Int} {ys : List MSym} (h : SymChain lo hi ys) : lo ≤ hi := by
  induction ys generalizing lo with
  | nil => exact h
  | cons y ys ih => have := ih h.2.2; have := h.1; have := h.2.1; omega

theorem SymChain.inside {lo hi : Int} {ys : List MSym} (h : SymChain lo hi ys) :
    ∀ y ∈ ys, 0 ≤ y.size ∧ lo ≤ y.address ∧ y.address + y.size ≤ hi := by
  induction ys generalizing lo with
  | nil => intro y hy; cases hy
  | cons z ys ih =>
    intro y hy
    obtain ⟨h1, h2, h3⟩ := h
    rcases List.mem_cons.mp hy with rfl | hy
    · exact ⟨h2, h1, h3.le⟩
    · obtain ⟨a, b, c⟩ := ih h3 y hy
      exact ⟨a, by omega, c⟩

theorem SymChain.overlap {lo hi : Int} {ys : List MSym} (h : SymChain lo hi ys) (a b : Int) :
    sumBy (fun y => overlap a b y.address (y.address + y.size)) ys ≤ overlap a b lo hi := by
  induction ys generalizing lo with
  | nil => simp [EspSize.overlap]; omega
  | cons y ys ih =>
    obtain ⟨h1, h2, h3⟩ := h
    have := ih h3
    have := h3.le
    rw [sumBy_cons]
    unfold EspSize.overlap at *
    omega

theorem chain_of_sorted {lo hi : Int} {ys : List ElfSym} (hs : ys.Pairwise fun y z => y.value + y.size ≤ z.value)
    (hb : ∀ y ∈ ys, lo ≤ y.value ∧ 0 ≤ y.size ∧ y.value + y.size ≤ hi) (hlh : lo ≤ hi) : SymChain lo hi (ys.map symEntry) := by
  induction ys generalizing lo with
  | nil => exact hlh
  | cons y ys ih =>
    obtain ⟨h1, h2, h3⟩ := hb y (by simp)
    obtain ⟨h4, h5⟩ := List.pairwise_cons.mp hs
    refine ⟨h1, h2, ih h5 (fun z hz => ?_) h3⟩
    have := hb z (by simp [hz])
    exact ⟨h4 z hz, this.2⟩

theorem all2_and {α β : Type} {R S : α → β → Prop} {a : List α} {b : List β} (h : All2 R a b) (h' : All2 S a b) :
    All2 (fun x y => R x y ∧ S x y) a b := by
  induction a generalizing b with
  | nil => cases b with
    | nil => trivial
    | cons _ _ => exact h.elim
  | cons x a ih => cases b with
    | nil => exact h.elim
    | cons y b => exact ⟨⟨h.1, h'.1⟩, ih h.2 h'.2⟩

theorem all2_symsOf_and {R S : ISec → List MSym → Prop} {a b : List OSec} (h : All2 (SymsOf R) a b) (h' : All2 (SymsOf S) a b) :
    All2 (SymsOf fun i l => R i l ∧ S i l) a b := by
  refine (all2_and h h').imp fun o _ o' ho => ⟨ho.1.1, ?_⟩
  exact (all2_and ho.1.2 ho.2.2).imp fun i _ i' hi => ⟨hi.1.1, hi.1.2, hi.2.2⟩

/-- The symbols of every input section are one behind the other. -/
theorem addSymbols_chain {syms : List ElfSym} {osecs osecs' : List OSec} (hd : DisjointSyms syms)
    (h : addSymbols (some syms) osecs = .ok osecs') :
    All2 (SymsOf fun i l => 0 ≤ i.size → SymChain i.address i.stop l) osecs osecs' := by
  have hin := C22_inside syms osecs osecs' h
  have hne : osecs.flatMap (·.inputs) ≠ [] := by
    intro hne
    unfold addSymbols at h
    rw [hne] at h
    cases h
  obtain ⟨order, ys, _, hy, ⟨_, os2, h2, hall⟩ | ⟨_, h2⟩⟩ := addSymbols_exact syms osecs hne
  · rw [h] at h2
    cases h2
    have hsorted : ys.Pairwise fun y z => y.value + y.size ≤ z.value := by
      have h1 : ys.Pairwise fun y z => y.value ≤ z.value := by simpa using hy.sorted
      have h2 : ys.Pairwise fun y z => ∀ x, ¬ (y.value ≤ x ∧ x < y.value + y.size ∧ z.value ≤ x ∧ x < z.value + z.size) := by
        refine (hy.perm.pairwise_iff ?_).mpr hd.2
        intro a b hab x hx
        exact hab x ⟨hx.2.2.1, hx.2.2.2, hx.1, hx.2.1⟩
      have h3 : ∀ y ∈ ys, 0 < y.size := by
        intro y hym
        have hm := List.mem_filter.mp (hy.perm.mem_iff.mp hym)
        have h4 := hd.1 y hm.1
        have h5 : Sized y := by simpa using hm.2
        have := h5.2
        omega
      refine (h1.and h2).imp_of_mem ?_
      intro y z hy' hz' hyz
      have := hyz.2 z.value
      have := h3 z hz'
      have := hyz.1
      omega
    -- both descriptions of the symbols together
    have hboth : All2 (SymsOf fun i l => (l = [ownEntry i] ∨ ∀ x ∈ l, ∃ y ∈ syms, Sized y ∧ x = symEntry y ∧
        i.address ≤ y.value ∧ y.value + y.size ≤ i.stop) ∧ ∃ pre post, order = pre ++ i :: post ∧ l = symsAt ys pre i) osecs osecs' :=
      all2_symsOf_and hin hall
    refine hboth.imp fun o _ o' ho => ho.imp ?_
    rintro i _ l ⟨h1, pre, post, e, hl⟩ hsz
    by_cases hown : l = [ownEntry i]
    · rw [hown]
      refine ⟨Int.le_refl _, hsz, ?_⟩
      show i.address + i.size ≤ i.stop
      exact Int.le_refl _
    · unfold symsAt at hl
      simp only [] at hl
      split at hl
      · exact absurd hl hown
      · rw [hl]
        apply chain_of_sorted
        · exact hsorted.sublist List.filter_sublist
        · intro y hym
          have hmem := List.mem_filter.mp hym
          have hm := List.mem_filter.mp (hy.perm.mem_iff.mp hmem.1)
          rcases h1 with h1 | h1
          · exact absurd h1 hown
          · obtain ⟨z, _, _, hz, h2, h3⟩ := h1 (symEntry y) (by rw [hl]; exact List.mem_map_of_mem hym)
            have e1 : y.value = z.value := congrArg MSym.address hz
            have e2 : y.size = z.size := congrArg MSym.size hz
            have := hd.1 y hm.1
            omega
        · unfold ISec.stop; omega
  · rw [h] at h2; cases h2

theorem symbolStep_chain {ls : Bool} {elf : Option ElfData} {kept ws : List OSec} (hd : ∀ x, elf = some x → DisjointSyms x.syms)
    (h : symbolStep ls elf kept = .ok ws) : All2 (SymsOf fun i l => 0 ≤ i.size → SymChain i.address i.stop l) kept ws := by
  unfold symbolStep at h
  split at h
  · cases elf with
    | none =>
      obtain ⟨os, h1, h2⟩ := C56_no_elf kept
      simp only [Option.map_none] at h
      rw [h] at h1
      cases h1
      refine h2.imp fun o _ o' ho => ho.imp ?_
      rintro i _ l rfl hi
      exact ⟨Int.le_refl _, hi, Int.le_refl _⟩
    | some e => exact addSymbols_chain (hd e rfl) h
  · cases h
    unfold emptySymbols
    refine all2_map _ _ _ fun o _ => ⟨rfl, all2_map _ _ _ fun i _ => ⟨rfl, ?_⟩⟩
    intro hi
    show i.address ≤ i.stop
    unfold ISec.stop; omega

/-- The symbols of a part of an output section, per object file, are not larger than the object file. -/
theorem part_symbols_le {s p : OSec} (hch : ∀ i ∈ s.inputs, SymChain i.address i.stop i.symbols)
    (hsize : ∀ P, inputSum P ISec.size p = sumBy (fun i => if P i.archive i.objectFile i.name then
          overlap p.address (p.address + p.size) i.address (i.address + i.size) else 0) s.inputs)
    (hsym : ∀ P, symbolSum P p = sumBy (fun i => sumBy (fun y => if P i.archive i.objectFile y.name then
          overlap p.address (p.address + p.size) y.address (y.address + y.size) else 0) i.symbols) s.inputs) (a o : Str) :
    symbolSum (fun x y _ => decide (x = a ∧ y = o)) p ≤ inputSum (fun x y _ => decide (x = a ∧ y = o)) ISec.size p := by
  rw [hsize, hsym]
  apply sumBy_le
  intro i hi
  by_cases hc : i.archive = a ∧ i.objectFile = o
  · simp only [hc, and_self, decide_true, if_true]
    exact (hch i hi).overlap _ _
  · simp only [hc, decide_false, Bool.false_eq_true, if_false]
    rw [sumBy_zero fun _ _ => rfl]
    exact Int.le_refl _

/-- **C75** the symbols of every object file in the map returned by `get` add up to at most the size of the object file,
if no two functions or objects of the ELF file overlap. -/
theorem C75_symbols_fit_partial (n : Nat) (w : World) (fn : Str) (ls : Bool) (ud : Option Bool) (mf : Option MapFile)
    (e : Option ElfData) (m : MemMap) (l : GetIn) (h : getMap n w fn ls ud mf e = some (.ok m)) (hl : load w fn ud mf = .ok l)
    (hin : ∀ s ∈ l.sections, InputsInside s) (hd : ∀ x, l.elf = some x → DisjointSyms x.syms)
    (t s a o : Str) (ox : Obj) (hox : getObj m t s a o = some ox) : sumBy (fun y => y.2.size) ox.kids ≤ ox.size := by
  obtain ⟨l', regs, parts, goes, hl', hp, hwf, _, _, _, hsec, _⟩ := C58_accounted n w fn ls ud mf e m h
  rw [hl] at hl'
  cases hl'
  obtain ⟨ar, har, hox⟩ := Option.bind_eq_some_iff.mp hox
  obtain ⟨x, hx, har⟩ := Option.bind_eq_some_iff.mp har
  obtain ⟨_, p, hpp, rfl, _⟩ := hsec t s x hx
  obtain ⟨osecs, h1, rfl⟩ := hp.sections
  obtain ⟨q, hq, hok, hsy⟩ := (all2_and (C23_archives (splitMapSections osecs regs)) (C55_symbols_partial (splitMapSections osecs regs))).mem_right hpp
  -- the part and its section
  obtain ⟨partsOf, hparts, hplaced⟩ := C74_placed osecs regs
  rw [hparts] at hq
  obtain ⟨s', hs', hq⟩ := List.mem_flatMap.mp hq
  obtain ⟨o', ho', hso⟩ := (symbolStep_chain hd h1).mem_right (List.mem_reverse.mp hs')
  rw [C20_filter] at ho'
  obtain ⟨s0, hs0, rfl⟩ := List.mem_map.mp ho'
  have hin0 := hin s0 (List.mem_filter.mp hs0).1
  have hinside : InputsInside s' := by
    intro j hj
    obtain ⟨k, hk, hkj⟩ := hso.2.mem_right hj
    have := hin0 k (List.mem_filter.mp hk).1
    rw [hso.1, hkj.1]
    exact this
  have hchain : ∀ i ∈ s'.inputs, SymChain i.address i.stop i.symbols := by
    intro j hj
    obtain ⟨k, hk, hkj⟩ := hso.2.mem_right hj
    have h2 := hin0 k (List.mem_filter.mp hk).1
    have h3 := hkj.2 h2.1
    rw [hkj.1]
    exact h3
  have hsyms : ∀ i ∈ s'.inputs, SymsInside i := by
    intro i hi y hy
    have h2 := (hchain i hi).inside y hy
    have h3 := hinside i hi
    unfold ISecIn at h3
    unfold ISec.stop at h2
    omega
  obtain ⟨hpin, hsize, hsym⟩ := hplaced s' hinside hsyms q hq
  have hle := part_symbols_le hchain hsize hsym a o
  -- the object file
  obtain ⟨_, _, _, _, _, hob⟩ := hok.arch a ar har
  obtain ⟨_, _, hosz⟩ := hob o ox hox
  obtain ⟨hk1, hk2, _⟩ := hsy a o ar ox har hox
  have hwfo : KeysNodup ox.kids := ((hok.wf.2 _ (mem_of_dget har)).2 _ (mem_of_dget hox)).1
  have e1 : ox.size = inputSum (fun x y _ => decide (x = a ∧ y = o)) ISec.size q := by
    rw [hosz]
    unfold inSize inputSum
    rw [sumBy_filter]
  have e2 : symbolSum (fun x y _ => decide (x = a ∧ y = o)) q = sumBy MSym.size (symsOf q a o) := by
    unfold symbolSum symsOf
    rw [sumBy_flatMap, sumBy_filter]
    apply sumBy_congr
    intro i _
    by_cases hc : i.archive = a ∧ i.objectFile = o
    · simp only [hc, and_self, decide_true, if_true]
    · simp only [hc, decide_false, Bool.false_eq_true, if_false]
      exact sumBy_zero fun _ _ => rfl
  have hnn : ∀ z ∈ symsOf q a o, 0 ≤ z.size := by
    intro z hz
    obtain ⟨j, hj, hz⟩ := List.mem_flatMap.mp hz
    exact ((hpin j (List.mem_filter.mp hj).1).2 z hz).1
  have e3 : sumBy (fun y => y.2.size) ox.kids ≤ sumBy MSym.size (symsOf q a o) := by
    rw [← sum_by_key ox.kids hwfo MSym.name MSym.size (symsOf q a o)
      (fun z hz _ => dget_isSome.mp ((hk1 z.name).mpr ⟨z, hz, rfl⟩))]
    apply sumBy_le
    intro y hy
    obtain ⟨_, _, pre, z, post, ez, hzn, hzs, _⟩ := hk2 y.1 y.2 (dget_of_mem hwfo hy)
    rw [ez] at hnn ⊢
    rw [sumBy_append, sumBy_cons, hzs, if_pos hzn]
    have g1 : 0 ≤ sumBy (fun i : MSym => if i.name = y.1 then i.size else 0) pre :=
      sumBy_nonneg fun i hi => by have := hnn i (by simp [hi]); split <;> omega
    have g2 : 0 ≤ sumBy (fun i : MSym => if i.name = y.1 then i.size else 0) post :=
      sumBy_nonneg fun i hi => by have := hnn i (by simp [hi]); split <;> omega
    omega
  omega

/-! ### Examples -/

/-- An ELF file with the given symbols, beside the map file of `exWorld`. -/
def exSymWorld (syms : List ElfSym) : World :=
  { exWorld with
    json := fun p => if p = str "/b/project_description.json" then
      some { appElf := some (str "x.elf"), target := some (str "espx"), build := none, comps := none } else none
    elf := fun p => if p = str "/b/x.elf" then
      some (.ok { shdrs := [{ name := str ".iram0.text", type := 1, size := 32, flags := 2 }], syms := syms, cuSyms := .ok [] }) else none }

def exObjSyms (syms : List ElfSym) : Option (Int × List (Str × Int)) :=
  match getMap 3 (exSymWorld syms) (str "/b/x.map") true none none none with
  | some (.ok m) => (getObj m (str "IRAM") (str ".iram0.text") (str "lib/liba.a") (str "a.o")).map fun o =>
    (o.size, o.kids.map fun y => (y.1, y.2.size))
  | _ => none

/-- Violation: two names of one function are both counted, so that the symbols are larger than the object file. -/
theorem C75_alias_twice :
    exObjSyms [exFunc "f" 0x100 0x18, exFunc "f_alias" 0x100 0x18] = some (24, [(str "f()", 24), (str "f_alias()", 24)]) := by
  decide +kernel

example : exObjSyms [exFunc "f" 0x100 0x10, exFunc "g" 0x110 4] = some (24, [(str "f()", 16), (str "g()", 4)]) := by
  decide +kernel

end EspSize
