import Verif.Spec.Sections
import Verif.Proofs.Dict
/-! # C19: splitting of output sections -/
namespace EspSize

theorem splitStack_none {regions : List SReg} {s : OSec} {rest : List OSec} (h : splitSection regions s = none) :
    splitStack regions (s :: rest) = s :: splitStack regions rest := by
  rw [splitStack]
  split
  · rfl
  · rename_i h'; rw [h] at h'; cases h'

theorem splitStack_some {regions : List SReg} {s a b : OSec} {rest : List OSec}
    (h : splitSection regions s = some (a, b)) :
    splitStack regions (s :: rest) = a :: splitStack regions (b :: rest) := by
  rw [splitStack]
  split
  · rename_i h'; rw [h] at h'; cases h'
  · rename_i h'; rw [h] at h'; cases h'; rfl

theorem splitStack_append (regions : List SReg) (n : Nat) : ∀ (s : OSec) (rest : List OSec), s.size.toNat ≤ n →
    splitStack regions (s :: rest) = splitStack regions [s] ++ splitStack regions rest := by
  induction n with
  | zero =>
    intro s rest hn
    cases h : splitSection regions s with
    | none => rw [splitStack_none h, splitStack_none h, splitStack]; rfl
    | some ab =>
      obtain ⟨a, b⟩ := ab
      have := splitSection_decreases h; omega
  | succ n ih =>
    intro s rest hn
    cases h : splitSection regions s with
    | none => rw [splitStack_none h, splitStack_none h, splitStack]; rfl
    | some ab =>
      obtain ⟨a, b⟩ := ab
      have := splitSection_decreases h
      rw [splitStack_some h, splitStack_some h, ih b rest (by omega)]; rfl

theorem splitStack_flatMap (regions : List SReg) (l : List OSec) :
    splitStack regions l = l.flatMap fun s => splitStack regions [s] := by
  induction l with
  | nil => rw [splitStack]; rfl
  | cons s l ih => rw [splitStack_append regions _ s l (Nat.le_refl _), ih]; rfl

theorem splitSection_none {regions : List SReg} {s : OSec} (h : splitSection regions s = none) :
    PartPlaced regions s := by
  unfold splitSection at h
  split at h
  · rename_i hf
    right
    intro r hr hin
    have := List.find?_eq_none.mp hf r hr
    simp only [Bool.not_eq_true', Bool.not_eq_false, Bool.or_eq_true, decide_eq_true_eq] at this
    unfold InRegion at hin
    omega
  · rename_i r hf
    have hm := List.mem_of_find?_eq_some hf
    have hr := List.find?_some hf
    simp only [Bool.not_eq_true', Bool.or_eq_false_iff, decide_eq_false_iff_not] at hr
    split at h
    · rename_i hfit
      exact .inl ⟨r, hm, ⟨by omega, by omega⟩, hfit⟩
    · cases h

theorem splitSection_some {regions : List SReg} {s a b : OSec} (h : splitSection regions s = some (a, b)) :
    ∃ r ∈ regions, ∃ cut, cut = r.origin + r.length ∧ InRegion r s.address ∧ cut < s.address + s.size ∧
      a = { s with size := cut - s.address, inputs := (splitInputs cut s.inputs).1 } ∧
      b = { s with address := cut, size := s.size - (cut - s.address), inputs := (splitInputs cut s.inputs).2 } := by
  unfold splitSection at h
  split at h
  · cases h
  · rename_i r hf
    have hm := List.mem_of_find?_eq_some hf
    have hr := List.find?_some hf
    simp only [Bool.not_eq_true', Bool.or_eq_false_iff, decide_eq_false_iff_not] at hr
    split at h
    · cases h
    · cases h
      exact ⟨r, hm, _, rfl, ⟨by omega, by omega⟩, by omega, rfl, rfl⟩

theorem splitSyms_sum (cut : Int) (P : Str → Bool) (ys : List MSym) :
    sumBy (fun y => if P y.name then y.size else 0) (splitSyms cut ys).1 +
      sumBy (fun y => if P y.name then y.size else 0) (splitSyms cut ys).2 =
    sumBy (fun y => if P y.name then y.size else 0) ys := by
  induction ys with
  | nil => rfl
  | cons y ys ih =>
    simp only [splitSyms]
    split
    · simp only [sumBy_cons]; omega
    · split
      · simp only [sumBy_cons]; omega
      · simp only [sumBy_cons]
        split <;> omega

theorem splitInputs_sum (cut : Int) (P : Str → Str → Str → Bool) (f : ISec → Int)
    (hf : ∀ i, f (splitInput cut i).1 + f (splitInput cut i).2 = f i) (is : List ISec) :
    sumBy (fun i => if P i.archive i.objectFile i.name then f i else 0) (splitInputs cut is).1 +
      sumBy (fun i => if P i.archive i.objectFile i.name then f i else 0) (splitInputs cut is).2 =
    sumBy (fun i => if P i.archive i.objectFile i.name then f i else 0) is := by
  induction is with
  | nil => rfl
  | cons i is ih =>
    simp only [splitInputs]
    split
    · simp only [sumBy_cons]; omega
    · split
      · simp only [sumBy_cons]; omega
      · simp only [sumBy_cons]
        have e1 : (splitInput cut i).1.archive = i.archive := rfl
        have e2 : (splitInput cut i).1.objectFile = i.objectFile := rfl
        have e3 : (splitInput cut i).1.name = i.name := rfl
        have e4 : (splitInput cut i).2.archive = i.archive := rfl
        have e5 : (splitInput cut i).2.objectFile = i.objectFile := rfl
        have e6 : (splitInput cut i).2.name = i.name := rfl
        rw [e1, e2, e3, e4, e5, e6]
        have := hf i
        split <;> omega

theorem splitInputs_symSum (cut : Int) (P : Str → Str → Str → Bool) (is : List ISec) :
    sumBy (fun i => sumBy (fun y => if P i.archive i.objectFile y.name then y.size else 0) i.symbols) (splitInputs cut is).1 +
      sumBy (fun i => sumBy (fun y => if P i.archive i.objectFile y.name then y.size else 0) i.symbols) (splitInputs cut is).2 =
    sumBy (fun i => sumBy (fun y => if P i.archive i.objectFile y.name then y.size else 0) i.symbols) is := by
  induction is with
  | nil => rfl
  | cons i is ih =>
    simp only [splitInputs]
    split
    · simp only [sumBy_cons]; omega
    · split
      · simp only [sumBy_cons]; omega
      · simp only [sumBy_cons]
        have := splitSyms_sum cut (P i.archive i.objectFile) i.symbols
        have e1 : (splitInput cut i).1.archive = i.archive := rfl
        have e2 : (splitInput cut i).1.objectFile = i.objectFile := rfl
        have e4 : (splitInput cut i).2.archive = i.archive := rfl
        have e5 : (splitInput cut i).2.objectFile = i.objectFile := rfl
        have e7 : (splitInput cut i).1.symbols = (splitSyms cut i.symbols).1 := rfl
        have e8 : (splitInput cut i).2.symbols = (splitSyms cut i.symbols).2 := rfl
        rw [e1, e2, e4, e5, e7, e8]
        omega

theorem splitInputs_inside {cut lo hi : Int} {is : List ISec}
    (h : ∀ i ∈ is, ISecIn lo hi i) :
    (∀ i ∈ (splitInputs cut is).1, ISecIn lo cut i) ∧ (∀ i ∈ (splitInputs cut is).2, ISecIn cut hi i) := by
  induction is with
  | nil => simp [splitInputs]
  | cons i is ih =>
    obtain ⟨ih1, ih2⟩ := ih fun x hx => h x (by simp [hx])
    obtain ⟨h1, h2, h3, h4⟩ := h i (by simp)
    simp only [splitInputs]
    split
    · rename_i hle
      refine ⟨fun x hx => ?_, ih2⟩
      rcases List.mem_cons.mp hx with rfl | hx
      · exact ⟨h1, h2, h3, hle⟩
      · exact ih1 x hx
    · rename_i hle
      split
      · rename_i hgt
        refine ⟨ih1, fun x hx => ?_⟩
        rcases List.mem_cons.mp hx with rfl | hx
        · exact ⟨h1, h2, by omega, h4⟩
        · exact ih2 x hx
      · rename_i hgt
        constructor
        · intro x hx
          rcases List.mem_cons.mp hx with rfl | hx
          · simp only [ISecIn, splitInput]; omega
          · exact ih1 x hx
        · intro x hx
          rcases List.mem_cons.mp hx with rfl | hx
          · simp only [ISecIn, splitInput]; omega
          · exact ih2 x hx

/-- What becomes of one output section. -/
structure SplitsInto (regions : List SReg) (s : OSec) (parts : List OSec) : Prop where
  nonempty : parts ≠ []
  tiles : SecTiles s.name s.address (s.address + s.size) parts
  positive : 0 < s.size → ∀ p ∈ parts, 0 < p.size
  placed : ∀ p ∈ parts, PartPlaced regions p
  sizes : ∀ P, sumBy (inputSum P ISec.size) parts = inputSum P ISec.size s
  fills : ∀ P, sumBy (inputSum P ISec.fill) parts = inputSum P ISec.fill s
  symbols : ∀ P, sumBy (symbolSum P) parts = symbolSum P s
  inside : InputsInside s → ∀ p ∈ parts, InputsInside p

theorem splitsInto_stack (regions : List SReg) (n : Nat) : ∀ s : OSec, s.size.toNat ≤ n →
    SplitsInto regions s (splitStack regions [s]) := by
  have base : ∀ s : OSec, splitSection regions s = none → SplitsInto regions s (splitStack regions [s]) := by
    intro s h
    rw [splitStack_none h, splitStack]
    exact { nonempty := by simp, tiles := ⟨rfl, rfl, rfl⟩, positive := by simp,
            placed := by simpa using splitSection_none h, sizes := by simp, fills := by simp,
            symbols := by simp, inside := by simp }
  induction n with
  | zero =>
    intro s hn
    cases h : splitSection regions s with
    | none => exact base s h
    | some ab =>
      obtain ⟨a, b⟩ := ab
      have := splitSection_decreases h; omega
  | succ n ih =>
    intro s hn
    cases h : splitSection regions s with
    | none => exact base s h
    | some ab =>
      obtain ⟨a, b⟩ := ab
      have hdec := splitSection_decreases h
      rw [splitStack_some h]
      have hb := ih b (by omega)
      obtain ⟨r, hr, cut, hcut, hin, hlt, rfl, rfl⟩ := splitSection_some h
      unfold InRegion at hin
      exact
        { nonempty := by simp
          tiles := by
            refine ⟨rfl, rfl, ?_⟩
            have := hb.tiles
            simp only [] at this ⊢
            rw [show s.address + (cut - s.address) = cut by omega]
            rwa [show cut + (s.size - (cut - s.address)) = s.address + s.size by omega] at this
          positive := by
            intro _ p hp
            rcases List.mem_cons.mp hp with rfl | hp
            · simp only []; omega
            · exact hb.positive (by simp only []; omega) p hp
          placed := by
            intro p hp
            rcases List.mem_cons.mp hp with rfl | hp
            · exact .inl ⟨r, hr, hin, by simp only []; omega⟩
            · exact hb.placed p hp
          sizes := by
            intro P
            rw [sumBy_cons, hb.sizes P]
            exact splitInputs_sum cut P ISec.size (fun i => by simp only [splitInput]; omega) s.inputs
          fills := by
            intro P
            rw [sumBy_cons, hb.fills P]
            exact splitInputs_sum cut P ISec.fill (fun i => by simp only [splitInput]; omega) s.inputs
          symbols := by
            intro P
            rw [sumBy_cons, hb.symbols P]
            exact splitInputs_symSum cut P s.inputs
          inside := by
            intro hi p hp
            obtain ⟨h1, h2⟩ := splitInputs_inside (cut := cut) hi
            rcases List.mem_cons.mp hp with rfl | hp
            · intro i hi
              have := h1 i hi
              simp only [] at this ⊢
              rwa [show s.address + (cut - s.address) = cut by omega]
            · refine hb.inside ?_ p hp
              intro i hi
              have := h2 i hi
              simp only [] at this ⊢
              rwa [show cut + (s.size - (cut - s.address)) = s.address + s.size by omega] }

/-- **C19** `_split_map_sections` ends for all inputs (it is a total function here) and replaces each
output section, from the last to the first, by adjacent parts that conserve everything. -/
theorem C19_split_sections (sections : List OSec) (regions : List SReg) :
    ∃ parts : OSec → List OSec, splitMapSections sections regions = sections.reverse.flatMap parts ∧
      ∀ s, SplitsInto regions s (parts s) :=
  ⟨fun s => splitStack regions [s], splitStack_flatMap regions _,
    fun s => splitsInto_stack regions _ s (Nat.le_refl _)⟩

theorem secTiles_sum {name : Str} {a b : Int} {l : List OSec} (h : SecTiles name a b l) :
    sumBy (fun s => s.size) l = b - a := by
  induction l generalizing a with
  | nil => have : a = b := h; simp [this]
  | cons s l ih => rw [sumBy_cons, ih h.2.2]; omega

/-- **C19** (total) the sizes of the parts add up to the sizes of the output sections. -/
theorem C19_total (sections : List OSec) (regions : List SReg) :
    sumBy (fun s => s.size) (splitMapSections sections regions) = sumBy (fun s => s.size) sections := by
  obtain ⟨parts, h1, h2⟩ := C19_split_sections sections regions
  rw [h1, sumBy_flatMap, sumBy_perm (List.reverse_perm sections)]
  apply sumBy_congr
  intro s _
  rw [secTiles_sum (h2 s).tiles]; omega

/-- A section over two regions, cut in the middle of an input section and of a symbol. -/
def exOSec : OSec :=
  { name := str ".dram0.data", address := 0, size := 40
    inputs := [
      { name := str ".data.a", address := 0, size := 8, fill := 0, archive := str "liba.a", objectFile := str "a.o",
        symbols := [⟨str "a", 0, 8⟩] },
      { name := str ".data.b", address := 8, size := 30, fill := 2, archive := str "libb.a", objectFile := str "b.o",
        symbols := [⟨str "b0", 8, 4⟩, ⟨str "b1", 12, 20⟩] }] }
def exSRegs : List SReg :=
  [⟨str "r0", 0, 16, str "rw", ⟨str "DRAM", 0, 16, 0⟩⟩, ⟨str "r1", 16, 100, str "rw", ⟨str "DIRAM", 16, 100, 0⟩⟩]

example : InputsInside exOSec := by decide
example : (splitSection exSRegs exOSec).map (fun x => (x.1.size, x.2.address, x.2.size)) = some (16, 16, 24) ∧
    (splitInputs 16 exOSec.inputs).1.map (fun i => (i.name, i.address, i.size, i.fill)) =
      [(str ".data.a", 0, 8, 0), (str ".data.b", 8, 8, 0)] ∧
    (splitInputs 16 exOSec.inputs).2.map (fun i => (i.name, i.address, i.size, i.fill)) =
      [(str ".data.b", 16, 22, 2)] ∧
    (splitInputs 16 exOSec.inputs).2.map (fun i => i.symbols) = [[⟨str "b1", 16, 16⟩]] := by decide

end EspSize
