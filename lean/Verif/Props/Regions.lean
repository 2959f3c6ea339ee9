import Verif.Proofs.Regions
import Verif.Spec.Sort
import Verif.Proofs.Dict
/-! # C14, C15: splitting of linker memory regions -/
namespace EspSize

theorem sum_tiles {a b : Int} {ps : List SReg} (h : Tiles a b ps) :
    sumBy (fun p => p.length) ps = b - a := by
  induction ps generalizing a with
  | nil => have : a = b := h; simp [this]
  | cons p ps ih =>
    rw [sumBy_cons, ih h.2]; omega

theorem firstGap_unique {types : Dict Str MemTypeInfo} {a b g g' : Int}
    (h : FirstGap types a b g) (h' : FirstGap types a b g') : g = g' := by
  obtain ⟨h1, h2, h3, h4⟩ := h
  obtain ⟨h1', h2', h3', h4'⟩ := h'
  rcases Int.lt_trichotomy g g' with h | h | h
  · exact absurd (h4' g h1 h) h3
  · exact h
  · exact absurd (h4 g' h1' h) h3'

/-- **C14** (one region) a region all of whose addresses belong to memory types is cut into adjacent,
non-empty pieces that start at its origin, end at its end, add up to its length, and each lie inside a
window of their memory type; nothing already produced changes. -/
theorem C14_covered_region (types : Dict Str MemTypeInfo) (r : Region) (acc : List SReg)
    (hl : 0 < r.length) (hc : FullyCovered types r) :
    ∃ ps, (∀ n, r.length.toNat ≤ n → splitLoop types r n ⟨r.origin, r.length, acc⟩ = some (acc ++ ps, false)) ∧
      (∀ p ∈ ps, PieceOk types r p) ∧ Tiles r.origin (r.origin + r.length) ps ∧
      sumBy (fun p => p.length) ps = r.length := by
  rcases splitLoop_spec types r r.length.toNat ⟨r.origin, r.length, acc⟩ hl (Nat.le_refl _) with
    ⟨ps, h1, h2, h3, h4⟩ | ⟨ps, g, ⟨h1, h2, h3, h4⟩, _⟩
  · refine ⟨ps, fun n hn => ?_, h2, h3, ?_⟩
    · have := splitLoop_mono h1 (n - r.length.toNat)
      rwa [show r.length.toNat + (n - r.length.toNat) = n by omega] at this
    · rw [sum_tiles h3]; simp only []; omega
  · exact absurd (hc g h1 h2) h3

/-- A region for which the loop never ends: part of it (of one of negative length, its origin) belongs to no memory
type, and its end is the end of a piece produced earlier. -/
def Stuck (types : Dict Str MemTypeInfo) (r : Region) (acc : List SReg) : Prop :=
  ((∃ g, FirstGap types r.origin (r.origin + r.length) g) ∨ (r.length < 0 ∧ ¬ CoveredAddr types r.origin)) ∧
  ∃ p ∈ acc, r.origin + r.length = p.origin + p.length

theorem splitLoop_zero (types : Dict Str MemTypeInfo) (r : Region) (acc : List SReg) (hl : r.length = 0) :
    (∃ p, splitLoop types r 1 ⟨r.origin, r.length, acc⟩ = some (acc ++ [p], false) ∧
      p.name = r.name ∧ p.attrs = r.attrs ∧ p.origin = r.origin ∧ p.length = 0 ∧
      ((∃ k, (k, p.type) ∈ types) ∨ ∃ q ∈ acc, q.type = p.type)) ∨
    (splitLoop types r 1 ⟨r.origin, r.length, acc⟩ = some (acc, true) ∧ ¬ CoveredAddr types r.origin) := by
  unfold splitLoop splitBody
  cases hf : findType types r.origin with
  | some tb =>
    obtain ⟨t, base⟩ := tb
    obtain ⟨key, hmem, hbase, w1, w2⟩ := findType_some hf
    left
    simp only []
    have hu : min r.length (t.length - (r.origin - base)) = 0 := by omega
    rw [hu]
    simp only [hl]
    exact ⟨_, rfl, rfl, rfl, rfl, rfl, .inl ⟨key, hmem⟩⟩
  | none =>
    simp only []
    cases hg : acc.find? (fun p => decide (r.origin + r.length = p.origin + p.length)) with
    | some p =>
      left
      simp only [if_pos hl]
      exact ⟨_, rfl, rfl, rfl, rfl, hl, .inr ⟨p, List.mem_of_find?_eq_some hg, rfl⟩⟩
    | none => right; exact ⟨rfl, findType_none.mp hf⟩

/-- **C15** (exact criterion, one region) the loop for a region ends unless the region is `Stuck`. -/
theorem C15_ends_iff (types : Dict Str MemTypeInfo) (r : Region) (acc : List SReg) :
    Ends types r acc ↔ ¬ Stuck types r acc := by
  by_cases hneg : r.length < 0
  · by_cases hc : CoveredAddr types r.origin
    · constructor
      · rintro _ ⟨⟨g, h1, h2, _⟩ | ⟨_, h⟩, _⟩
        · omega
        · exact h hc
      · intro _
        refine ⟨1, ?_⟩
        unfold splitLoop splitBody
        cases hf : findType types r.origin with
        | none => exact absurd hc (findType_none.mp hf)
        | some tb =>
          obtain ⟨t, base⟩ := tb
          obtain ⟨_, _, _, h1, h2⟩ := findType_some hf
          have h3 : min r.length (t.length - (r.origin - base)) = r.length := Int.min_eq_left (by omega)
          simp only [h3, Int.sub_self, if_true]
          rfl
    · by_cases hp : ∃ p ∈ acc, r.origin + r.length = p.origin + p.length
      · constructor
        · rintro ⟨n, hn⟩
          rw [splitLoop_stuck (s := ⟨r.origin, r.length, acc⟩) hc (by show r.length ≠ 0; omega) hp n] at hn
          cases hn
        · intro hs
          exact absurd ⟨.inr ⟨hneg, hc⟩, hp⟩ hs
      · refine ⟨fun _ hs => hp hs.2, fun _ => ⟨1, ?_⟩⟩
        unfold splitLoop splitBody
        simp only [findType_none.mpr hc]
        rw [show acc.find? (fun p => decide (r.origin + r.length = p.origin + p.length)) = none from
          List.find?_eq_none.mpr fun p h => by simpa using fun he => hp ⟨p, h, he⟩]
        rfl
  have hl : 0 ≤ r.length := by omega
  by_cases hz : r.length = 0
  · constructor
    · rintro _ ⟨⟨g, h1, h2, _⟩ | ⟨h, _⟩, _⟩ <;> omega
    · intro _
      refine ⟨1, ?_⟩
      rcases splitLoop_zero types r acc hz with ⟨p, h, _⟩ | ⟨h, _⟩ <;> rw [h] <;> rfl
  · rcases splitLoop_spec types r r.length.toNat ⟨r.origin, r.length, acc⟩ (by simp only []; omega) (Nat.le_refl _) with
      ⟨ps, h1, h2, h3, h4⟩ | ⟨ps, g, hg, h2, h3, h4⟩
    · constructor
      · rintro _ ⟨⟨g, g1, g2, g3, _⟩ | ⟨h, _⟩, _⟩
        · exact g3 (h4 g g1 g2)
        · omega
      · intro _; exact ⟨_, by rw [h1]; rfl⟩
    · by_cases hp : ∃ p ∈ acc, r.origin + r.length = p.origin + p.length
      · rw [if_pos hp] at h4
        constructor
        · rintro ⟨n, hn⟩; rw [h4 n] at hn; cases hn
        · intro hs; exact absurd ⟨.inl ⟨g, hg⟩, hp⟩ hs
      · rw [if_neg hp] at h4
        obtain ⟨n, hn⟩ := h4
        exact ⟨fun _ hs => hp hs.2, fun _ => ⟨n, by rw [hn]; rfl⟩⟩

theorem splitRegions_mono {types : Dict Str MemTypeInfo} {n : Nat} {rs : List Region} {acc : List SReg}
    {ws : List Str} {x} (h : splitMemoryRegions n types rs acc ws = some x) (k : Nat) :
    splitMemoryRegions (n + k) types rs acc ws = some x := by
  induction rs generalizing acc ws with
  | nil => exact h
  | cons r rs ih =>
    unfold splitMemoryRegions at h ⊢
    split at h
    · cases h
    · rename_i acc' w he
      rw [splitLoop_mono he k]
      exact ih h

/-- **C15** (exact criterion) `_split_memory_regions` ends if and only if no region is `Stuck` when
its turn comes. -/
theorem C15_terminates_iff (types : Dict Str MemTypeInfo) (regions : List Region) :
    (∃ n, (splitMemoryRegions n types regions [] []).isSome = true) ↔
      ∀ pre r post n out ws, regions = pre ++ r :: post →
        splitMemoryRegions n types pre [] [] = some (out, ws) → ¬ Stuck types r out := by
  suffices H : ∀ (regions : List Region) (acc : List SReg) (ws0 : List Str),
      ((∃ n, (splitMemoryRegions n types regions acc ws0).isSome = true) ↔
      ∀ pre r post n out ws, regions = pre ++ r :: post →
        splitMemoryRegions n types pre acc ws0 = some (out, ws) → ¬ Stuck types r out) from H regions [] []
  clear regions
  intro regions
  induction regions with
  | nil =>
    intro acc ws0
    constructor
    · intro _ pre r post n out ws h
      simp at h
    · intro _; exact ⟨0, rfl⟩
  | cons r rs ih =>
    intro acc ws0
    constructor
    · rintro ⟨n, hn⟩ pre r' post n' out ws he hpre
      unfold splitMemoryRegions at hn
      split at hn
      · cases hn
      · rename_i acc' w hloop
        cases pre with
        | nil =>
          simp only [List.nil_append, List.cons.injEq] at he
          obtain ⟨rfl, rfl⟩ := he
          simp only [splitMemoryRegions, Option.some.injEq, Prod.mk.injEq] at hpre
          obtain ⟨rfl, rfl⟩ := hpre
          exact (C15_ends_iff types r acc).mp ⟨n, by rw [hloop]; rfl⟩
        | cons q pre =>
          simp only [List.cons_append, List.cons.injEq] at he
          obtain ⟨rfl, rfl⟩ := he
          unfold splitMemoryRegions at hpre
          split at hpre
          · cases hpre
          · rename_i acc2 w2 hloop2
            have := splitLoop_det hloop hloop2
            cases this
            exact (ih _ _).mp ⟨n, hn⟩ pre r' post n' out ws rfl hpre
    · intro h
      have h0 := h [] r rs 0 acc ws0 rfl rfl
      obtain ⟨n, hn⟩ := (C15_ends_iff types r acc).mpr h0
      obtain ⟨⟨acc', w⟩, hn⟩ := Option.isSome_iff_exists.mp hn
      obtain ⟨n2, hn2⟩ := (ih acc' (if w then ws0 ++ [r.name] else ws0)).mpr (by
        intro pre r' post n' out ws he hpre
        apply h (r :: pre) r' post (n + n') out ws (by rw [he]; rfl)
        unfold splitMemoryRegions
        rw [splitLoop_mono hn n']
        simp only []
        rw [Nat.add_comm]
        exact splitRegions_mono hpre n)
      refine ⟨n + n2, ?_⟩
      obtain ⟨x, hx⟩ := Option.isSome_iff_exists.mp hn2
      unfold splitMemoryRegions
      rw [splitLoop_mono hn n2]
      simp only []
      rw [Nat.add_comm, splitRegions_mono hx n]
      rfl

/-- What becomes of one region: the pieces and whether the warning is given. -/
def RegionOk (types : Dict Str MemTypeInfo) (r : Region) (x : List SReg × Bool) : Prop :=
  (∀ p ∈ x.1, p.name = r.name ∧ p.attrs = r.attrs) ∧
  (0 < r.length → ∀ p ∈ x.1, PieceOk types r p) ∧
  (x.2 = false → Tiles r.origin (r.origin + r.length) x.1) ∧
  (x.2 = true → 0 < r.length → ∃ g, FirstGap types r.origin (r.origin + r.length) g ∧ Tiles r.origin g x.1) ∧
  (x.2 = true → r.length = 0 → x.1 = [] ∧ ¬ CoveredAddr types r.origin) ∧
  (r.length = 0 → ∀ p ∈ x.1, p.length = 0)

/-- The names of the regions warned about. -/
def warnedNames : List Region → List (List SReg × Bool) → List Str
  | r :: rs, x :: xs => if x.2 then r.name :: warnedNames rs xs else warnedNames rs xs
  | _, _ => []

theorem splitLoop_ok {types : Dict Str MemTypeInfo} {r : Region} {acc acc' : List SReg} {w : Bool} {n : Nat}
    (hl : 0 ≤ r.length) (h : splitLoop types r n ⟨r.origin, r.length, acc⟩ = some (acc', w)) :
    ∃ ps, acc' = acc ++ ps ∧ RegionOk types r (ps, w) := by
  by_cases hz : r.length = 0
  · rcases splitLoop_zero types r acc hz with ⟨p, h', h1, h2, h3, h4, _⟩ | ⟨h', h1⟩
    · cases splitLoop_det h h'
      refine ⟨[p], rfl, by simp [h1, h2], by omega, ?_, by simp, by simp, by simp [h4]⟩
      intro _
      exact ⟨h3, by show r.origin + p.length = r.origin + r.length; omega⟩
    · cases splitLoop_det h h'
      exact ⟨[], by simp, by simp, by simp, by simp, fun _ h => by omega, fun _ _ => ⟨rfl, h1⟩, by simp⟩
  · rcases splitLoop_spec types r r.length.toNat ⟨r.origin, r.length, acc⟩ (by simp only []; omega) (Nat.le_refl _) with
      ⟨ps, h1, h2, h3, h4⟩ | ⟨ps, g, hg, h2, h3, h4⟩
    · cases splitLoop_det h h1
      exact ⟨ps, rfl, fun p hp => ⟨(h2 p hp).1, (h2 p hp).2.1⟩, fun _ => h2, fun _ => h3, by simp, by simp, fun h => absurd h hz⟩
    · split at h4
      · rw [h4 n] at h; cases h
      · obtain ⟨n', hn⟩ := h4
        cases splitLoop_det h hn
        exact ⟨ps, rfl, fun p hp => ⟨(h2 p hp).1, (h2 p hp).2.1⟩, fun _ => h2, by simp,
          fun _ _ => ⟨g, hg, h3⟩, fun _ h => by omega, fun h => absurd h hz⟩

/-- **C14** when `_split_memory_regions` returns, its result is the concatenation, in order, of the
pieces of each region: adjacent, each inside a window of its memory type, from the origin to the end of
the region or, for a region that is warned about, to its first address outside all memory types. -/
theorem C14_split_regions (types : Dict Str MemTypeInfo) (regions : List Region)
    (hl : ∀ r ∈ regions, 0 ≤ r.length) (n : Nat) (out : List SReg) (ws : List Str)
    (h : splitMemoryRegions n types regions [] [] = some (out, ws)) :
    ∃ L, out = (L.map (·.1)).flatten ∧ ws = warnedNames regions L ∧ All2 (RegionOk types) regions L := by
  suffices H : ∀ (regions : List Region) (acc : List SReg) (ws0 : List Str), (∀ r ∈ regions, 0 ≤ r.length) →
      splitMemoryRegions n types regions acc ws0 = some (out, ws) →
      ∃ L, out = acc ++ (L.map (·.1)).flatten ∧ ws = ws0 ++ warnedNames regions L ∧
        All2 (RegionOk types) regions L by
    obtain ⟨L, h1, h2, h3⟩ := H regions [] [] hl h
    exact ⟨L, by simpa using h1, by simpa using h2, h3⟩
  clear h hl regions
  intro regions
  induction regions with
  | nil =>
    intro acc ws0 _ h
    simp only [splitMemoryRegions, Option.some.injEq, Prod.mk.injEq] at h
    exact ⟨[], by simp [h.1], by simp [h.2, warnedNames], trivial⟩
  | cons r rs ih =>
    intro acc ws0 hl h
    unfold splitMemoryRegions at h
    split at h
    · cases h
    · rename_i acc' w hloop
      obtain ⟨ps, rfl, hok⟩ := splitLoop_ok (hl r (by simp)) hloop
      obtain ⟨L, h1, h2, h3⟩ := ih _ _ (fun x hx => hl x (by simp [hx])) h
      refine ⟨(ps, w) :: L, by simp [h1], ?_, ⟨hok, h3⟩⟩
      rw [h2]
      cases w <;> simp [warnedNames]

/-- **C15** (what holds of termination) if every region is empty or fully covered by memory types (of those with
negative length: the origin) the splitting ends, without warning for the covered ones. -/
theorem C15_terminates_partial (types : Dict Str MemTypeInfo) (regions : List Region)
    (hc : ∀ r ∈ regions, FullyCovered types r ∧ (r.length < 0 → CoveredAddr types r.origin)) :
    ∃ n, (splitMemoryRegions n types regions [] []).isSome = true := by
  rw [C15_terminates_iff types regions]
  intro pre r post n out ws he _ hs
  obtain ⟨hr, hn⟩ := hc r (by rw [he]; simp)
  rcases hs.1 with ⟨g, g1, g2, g3, _⟩ | ⟨h1, h2⟩
  · exact g3 (hr g g1 g2)
  · exact h2 (hn h1)

/-- Table of the examples: one memory type with two windows, and another one right behind it. -/
def exTypes : Dict Str MemTypeInfo := [
  (str "DIRAM", { name := str "DIRAM", primary := 256, length := 128, secondary := 1024 }),
  (str "IRAM", { name := str "IRAM", primary := 384, length := 64, secondary := 0 })]

/-- **C15** (violated) two regions with a common end, the second of which starts below the memory
types: `memorymap.get()` never returns. -/
theorem C15_diverges :
    (∀ n, splitMemoryRegions n exTypes
      [⟨str "iram0_0_seg", 256, 128, str "xrw"⟩, ⟨str "dram0_0_seg", 248, 136, str "rw"⟩] [] [] = none) := by
  intro n
  cases n with
  | zero => rfl
  | succ n =>
    have h1 : splitLoop exTypes ⟨str "iram0_0_seg", 256, 128, str "xrw"⟩ 1 ⟨256, 128, []⟩ =
        some ([⟨str "iram0_0_seg", 256, 128, str "xrw", { name := str "DIRAM", primary := 256, length := 128, secondary := 1024 }⟩], false) := by
      decide
    have h2 := splitLoop_mono h1 n
    rw [Nat.add_comm] at h2
    unfold splitMemoryRegions
    rw [h2]
    simp only []
    unfold splitMemoryRegions
    rw [splitLoop_stuck]
    · rw [← findType_none]; decide
    · decide
    · exact ⟨_, List.mem_singleton.mpr rfl, by decide⟩

-- a region over both memory types is cut in two
example : FullyCovered exTypes ⟨str "iram0_0_seg", 300, 120, str "xrw"⟩ := by
  intro x h1 h2
  simp only [] at h1 h2
  by_cases h : x < 384
  · exact ⟨str "DIRAM", _, 256, List.mem_cons_self, .inl rfl, by simp only [InWindow]; omega⟩
  · exact ⟨str "IRAM", _, 384, List.mem_cons_of_mem _ List.mem_cons_self, .inl rfl, by simp only [InWindow]; omega⟩
example : (splitMemoryRegions 10 exTypes [⟨str "iram0_0_seg", 300, 120, str "xrw"⟩] [] []).map
    (fun x => (x.1.map fun p => (p.origin, p.length, p.type.name), x.2)) =
    some ([(300, 84, str "DIRAM"), (384, 36, str "IRAM")], []) := by decide

end EspSize
