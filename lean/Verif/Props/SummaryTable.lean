import Verif.Spec.SummaryTable
import Verif.Props.Table
import Verif.Props.Sort
/-! # C40: the summary table; C42: the JSON summary -/
namespace EspSize

theorem truncRat_intCast (i : Int) : truncRat (i : Rat) = i := by
  unfold truncRat
  split
  · exact Rat.ceil_intCast i
  · exact Rat.floor_intCast i

theorem pctOf_percent (F : FloatOps) (u s : Int) : pctOf F u s = percent F u s := by
  unfold pctOf percent
  by_cases h : s = 0 <;> simp [h]

theorem pctDiffOf_percent (F : FloatOps) (u d s e : Int) : pctDiffOf F u d s e = percentChange F u d s e := by
  unfold pctDiffOf percentChange
  rw [pctOf_percent]
  by_cases h : s - e = 0
  · simp [h]
  · rw [if_pos h, if_neg h]
    rw [show percent F (u - d) (s - e) = F.rnd (F.rnd (((u - d : Int) : Rat) / ((s - e : Int) : Rat)) * 100) from by
      unfold percent; rw [if_neg h]]

theorem typeSortKey_eq (F : FloatOps) (d : Bool) {i : Nat} {k : SumKey} (hk : sumKeys[i]? = some k) (t : MType) :
    typeSortKey F d k t = truncRat (typeValue F d i t) := by
  have hi : i < 4 := by
    have := (List.getElem?_eq_some_iff.mp hk).1
    simpa [sumKeys] using this
  match i, hi with
  | 0, _ => cases hk; cases d <;> simp [typeSortKey, typeValue, truncRat_intCast]
  | 1, _ => cases hk; cases d <;> simp [typeSortKey, typeValue, pctOf_percent, pctDiffOf_percent]
  | 2, _ =>
    cases hk
    cases d
    · simp only [typeSortKey, typeValue]
      by_cases h : t.size = 0
      · simp only [h, ne_eq, not_true, if_false, if_true]; exact (truncRat_intCast 0).symm
      · simp only [h, ne_eq, not_false_eq_true, if_true, if_false]; exact (truncRat_intCast _).symm
    · exact (truncRat_intCast _).symm
  | 3, _ => cases hk; cases d <;> simp [typeSortKey, typeValue, truncRat_intCast]

theorem secSortKey_eq (F : FloatOps) (d : Bool) {i : Nat} {k : SumKey} (hk : sumKeys[i]? = some k) (t : MType)
    (s : Sec) : secSortKey F d k t s = truncRat (secValue F d i t s) := by
  have hi : i < 4 := by
    have := (List.getElem?_eq_some_iff.mp hk).1
    simpa [sumKeys] using this
  have h0 : truncRat 0 = 0 := truncRat_intCast 0
  match i, hi with
  | 0, _ => cases hk; cases d <;> simp [secSortKey, secValue, truncRat_intCast]
  | 1, _ => cases hk; cases d <;> simp [secSortKey, secValue, pctOf_percent, pctDiffOf_percent]
  | 2, _ => cases hk; cases d <;> exact h0.symm
  | 3, _ => cases hk; cases d <;> exact h0.symm

theorem summaryRows_len (F : FloatOps) (args : Args) (k : SumKey) (m : MemMap) :
    ∀ r ∈ summaryRows F args k m, r.length = 5 := by
  intro r hr
  unfold summaryRows at hr
  rw [List.mem_flatMap] at hr
  obtain ⟨t, _, hr⟩ := hr
  rcases List.mem_cons.mp hr with rfl | hr
  · unfold typeRow; simp only [List.length_cons]; split <;> rfl
  · obtain ⟨s, _, rfl⟩ := List.mem_map.mp hr
    rfl

theorem summaryRows_rows (F : FloatOps) (args : Args) {i : Nat} {k : SumKey} (hk : sumKeys[i]? = some k) (m : MemMap) :
    Rows F args (StableSort (fun t => truncRat (typeValue F args.sortDiff i t.2)) args.sortReverse)
      (fun t => StableSort (fun s => truncRat (secValue F args.sortDiff i t s.2)) args.sortReverse)
      m.memoryTypes (summaryRows F args k m) := by
  have e1 : typeSortKey F args.sortDiff k = fun t => truncRat (typeValue F args.sortDiff i t) :=
    funext fun t => typeSortKey_eq F _ hk t
  have e2 : ∀ t, secSortKey F args.sortDiff k t = fun s => truncRat (secValue F args.sortDiff i t s) :=
    fun t => funext fun s => secSortKey_eq F _ hk t s
  refine ⟨sortDict (typeSortKey F args.sortDiff k) args.sortReverse m.memoryTypes, _, ?_, ?_, rfl⟩
  · rw [e1]; exact sortedBy_stable _ _ _
  · apply all2_map
    intro t _
    refine ⟨sortDict (secSortKey F args.sortDiff k t.2) args.sortReverse t.2.sections, ?_, rfl⟩
    rw [e2]; exact sortedBy_stable _ _ _

/-- **C40** (partial) the summary table lists the trimmed memory types, each followed by its sections, all
stably sorted by the integer part of the value in the selected column; an option selecting no column is
rejected.  The integer part is not enough for percentages, see `C40_percent_not_sorted`. -/
theorem C40_summary_table_partial (F : FloatOps) (m : MemMap) (args : Args) :
    (∀ i, Selects (str "Memory Type/Section") sumColTitles args.sort i →
      ∃ rows, getSummaryTable F m args = .ok { headers := summaryHeaders, rows := rows } ∧
        (∀ r ∈ rows, r.length = summaryHeaders.length) ∧
        Rows F args (StableSort (fun t => truncRat (typeValue F args.sortDiff i t.2)) args.sortReverse)
          (fun t => StableSort (fun s => truncRat (secValue F args.sortDiff i t s.2)) args.sortReverse)
          (trim m args).memoryTypes rows) ∧
    ((¬ ∃ i, Selects (str "Memory Type/Section") sumColTitles args.sort i) →
      getSummaryTable F m args = .error .exit) := by
  have hcols : summaryTitles = str "Memory Type/Section" :: sumColTitles := rfl
  constructor
  · intro i hi
    obtain ⟨n, hn, _, hidx⟩ := selects_index hi
    have hi4 : i < sumKeys.length := hi.1
    have hk : sumKeys[i]? = some sumKeys[i] := List.getElem?_eq_getElem hi4
    refine ⟨summaryRows F args sumKeys[i] (trim m args), ?_, ?_, summaryRows_rows F args hk _⟩
    · unfold getSummaryTable
      rw [hcols, hn]
      simp only [bind, Except.bind, hidx sumKeys _ rfl hk]
      rw [foldl_addRow (n := 5) _ (summaryRows_len F args _ _) ⟨summaryHeaders, []⟩ rfl (by simp)]
      simp
    · intro r hr
      rw [summaryRows_len F args _ _ r hr]; rfl
  · intro hno
    unfold getSummaryTable
    rw [hcols]
    rcases selects_none hno with h | ⟨n, hn, hidx⟩
    · rw [h]; rfl
    · rw [hn]
      simp only [bind, Except.bind, hidx sumKeys rfl]

theorem orderedBy_of_int {α : Type} {v : α → Rat} {rev : Bool} {a b : List α} (hv : ∀ x, ∃ i : Int, v x = i)
    (h : StableSort (fun x => truncRat (v x)) rev a b) : b.Perm a ∧ OrderedBy v rev b := by
  refine ⟨h.perm, ?_⟩
  refine h.sorted.imp ?_
  intro x y hxy
  obtain ⟨i, hi⟩ := hv x
  obtain ⟨j, hj⟩ := hv y
  simp only [hi, hj, truncRat_intCast] at hxy ⊢
  cases rev
  · simpa [Rat.intCast_le_intCast] using hxy
  · simpa [Rat.intCast_le_intCast] using hxy

theorem typeValue_int (F : FloatOps) (d : Bool) {i : Nat} (h : i ≠ 1) (t : MType) :
    ∃ z : Int, typeValue F d i t = z := by
  match i, h, d with
  | 0, _, false => exact ⟨_, rfl⟩
  | 0, _, true => exact ⟨_, rfl⟩
  | 2, _, false =>
    by_cases hz : t.size = 0
    · exact ⟨0, by simp only [typeValue, hz, if_true]; rfl⟩
    · exact ⟨_, by simp only [typeValue, hz, if_false]; rfl⟩
  | 2, _, true => exact ⟨_, rfl⟩
  | n + 3, _, false => exact ⟨_, rfl⟩
  | n + 3, _, true => exact ⟨_, rfl⟩

theorem secValue_int (F : FloatOps) (d : Bool) {i : Nat} (h : i ≠ 1) (t : MType) (s : Sec) :
    ∃ z : Int, secValue F d i t s = z := by
  match i, h, d with
  | 0, _, false => exact ⟨_, rfl⟩
  | 0, _, true => exact ⟨_, rfl⟩
  | n + 2, _, false => exact ⟨0, rfl⟩
  | n + 2, _, true => exact ⟨0, rfl⟩

/-- **C40** for the columns other than the percentage, the table is ordered by the values. -/
theorem C40_sorted_by_value (F : FloatOps) (m : MemMap) (args : Args) (i : Nat)
    (hi : Selects (str "Memory Type/Section") sumColTitles args.sort i) (h1 : i ≠ 1) :
    ∃ rows, getSummaryTable F m args = .ok { headers := summaryHeaders, rows := rows } ∧
      Rows F args (fun a b => b.Perm a ∧ OrderedBy (fun t => typeValue F args.sortDiff i t.2) args.sortReverse b)
        (fun t a b => b.Perm a ∧ OrderedBy (fun s => secValue F args.sortDiff i t s.2) args.sortReverse b)
        (trim m args).memoryTypes rows := by
  obtain ⟨rows, h, _, ts, blocks, hts, hb, hr⟩ := (C40_summary_table_partial F m args).1 i hi
  refine ⟨rows, h, ts, blocks, orderedBy_of_int (fun x => typeValue_int F _ h1 x.2) hts, ?_, hr⟩
  refine All2.imp hb ?_
  rintro t _ b ⟨ss, hss, he⟩
  exact ⟨ss, orderedBy_of_int (fun x => secValue_int F _ h1 _ x.2) hss, he⟩

def exHalf (n : Int) : MType := { size := 1024, sizeDiff := 0, used := n, usedDiff := 0, sections := [] }
/-- Two memory types half used, the second one a little more. -/
def exHalves : MemMap :=
  { version := [], target := [], targetDiff := [], imageSize := 0, imageSizeDiff := 0, projectPath := []
    projectPathDiff := [], memoryTypes := [(str "A", exHalf 513), (str "B", exHalf 518)] }

/-- The statement of C40 fails for the percentage: sorted in descending order, 50.1 % comes before 50.6 %
(for every arithmetic that computes these two percentages without error). -/
theorem C40_percent_not_sorted (F : FloatOps) (h1 : F.rnd (513 / 1024) = 513 / 1024)
    (h2 : F.rnd (518 / 1024) = 518 / 1024) (h3 : F.rnd (513 / 1024 * 100) = 513 / 1024 * 100)
    (h4 : F.rnd (518 / 1024 * 100) = 518 / 1024 * 100) :
    ∃ args : Args, args.sortReverse = true ∧ Selects (str "Memory Type/Section") sumColTitles args.sort 1 ∧
      getSummaryTable F exHalves args = .ok { headers := summaryHeaders, rows :=
        [typeRow F args (str "A", exHalf 513), typeRow F args (str "B", exHalf 518)] } ∧
      typeValue F false 1 (exHalf 513) < typeValue F false 1 (exHalf 518) := by
  have ha : percent F 513 1024 = 513 / 1024 * 100 := by
    unfold percent
    rw [if_neg (by decide), show (((513 : Int) : Rat) / ((1024 : Int) : Rat)) = 513 / 1024 from rfl, h1, h3]
  have hb : percent F 518 1024 = 518 / 1024 * 100 := by
    unfold percent
    rw [if_neg (by decide), show (((518 : Int) : Rat) / ((1024 : Int) : Rat)) = 518 / 1024 from rfl, h2, h4]
  refine ⟨{ sort := str "2" }, rfl, ⟨by decide, Or.inl ⟨2, by decide, by decide⟩⟩, ?_, ?_⟩
  · have hk : typeSortKey F false .pct = fun t => truncRat (percent F t.used t.size) := by
      funext t; simp only [typeSortKey, pctOf_percent]
    have hsort : sortDict (typeSortKey F false .pct) true [(str "A", exHalf 513), (str "B", exHalf 518)] =
        [(str "A", exHalf 513), (str "B", exHalf 518)] := by
      rw [hk]
      simp only [sortDict, sortedBy, isortBy, insertBy, exHalf, ha, hb]
      decide +kernel
    have hn : sortNumber summaryTitles (str "2") = .ok 2 := by decide
    have hrows : summaryRows F { sort := str "2" } .pct (trim exHalves { sort := str "2" }) =
        [typeRow F { sort := str "2" } (str "A", exHalf 513), typeRow F { sort := str "2" } (str "B", exHalf 518)] := by
      have ht : trim exHalves { sort := str "2" } = exHalves := by decide
      rw [ht]
      unfold summaryRows
      show (sortDict (typeSortKey F false .pct) true [(str "A", exHalf 513), (str "B", exHalf 518)]).flatMap _ = _
      rw [hsort]
      rfl
    unfold getSummaryTable
    simp only [hn, bind, Except.bind]
    have : pyIndex sumKeys (if (2 : Int) > 0 then 2 - 1 else 2) = .ok SumKey.pct := by decide
    simp only [this, hrows]
    rfl
  · simp only [typeValue, exHalf, ha, hb]
    decide +kernel

/-- Exact arithmetic, percentages shown as quotients. -/
def exFloat : FloatOps := ⟨id, id, fun q => intStr q.floor, fun q => intStr q.floor, fun q => intStr q.floor⟩

example : (match getSummaryTable exFloat exMapA {} with
    | .ok t => t.rows.map (·.head?)
    | .error _ => []) =
    [some (str "DRAM"), some (str "   .bss"), some (str "   .bss"), some (str "Flash Code")] := by decide +kernel
example : ∃ rows, getSummaryTable exFloat exMapA { sort := str "Used [bytes]" } = .ok { headers := summaryHeaders, rows := rows } :=
  ⟨_, rfl⟩
example : getSummaryTable exFloat exMapA { sort := str "5" } = .error .exit ∧
    getSummaryTable exFloat exMapA { sort := str "0" } = .error .exit := by decide +kernel

/-! ## C42 -/

/-- The sizes of the parts of a memory type, printed under distinct names. -/
theorem foldl_dset_parts (name : Str × Sec → Str) (l : Dict Str Sec) (d : Dict Str Int)
    (hn : (l.map name).Nodup) (hd : ∀ s ∈ l, name s ∉ dkeys d) :
    l.foldl (fun d s => dset d (name s) s.2.size) d = d ++ l.map fun s => (name s, s.2.size) := by
  induction l generalizing d with
  | nil => simp
  | cons s t ih =>
    rw [List.foldl_cons, dset_of_not_mem (hd s (by simp)), ih _ (List.nodup_cons.mp hn).2]
    · simp
    · intro x hx
      simp only [dkeys, List.map_append, List.map_cons, List.map_nil, List.mem_append, List.mem_singleton, not_or]
      refine ⟨hd x (by simp [hx]), ?_⟩
      intro he
      apply (List.nodup_cons.mp hn).1
      rw [← he]
      exact List.mem_map_of_mem hx

/-- What the JSON summary must say about a memory type. -/
def LayoutFor (args : Args) (t : Str × MType) (l : Layout) : Prop :=
  l.name = t.1 ∧ l.total = t.2.size ∧ l.used = t.2.used ∧
  l.free = (if t.2.size = 0 then 0 else t.2.size - t.2.used) ∧
  -- all sections listed with their sizes
  (l.parts.Perm (t.2.sections.map fun s => (if args.abbrev_ then s.2.abb else s.1, s.2.size))) ∧
  -- so they add up
  (t.2.used = sumBy (fun s => s.2.size) t.2.sections → sumBy (·.2) l.parts = l.used)

/-- **C42** (partial) the JSON summary: if the names under which sections are printed are distinct within each
memory type, every memory type is listed once with its total, used, free and all its parts. -/
theorem C42_json_summary_partial (m : MemMap) (args : Args)
    (hd : ∀ t ∈ m.memoryTypes, (t.2.sections.map fun s => if args.abbrev_ then s.2.abb else s.1).Nodup) :
    (jsonSummary m args).totalSize = m.imageSize ∧
    ∃ ts : Dict Str MType,
      StableSort (fun t => if args.sortDiff then t.2.usedDiff else t.2.used) args.sortReverse m.memoryTypes ts ∧
      All2 (LayoutFor args) ts (jsonSummary m args).layout := by
  refine ⟨rfl, _, sortedBy_stable _ _ _, ?_⟩
  have hk : (fun t : Str × MType => if args.sortDiff then t.2.usedDiff else t.2.used) =
      fun t => (if args.sortDiff then MType.usedDiff else MType.used) t.2 := by
    funext t; cases args.sortDiff <;> rfl
  rw [hk]
  show All2 _ _ ((dmap (fun _ => sortMType args) (sortDict _ args.sortReverse m.memoryTypes)).map (layoutOf args))
  unfold sortDict dmap
  rw [List.map_map]
  apply all2_map
  intro t ht
  have htm : t ∈ m.memoryTypes := (sortedBy_stable _ _ m.memoryTypes).perm.mem_iff.mp ht
  -- the sections of the sorted memory type
  let S := sortDict (if args.sortDiff then Node.sizeDiff else Node.size) args.sortReverse t.2.sections
  have hS : S.Perm t.2.sections := (sortedBy_stable _ _ _).perm
  have hparts : (layoutOf args (t.1, sortMType args t.2)).parts =
      S.map fun s => (if args.abbrev_ then s.2.abb else s.1, s.2.size) := by
    simp only [layoutOf, sortMType]
    rw [foldl_dset_parts (fun s => if args.abbrev_ then s.2.abb else s.1)]
    · simp only [dmap, List.nil_append, List.map_map]
      rfl
    · simp only [dmap, List.map_map]
      exact (hS.map _).nodup_iff.mpr (hd t htm)
    · simp [dkeys]
  have hperm : (layoutOf args (t.1, sortMType args t.2)).parts.Perm
      (t.2.sections.map fun s => (if args.abbrev_ then s.2.abb else s.1, s.2.size)) := by
    rw [hparts]; exact hS.map _
  refine ⟨rfl, rfl, rfl, ?_, hperm, ?_⟩
  · simp only [Function.comp, layoutOf, sortMType]
    by_cases h : t.2.size = 0 <;> simp [h]
  · intro hu
    show sumBy (·.2) (layoutOf args (t.1, sortMType args t.2)).parts = t.2.used
    rw [sumBy_perm hperm, sumBy_map, hu]

/-- Without abbreviation the names are the section names, which are distinct. -/
theorem C42_json_no_abbrev (m : MemMap) (hm : m.WF) (args : Args) (ha : args.abbrev_ = false) :
    ∃ ts : Dict Str MType,
      StableSort (fun t => if args.sortDiff then t.2.usedDiff else t.2.used) args.sortReverse m.memoryTypes ts ∧
      All2 (LayoutFor args) ts (jsonSummary m args).layout := by
  refine (C42_json_summary_partial m args ?_).2
  intro t ht
  rw [ha]
  exact (hm.2 t ht).1

/-- The statement of C42 fails with abbreviated names: two sections abbreviated alike share one part, and the
parts do not add up to the used size. -/
theorem C42_parts_lost : ∃ (m : MemMap) (args : Args), m.WF ∧
    (∀ t ∈ m.memoryTypes, t.2.used = sumBy (fun s => s.2.size) t.2.sections) ∧
    (jsonSummary m args).layout.any (fun l => decide (sumBy (·.2) l.parts ≠ l.used)) = true :=
  ⟨exMapA, {}, by decide, by decide, by decide⟩

example : ((jsonSummary exMapA { abbrev_ := false }).layout.map fun l => (l.used, sumBy (·.2) l.parts)) =
    [(30, 30), (0, 0)] := by decide

end EspSize
