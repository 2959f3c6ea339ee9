import Verif.Spec.MemTypes
import Verif.Proofs.Unify
import Verif.Proofs.List
import Verif.Proofs.Sort
/-! # Lemmas on the memory type map -/
namespace EspSize

theorem isAlias_iff (q r : SReg) : isAlias q r = true ↔ SameMemory q r := by
  unfold isAlias SameMemory windowDist
  simp only [ne_eq, ite_not, Bool.and_eq_true, decide_eq_true_eq]
  by_cases h : r.type.secondary = 0
  · simp only [h, if_true]; omega
  · simp only [h, if_false]
    split <;> omega

/-! ### The initial dictionaries -/

theorem mem_dkeys_init {α : Type} (v : α) (types : Dict Str MemTypeInfo) (d : Dict Str α) (k : Str) :
    k ∈ dkeys (types.foldl (fun d p => dset d p.2.name v) d) ↔ k ∈ dkeys d ∨ IsAlias types k := by
  induction types generalizing d with
  | nil => simp [IsAlias]
  | cons p t ih =>
    rw [List.foldl_cons, ih, mem_dkeys_dset]
    simp only [IsAlias, List.mem_cons, exists_eq_or_imp]
    constructor
    · rintro ((h | h) | h)
      · first | exact .inl h | exact .inr (.inl h.symm)
      · first | exact .inr (.inl h.symm) | exact .inl h
      · exact .inr (.inr h)
    · rintro (h | h | h)
      · first | exact .inl (.inr h) | exact .inl (.inl h)
      · first | exact .inl (.inl h.symm) | exact .inl (.inr h.symm)
      · exact .inr h

theorem dget_init {α : Type} (v : α) (types : Dict Str MemTypeInfo) (k : Str) (x : α)
    (h : dget (types.foldl (fun d p => dset d p.2.name v) []) k = some x) : x = v := by
  have H : ∀ (types : Dict Str MemTypeInfo) (d : Dict Str α), (∀ k x, dget d k = some x → x = v) →
      ∀ k x, dget (types.foldl (fun d p => dset d p.2.name v) d) k = some x → x = v := by
    intro types
    induction types with
    | nil => intro d hd; exact hd
    | cons p t ih =>
      intro d hd
      rw [List.foldl_cons]
      apply ih
      intro k x hx
      rw [dget_dset] at hx
      split at hx
      · exact (Option.some.inj hx).symm
      · exact hd k x hx
  exact H types [] (by simp) k x h

theorem dget_init_alias {α : Type} (v : α) {types : Dict Str MemTypeInfo} {k : Str} (h : IsAlias types k) :
    dget (types.foldl (fun d p => dset d p.2.name v) []) k = some v := by
  have : k ∈ dkeys (types.foldl (fun d p => dset d p.2.name v) ([] : Dict Str α)) :=
    (mem_dkeys_init v types [] k).mpr (.inr h)
  rw [← dget_isSome] at this
  obtain ⟨x, hx⟩ := Option.isSome_iff_exists.mp this
  rw [hx, dget_init v types k x hx]

theorem keysNodup_init {α : Type} (v : α) (types : Dict Str MemTypeInfo) (d : Dict Str α) (hd : KeysNodup d) :
    KeysNodup (types.foldl (fun d p => dset d p.2.name v) d) := by
  induction types generalizing d with
  | nil => exact hd
  | cons p t ih => exact ih _ (hd.dset _ _)

/-! ### Sizes -/

theorem firstViews_append (k : Str) (seen a b : List SReg) :
    firstViews k seen (a ++ b) = firstViews k seen a ++ firstViews k (seen ++ a) b := by
  induction a generalizing seen with
  | nil => simp [firstViews]
  | cons r t ih =>
    simp only [List.cons_append, firstViews, ih]
    split <;> simp

/-- State after the regions `rs` were added. -/
structure SizeInv (types : Dict Str MemTypeInfo) (rs : List SReg)
    (st : Dict Str MType × Dict Str (List SReg)) : Prop where
  nodup : KeysNodup st.1
  keys : ∀ k, k ∈ dkeys st.1 ↔ IsAlias types k
  look : ∀ k mt, dget st.1 k = some mt →
    mt = { emptyType with size := sumBy (fun r => r.length) (firstViews k [] rs) }
  seen : ∀ k, IsAlias types k → dget st.2 k = some (rs.filter fun r => r.type.name = k)

theorem addRegion_inv {types : Dict Str MemTypeInfo} {rs : List SReg} {st} (inv : SizeInv types rs st) {r : SReg}
    (hr : IsAlias types r.type.name) :
    ∃ st', addRegion st r = .ok st' ∧ SizeInv types (rs ++ [r]) st' := by
  have hmem := (inv.keys r.type.name).mpr hr
  obtain ⟨mt, hmt⟩ := Option.isSome_iff_exists.mp (dget_isSome.mpr hmem)
  have hsz := inv.look _ _ hmt
  have hl := inv.seen _ hr
  have seen' : ∀ k, IsAlias types k →
      dget (dset st.2 r.type.name ((rs.filter fun q => q.type.name = r.type.name) ++ [r])) k =
        some ((rs ++ [r]).filter fun q => q.type.name = k) := by
    intro k hk
    rw [dget_dset, List.filter_append]
    split
    · rename_i e; subst e; simp
    · rename_i e
      rw [inv.seen k hk]; simp [e]
  have other : ∀ k, k ≠ r.type.name → firstViews k [] (rs ++ [r]) = firstViews k [] rs := by
    intro k hk
    rw [firstViews_append]
    simp [firstViews, Ne.symm hk]
  have keys' : ∀ v k, k ∈ dkeys (dset st.1 r.type.name v) ↔ IsAlias types k := by
    intro v k
    rw [dkeys_dset_of_mem hmem]; exact inv.keys k
  unfold addRegion
  rw [hmt, hl]
  simp only []
  have hany : ((rs.filter fun q => q.type.name = r.type.name).any fun q => isAlias q r) = true ↔
      ∃ q ∈ rs, q.type.name = r.type.name ∧ SameMemory q r := by
    simp only [List.any_eq_true, List.mem_filter, decide_eq_true_eq, isAlias_iff]
    exact ⟨fun ⟨q, ⟨a, b⟩, c⟩ => ⟨q, a, b, c⟩, fun ⟨q, a, b, c⟩ => ⟨q, ⟨a, b⟩, c⟩⟩
  by_cases he : (rs.filter fun q => q.type.name = r.type.name) = []
  · rw [if_pos (by simp [he])]
    refine ⟨_, rfl, ⟨inv.nodup.dset _ _, keys' _, ?_, seen'⟩⟩
    intro k x hx
    rw [dget_dset] at hx
    split at hx
    · rename_i e; subst e
      have hx := (Option.some.inj hx).symm
      subst hx
      have hnone : firstViews r.type.name [] rs = [] := by
        have : ∀ q ∈ rs, q.type.name ≠ r.type.name := by simpa [List.filter_eq_nil_iff] using he
        have H : ∀ (l seen : List SReg), (∀ q ∈ l, q.type.name ≠ r.type.name) → firstViews r.type.name seen l = [] := by
          intro l
          induction l with
          | nil => intro _ _; rfl
          | cons q t ih =>
            intro seen h
            rw [firstViews, if_neg (fun hh => h q (by simp) hh.1)]
            exact ih _ fun x hx => h x (by simp [hx])
        exact H _ _ this
      rw [firstViews_append, hnone]
      have : ∀ q ∈ rs, q.type.name ≠ r.type.name := by simpa [List.filter_eq_nil_iff] using he
      simp only [List.nil_append, firstViews]
      rw [if_pos ⟨by trivial, fun q hq h => absurd h (this q hq)⟩, hsz]
      simp
    · rename_i e
      rw [other k (fun h => e h.symm)]
      exact inv.look k x hx
  · rw [if_neg (by simpa [List.isEmpty_iff] using he)]
    by_cases ha : ∃ q ∈ rs, q.type.name = r.type.name ∧ SameMemory q r
    · rw [if_pos (hany.mpr ha)]
      refine ⟨_, rfl, ⟨inv.nodup, inv.keys, ?_, seen'⟩⟩
      intro k x hx
      by_cases e : k = r.type.name
      · subst e
        rw [firstViews_append]
        simp only [List.nil_append, firstViews]
        obtain ⟨q, h1, h2, h3⟩ := ha
        rw [if_neg (fun hh => hh.2 q h1 h2 h3), List.append_nil]
        exact inv.look _ x hx
      · rw [other k e]; exact inv.look k x hx
    · rw [if_neg (fun h => ha (hany.mp h))]
      refine ⟨_, rfl, ⟨inv.nodup.dset _ _, keys' _, ?_, seen'⟩⟩
      intro k x hx
      rw [dget_dset] at hx
      split at hx
      · rename_i e; subst e
        have hx := (Option.some.inj hx).symm
        subst hx
        rw [firstViews_append]
        simp only [List.nil_append, firstViews]
        rw [if_pos ⟨by trivial, fun q hq h h' => ha ⟨q, hq, h, h'⟩⟩, hsz]
        simp
      · rename_i e
        rw [other k (fun h => e h.symm)]
        exact inv.look k x hx

theorem typeSizes_inv {types : Dict Str MemTypeInfo} {regions : List SReg}
    (hr : ∀ r ∈ regions, IsAlias types r.type.name) :
    ∃ d, typeSizes types regions = .ok d ∧ KeysNodup d ∧ (∀ k, k ∈ dkeys d ↔ IsAlias types k) ∧
      ∀ k mt, dget d k = some mt → mt = { emptyType with size := sumBy (fun r => r.length) (firstViews k [] regions) } := by
  have H : ∀ (rest pre : List SReg) (st), SizeInv types pre st → (∀ r ∈ rest, IsAlias types r.type.name) →
      ∃ st', rest.foldlM addRegion st = .ok st' ∧ SizeInv types (pre ++ rest) st' := by
    intro rest
    induction rest with
    | nil => intro pre st inv _; exact ⟨st, rfl, by simpa using inv⟩
    | cons r t ih =>
      intro pre st inv h
      obtain ⟨st1, h1, inv1⟩ := addRegion_inv inv (h r (by simp))
      obtain ⟨st2, h2, inv2⟩ := ih _ st1 inv1 fun x hx => h x (by simp [hx])
      refine ⟨st2, ?_, by simpa using inv2⟩
      rw [List.foldlM_cons, h1]
      exact h2
  have inv0 : SizeInv types [] (initTypes types, types.foldl (fun d p => dset d p.2.name []) []) := by
    refine ⟨keysNodup_init _ _ _ KeysNodup.nil, ?_, ?_, ?_⟩
    · intro k
      simp only [initTypes]
      rw [mem_dkeys_init]; simp
    · intro k mt h
      rw [dget_init emptyType types k mt h]
      rfl
    · intro k hk
      rw [dget_init_alias [] hk]; rfl
  obtain ⟨st, h1, inv⟩ := H regions [] _ inv0 hr
  refine ⟨st.1, ?_, inv.nodup, inv.keys, by simpa using inv.look⟩
  unfold typeSizes
  rw [h1]
  rfl

/-! ### Placement -/

theorem extRamAlias_some {types : Dict Str MemTypeInfo} {e : Str} :
    extRamAlias types = some e ↔ ExtAlias types e := by
  unfold extRamAlias ExtAlias
  rw [Option.map_eq_some_iff]
  have hc : ∀ p : Str × MemTypeInfo, extRamTypeNames.contains p.2.name = true ↔
      p.2.name ∈ [str "External RAM", str "SPI DRAM"] := by
    intro p; simp [extRamTypeNames]
  constructor
  · rintro ⟨p, hf, rfl⟩
    obtain ⟨h1, pre, post, h2, h3⟩ := List.find?_eq_some_iff_append.mp hf
    refine ⟨pre, p, post, h2, rfl, (hc p).mp h1, fun q hq hin => ?_⟩
    have := h3 q hq
    rw [Bool.not_eq_true', ← Bool.not_eq_true] at this
    exact this ((hc q).mpr hin)
  · rintro ⟨pre, p, post, h1, rfl, h2, h3⟩
    refine ⟨p, List.find?_eq_some_iff_append.mpr ⟨(hc p).mpr h2, pre, post, h1, ?_⟩, rfl⟩
    intro q hq
    rw [Bool.not_eq_true', ← Bool.not_eq_true]
    exact fun h => h3 q hq ((hc q).mp h)

theorem extName_iff (name : Str) : startsWithAny name extRamSectionNames = true ↔ ExtName name := by
  simp [startsWithAny, extRamSectionNames, ExtName, startsWith]

/-- The loop over the remaining sorted regions, after `p` was the previous one. -/
theorem placeLoop_some (addr : Int) (l : List SReg) (p : SReg)
    (hs : (p :: l).Pairwise fun x y => x.origin ≤ y.origin) :
    (∃ r, placeLoop addr (some p) l = .inside r ∧ r ∈ l ∧ InRegion r addr ∧ ∀ r' ∈ l, InRegion r' addr → r.origin ≤ r'.origin) ∨
    (∃ r, placeLoop addr (some p) l = .overflow r ∧ (∀ r' ∈ l, ¬ InRegion r' addr) ∧ r ∈ p :: l ∧
      (∃ r' ∈ l, addr < r'.origin) ∧
      ((r.origin ≤ addr ∧ ∀ r' ∈ p :: l, r'.origin ≤ addr → r'.origin ≤ r.origin) ∨
        (r = p ∧ addr < p.origin))) ∨
    (placeLoop addr (some p) l = .nowhere ∧ (∀ r' ∈ l, ¬ InRegion r' addr) ∧ ∀ r' ∈ l, r'.origin ≤ addr) := by
  induction l generalizing p with
  | nil => right; right; simp [placeLoop]
  | cons r t ih =>
    have hs' := (List.pairwise_cons.mp hs).2
    have hp := (List.pairwise_cons.mp hs).1
    have hr := (List.pairwise_cons.mp hs').1
    unfold placeLoop
    by_cases hin : r.origin ≤ addr ∧ addr < r.origin + r.length
    · left
      rw [if_pos hin]
      refine ⟨r, rfl, by simp, hin, ?_⟩
      intro r' hr' _
      rcases List.mem_cons.mp hr' with rfl | h
      · omega
      · exact hr r' h
    · rw [if_neg hin]
      simp only []
      by_cases hgt : r.origin > addr
      · right; left
        rw [if_pos hgt]
        refine ⟨p, rfl, ?_, by simp, ⟨r, by simp, hgt⟩, ?_⟩
        · intro r' hr' hi
          rcases List.mem_cons.mp hr' with rfl | h
          · exact hin hi
          · have := hr r' h; unfold InRegion at hi; omega
        · by_cases hpa : p.origin ≤ addr
          · left
            refine ⟨hpa, fun r' hr' hle => ?_⟩
            rcases List.mem_cons.mp hr' with rfl | h
            · omega
            · rcases List.mem_cons.mp h with rfl | h
              · omega
              · have := hr r' h; omega
          · right; exact ⟨rfl, by omega⟩
      · rw [if_neg hgt]
        rcases ih r hs' with ⟨x, h1, h2, h3, h4⟩ | ⟨x, h1, h2, h3, h4, h5⟩ | ⟨h1, h2, h3⟩
        · left
          refine ⟨x, h1, by simp [h2], h3, ?_⟩
          intro r' hr' hi
          rcases List.mem_cons.mp hr' with rfl | h
          · exact absurd hi hin
          · exact h4 r' h hi
        · right; left
          refine ⟨x, h1, ?_, List.mem_cons_of_mem _ h3, ?_, ?_⟩
          · intro r' hr' hi
            rcases List.mem_cons.mp hr' with rfl | h
            · exact hin hi
            · exact h2 r' h hi
          · obtain ⟨r', h, h'⟩ := h4; exact ⟨r', by simp [h], h'⟩
          · rcases h5 with ⟨h5, h6⟩ | ⟨rfl, h5⟩
            · left
              refine ⟨h5, fun r' hr' hle => ?_⟩
              rcases List.mem_cons.mp hr' with rfl | h
              · have := hp r (by simp)
                have := h6 r (by simp) (by omega)
                omega
              · exact h6 r' h hle
            · omega
        · right; right
          refine ⟨h1, ?_, ?_⟩
          · intro r' hr' hi
            rcases List.mem_cons.mp hr' with rfl | h
            · exact hin hi
            · exact h2 r' h hi
          · intro r' hr'
            rcases List.mem_cons.mp hr' with rfl | h
            · omega
            · exact h3 r' h

/-- Memory type and key chosen by the code. -/
def goesOf (types : Dict Str MemTypeInfo) (regions : List SReg) (s : MSec) : Option (Str × Str) :=
  match place (extRamAlias types) (sortedBy (fun r => r.origin) false regions) s with
  | .ext e => some (e, s.name)
  | .inside r => some (r.type.name, s.name)
  | .overflow r => some (r.type.name, overflowKey s.name)
  | .nowhere => none

theorem goes_loop {types : Dict Str MemTypeInfo} {regions : List SReg} {s : MSec}
    (hext : ∀ e, ExtAlias types e → ¬ ExtName s.name) :
    Goes types regions s (match placeLoop s.address none (sortedBy (fun r => r.origin) false regions) with
      | .ext e => some (e, s.name)
      | .inside r => some (r.type.name, s.name)
      | .overflow r => some (r.type.name, overflowKey s.name)
      | .nowhere => none) := by
  have hst := sortedBy_stable (fun r : SReg => r.origin) false regions
  generalize hl : sortedBy (fun r : SReg => r.origin) false regions = l at hst
  have hmem : ∀ r, r ∈ regions ↔ r ∈ l := fun r => hst.perm.mem_iff.symm
  have hsorted : l.Pairwise fun x y => x.origin ≤ y.origin := by simpa using hst.sorted
  have hlen : l.length = regions.length := hst.perm.length_eq
  cases l with
  | nil =>
    refine Goes.above hext ?_ ?_ <;> intro r hr <;> exact absurd ((hmem r).mp hr) (by simp)
  | cons p t =>
    unfold placeLoop
    by_cases hin : p.origin ≤ s.address ∧ s.address < p.origin + p.length
    · rw [if_pos hin]
      refine Goes.inside hext ((hmem p).mpr (by simp)) hin ?_
      intro r' hr' _
      rcases List.mem_cons.mp ((hmem r').mp hr') with rfl | h
      · omega
      · exact (List.pairwise_cons.mp hsorted).1 r' h
    · rw [if_neg hin]
      simp only []
      have hni : ∀ (h : ∀ r' ∈ t, ¬ InRegion r' s.address), ∀ r' ∈ regions, ¬ InRegion r' s.address := by
        intro h r' hr'
        rcases List.mem_cons.mp ((hmem r').mp hr') with rfl | h'
        · exact hin
        · exact h r' h'
      rcases placeLoop_some s.address t p hsorted with ⟨x, h1, h2, h3, h4⟩ | ⟨x, h1, h2, h3, h4, h5⟩ | ⟨h1, h2, h3⟩
      · rw [h1]
        refine Goes.inside hext ((hmem x).mpr (by simp [h2])) h3 ?_
        intro r' hr' hi
        rcases List.mem_cons.mp ((hmem r').mp hr') with rfl | h'
        · exact absurd hi hin
        · exact h4 r' h' hi
      · rw [h1]
        obtain ⟨r2, hr2, hgt⟩ := h4
        rcases h5 with ⟨h5, h6⟩ | ⟨rfl, h5⟩
        · refine Goes.between hext (hni h2) ((hmem x).mpr h3) h5 ?_ ⟨r2, (hmem r2).mpr (by simp [hr2]), hgt⟩
          intro r' hr' hle
          exact h6 r' ((hmem r').mp hr') hle
        · refine Goes.below hext ?_ ?_ ((hmem x).mpr (by simp)) ?_
          · intro r' hr'
            rcases List.mem_cons.mp ((hmem r').mp hr') with rfl | h'
            · exact h5
            · have := (List.pairwise_cons.mp hsorted).1 r' h'; omega
          · rw [← hlen]
            have : t ≠ [] := by rintro rfl; cases hr2
            cases t with
            | nil => exact absurd rfl this
            | cons _ _ => simp
          · intro r' hr'
            rcases List.mem_cons.mp ((hmem r').mp hr') with rfl | h'
            · omega
            · exact (List.pairwise_cons.mp hsorted).1 r' h'
      · rw [h1]
        by_cases hp : p.origin ≤ s.address
        · refine Goes.above hext (hni h2) ?_
          intro r' hr'
          rcases List.mem_cons.mp ((hmem r').mp hr') with rfl | h'
          · exact hp
          · exact h3 r' h'
        · have ht : t = [] := by
            cases t with
            | nil => rfl
            | cons y t' =>
              have := (List.pairwise_cons.mp hsorted).1 y (by simp)
              have := h3 y (by simp)
              omega
          subst ht
          refine Goes.alone hext ?_ (by rw [← hlen]; rfl)
          intro r' hr'
          rcases List.mem_cons.mp ((hmem r').mp hr') with rfl | h'
          · omega
          · cases h'

theorem goes_goesOf (types : Dict Str MemTypeInfo) (regions : List SReg) (s : MSec) :
    Goes types regions s (goesOf types regions s) := by
  unfold goesOf place
  cases he : extRamAlias types with
  | none =>
    simp only []
    apply goes_loop
    intro e h
    rw [extRamAlias_some.mpr h] at he; cases he
  | some e =>
    simp only []
    by_cases hn : startsWithAny s.name extRamSectionNames = true
    · rw [if_pos hn]
      exact Goes.ext (extRamAlias_some.mp he) ((extName_iff _).mp hn)
    · rw [if_neg hn]
      apply goes_loop
      intro _ _ h
      exact hn ((extName_iff _).mpr h)

/-! ### Accounting -/

theorem addSection_eq {types : Dict Str MemTypeInfo} {regions : List SReg} (d : Dict Str MType) (s : MSec)
    (habb : s.abb = abbrevSec s.name) :
    addSection (extRamAlias types) (sortedBy (fun r => r.origin) false regions) d s =
      match goesOf types regions s with
      | none => .ok d
      | some (k, key) => putSection d k key (abbrevSec key) s := by
  unfold addSection goesOf
  cases place (extRamAlias types) (sortedBy (fun r => r.origin) false regions) s <;> simp [habb, overflowKey, overflowName]

/-- Effect of one section on the memory type `k`. -/
def accOne (goes : MSec → Option (Str × Str)) (k : Str) (mt : MType) (s : MSec) : MType :=
  match goes s with
  | none => mt
  | some (k', key) =>
    if k' = k then { mt with used := mt.used + s.size, sections := dset mt.sections key (secEntry key s) } else mt

theorem foldlM_addSection {types : Dict Str MemTypeInfo} {regions : List SReg} (sections : List MSec)
    (habb : ∀ s ∈ sections, s.abb = abbrevSec s.name) (d : Dict Str MType) (hd : KeysNodup d)
    (hk : ∀ s ∈ sections, ∀ x, goesOf types regions s = some x → x.1 ∈ dkeys d) :
    ∃ d', sections.foldlM (addSection (extRamAlias types) (sortedBy (fun r => r.origin) false regions)) d = .ok d' ∧
      dkeys d' = dkeys d ∧
      ∀ k, dget d' k = (dget d k).map fun mt => sections.foldl (accOne (goesOf types regions) k) mt := by
  induction sections generalizing d with
  | nil => exact ⟨d, rfl, rfl, by simp⟩
  | cons s t ih =>
    rw [List.foldlM_cons, addSection_eq d s (habb s (by simp))]
    cases hg : goesOf types regions s with
    | none =>
      obtain ⟨d', h1, h2, h3⟩ := ih (fun x hx => habb x (by simp [hx])) d hd (fun x hx => hk x (by simp [hx]))
      refine ⟨d', h1, h2, fun k => ?_⟩
      rw [h3]; simp [accOne, hg]
    | some x =>
      obtain ⟨a, key⟩ := x
      have ha : a ∈ dkeys d := hk s (by simp) _ hg
      obtain ⟨mt, hmt⟩ := Option.isSome_iff_exists.mp (dget_isSome.mpr ha)
      simp only [putSection, hmt]
      obtain ⟨d', h1, h2, h3⟩ := ih (fun x hx => habb x (by simp [hx])) (dset d a
        { mt with used := mt.used + s.size
                  sections := dset mt.sections key { abb := abbrevSec key, size := s.size, sizeDiff := 0, kids := s.archives } })
        (hd.dset _ _) (fun x hx => by rw [dkeys_dset_of_mem ha]; exact hk x (by simp [hx]))
      refine ⟨d', h1, by rw [h2, dkeys_dset_of_mem ha], fun k => ?_⟩
      rw [h3, dget_dset]
      split
      · rename_i e; subst e
        rw [hmt]
        simp [accOne, hg, secEntry]
      · rename_i e
        simp [accOne, hg, e]

/-- What a memory type without sections becomes. -/
theorem holds_foldl (goes : MSec → Option (Str × Str)) (sections : List MSec) (k : Str) (mt : MType)
    (h0 : mt.used = 0) (h1 : mt.sections = []) :
    Holds goes sections k (sections.foldl (accOne goes k) mt) ∧
    (sections.foldl (accOne goes k) mt).size = mt.size ∧
    (sections.foldl (accOne goes k) mt).sizeDiff = mt.sizeDiff ∧
    (sections.foldl (accOne goes k) mt).usedDiff = mt.usedDiff := by
  induction sections using snocInd with
  | nil =>
    refine ⟨⟨by simp [h0], by simp [h1, KeysNodup.nil], by simp [h1], by simp [h1], by simp [h0, h1], by simp [h1]⟩, rfl, rfl, rfl⟩
  | snoc l s ih =>
    obtain ⟨ih, i1, i2, i3⟩ := ih
    rw [List.foldl_append, List.foldl_cons, List.foldl_nil]
    generalize l.foldl (accOne goes k) mt = m at ih i1 i2 i3
    have hdist : (∀ i j : Nat, ∀ x x', i < j → (l ++ [s])[i]? = some x → (l ++ [s])[j]? = some x' →
        ∀ key, goes x = some (k, key) → goes x' ≠ some (k, key)) →
        (∀ i j : Nat, ∀ x x', i < j → l[i]? = some x → l[j]? = some x' →
        ∀ key, goes x = some (k, key) → goes x' ≠ some (k, key)) := by
      intro h i j x x' hij hi hj
      have hi' := List.getElem?_eq_some_iff.mp hi
      have hj' := List.getElem?_eq_some_iff.mp hj
      apply h i j x x' hij
      · rw [List.getElem?_append_left hi'.1]; exact hi
      · rw [List.getElem?_append_left hj'.1]; exact hj
    unfold accOne
    have skip : (∀ key, goes s ≠ some (k, key)) → Holds goes (l ++ [s]) k m := by
      intro hne
      have hf : ((goes s).any fun x => decide (x.1 = k)) = false := by
        cases hg : goes s with
        | none => rfl
        | some x =>
          have : x.1 ≠ k := by rintro rfl; exact hne x.2 hg
          simp [this]
      have hv : ∀ g, entryValue goes k g s = 0 := by
        intro g
        unfold entryValue
        cases hg : goes s with
        | none => rfl
        | some x =>
          have : x.1 ≠ k := by rintro rfl; exact hne x.2 hg
          simp [this]
      refine ⟨?_, ih.nodup, ?_, ?_, fun h => ih.distinct (hdist h), fun h g => ?_⟩
      · rw [List.filter_append, ih.used]; simp [hf]
      · intro key
        rw [ih.keys]
        constructor
        · rintro ⟨x, hx, hg⟩; exact ⟨x, by simp [hx], hg⟩
        · rintro ⟨x, hx, hg⟩
          rcases List.mem_append.mp hx with hx | hx
          · exact ⟨x, hx, hg⟩
          · have : x = s := by simpa using hx
            subst this; exact absurd hg (hne key)
      · intro key sec hs
        obtain ⟨pre, x, post, h1, h2, h3, h4⟩ := ih.last key sec hs
        refine ⟨pre, x, post ++ [s], by rw [h1]; simp, h2, h3, ?_⟩
        intro y hy
        rcases List.mem_append.mp hy with hy | hy
        · exact h4 y hy
        · have : y = s := by simpa using hy
          subst this; exact hne key
      · rw [ih.totals (hdist h) g, sumBy_append]; simp [hv]
    cases hg : goes s with
    | none =>
      simp only []
      exact ⟨skip (by simp [hg]), i1, i2, i3⟩
    | some x =>
      obtain ⟨k', key0⟩ := x
      simp only []
      by_cases e : k' = k
      · subst e
        rw [if_pos rfl]
        have hnew : (∀ i j : Nat, ∀ x x', i < j → (l ++ [s])[i]? = some x → (l ++ [s])[j]? = some x' →
            ∀ key, goes x = some (k', key) → goes x' ≠ some (k', key)) → dget m.sections key0 = none := by
          intro h
          cases hd : dget m.sections key0 with
          | none => rfl
          | some sec =>
            exfalso
            obtain ⟨x, hx, hgx⟩ := (ih.keys key0).mp (by rw [hd]; rfl)
            obtain ⟨i, hi, hxi⟩ := List.getElem_of_mem hx
            refine h i l.length x s hi ?_ ?_ key0 hgx hg
            · rw [List.getElem?_append_left hi, List.getElem?_eq_getElem hi, hxi]
            · simp
        refine ⟨⟨?_, ih.nodup.dset _ _, ?_, ?_, ?_, ?_⟩, i1, i2, i3⟩
        · rw [List.filter_append]
          simp [ih.used, hg]
        · intro key
          rw [dget_isSome, mem_dkeys_dset, ← dget_isSome, ih.keys]
          constructor
          · intro h
            rcases h with h | h
            · first
              | (subst h; exact ⟨s, by simp, hg⟩)
              | (obtain ⟨x, hx, h'⟩ := h; exact ⟨x, by simp [hx], h'⟩)
            · first
              | (subst h; exact ⟨s, by simp, hg⟩)
              | (obtain ⟨x, hx, h'⟩ := h; exact ⟨x, by simp [hx], h'⟩)
          · rintro ⟨x, hx, h'⟩
            rcases List.mem_append.mp hx with hx | hx
            · first | exact .inl ⟨x, hx, h'⟩ | exact .inr ⟨x, hx, h'⟩
            · have : x = s := by simpa using hx
              subst this
              rw [hg] at h'
              have : key0 = key := by simpa using h'
              first | exact .inl this.symm | exact .inr this.symm
        · intro key sec hs
          rw [dget_dset] at hs
          split at hs
          · rename_i e; subst e
            exact ⟨l, s, [], rfl, hg, (Option.some.inj hs).symm, by simp⟩
          · rename_i e
            obtain ⟨pre, x, post, h1, h2, h3, h4⟩ := ih.last key sec hs
            refine ⟨pre, x, post ++ [s], by rw [h1]; simp, h2, h3, ?_⟩
            intro y hy
            rcases List.mem_append.mp hy with hy | hy
            · exact h4 y hy
            · have : y = s := by simpa using hy
              subst this
              rw [hg]
              intro h
              exact e (by simpa using h)
        · intro h
          simp only []
          rw [sumBy_dset (fun x : Sec => x.size), hnew h, ih.distinct (hdist h)]
          simp [orZero, secEntry]
        · intro h g
          simp only []
          rw [sumBy_dset g, hnew h, ih.totals (hdist h) g, sumBy_append]
          simp [orZero, entryValue, hg]
      · rw [if_neg e]
        refine ⟨skip ?_, i1, i2, i3⟩
        intro key h
        rw [hg] at h
        exact e (by simpa using congrArg (Option.map Prod.fst) h)

end EspSize
