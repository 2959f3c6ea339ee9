import Verif.Proofs.MemTypes
import Verif.Proofs.Summary2
import Verif.Props.Split
import Verif.Props.Archives
import Verif.Props.Regions
/-! # C16, C17, C18, C24, C25: the memory type map -/
namespace EspSize

/-- The result of `_get_mem_type_map` for the given decision. -/
structure MapOk (types : Dict Str MemTypeInfo) (regions : List SReg) (sections : List MSec)
    (goes : MSec → Option (Str × Str)) (d : Dict Str MType) : Prop where
  nodup : KeysNodup d
  keys : ∀ k, k ∈ dkeys d ↔ IsAlias types k
  rule : ∀ s, Goes types regions s (goes s)
  holds : ∀ k mt, dget d k = some mt → Holds goes sections k mt
  size : ∀ k mt, dget d k = some mt → mt.size = sumBy (fun r => r.length) (firstViews k [] regions)
  diffs : ∀ k mt, dget d k = some mt → mt.sizeDiff = 0 ∧ mt.usedDiff = 0

theorem extAlias_isAlias {types : Dict Str MemTypeInfo} {e : Str} (h : ExtAlias types e) : IsAlias types e := by
  obtain ⟨pre, p, post, h1, h2, _⟩ := h
  exact ⟨p, by rw [h1]; simp, h2⟩

theorem goes_isAlias {types : Dict Str MemTypeInfo} {regions : List SReg} {s : MSec} {k key : Str}
    (hr : ∀ r ∈ regions, IsAlias types r.type.name) (h : Goes types regions s (some (k, key))) : IsAlias types k := by
  cases h with
  | ext h _ => exact extAlias_isAlias h
  | inside _ h _ _ => exact hr _ h
  | between _ _ h _ _ _ => exact hr _ h
  | below _ _ _ h _ => exact hr _ h

/-- The map never fails when the memory types of the regions come from the table, and has one entry per
memory type name, filled by the rule `Goes`. -/
theorem memTypeMap_ok (types : Dict Str MemTypeInfo) (regions : List SReg) (sections : List MSec)
    (hr : ∀ r ∈ regions, IsAlias types r.type.name) (habb : ∀ s ∈ sections, s.abb = abbrevSec s.name) :
    ∃ d goes, getMemTypeMap types regions sections = .ok d ∧ MapOk types regions sections goes d := by
  obtain ⟨d0, h0, hn, hk, hl⟩ := typeSizes_inv hr
  obtain ⟨d, h1, h2, h3⟩ := foldlM_addSection (types := types) (regions := regions) sections habb d0 hn
    (fun s _ x hx => (hk _).mpr (goes_isAlias hr (key := x.2) (hx ▸ goes_goesOf types regions s)))
  have hlook : ∀ k mt, dget d k = some mt → ∃ m0, dget d0 k = some m0 ∧ mt = sections.foldl (accOne (goesOf types regions) k) m0 := by
    intro k mt h
    rw [h3] at h
    obtain ⟨m0, a, b⟩ := Option.map_eq_some_iff.mp h
    exact ⟨m0, a, b.symm⟩
  refine ⟨d, goesOf types regions, ?_, ⟨by unfold KeysNodup; rw [h2]; exact hn, by rw [h2]; exact hk, goes_goesOf types regions, ?_, ?_, ?_⟩⟩
  · unfold getMemTypeMap
    rw [h0]
    exact h1
  all_goals
    intro k mt h
    obtain ⟨m0, a, rfl⟩ := hlook k mt h
    have hm := hl k m0 a
    have := holds_foldl (goesOf types regions) sections k m0 (by rw [hm]; rfl) (by rw [hm]; rfl)
  · exact this.1
  · rw [this.2.1, hm]
  · rw [this.2.2.1, this.2.2.2, hm]; exact ⟨rfl, rfl⟩

/-! ### C16 -/

theorem firstViews_sub (k : Str) (seen rs : List SReg) :
    (firstViews k seen rs).Sublist (rs.filter fun r => r.type.name = k) := by
  induction rs generalizing seen with
  | nil => exact List.Sublist.refl _
  | cons r t ih =>
    unfold firstViews
    rw [List.filter_cons]
    split
    · rename_i h
      rw [if_pos (by simpa using h.1)]
      exact (ih _).cons_cons _
    · split
      · exact (ih _).cons _
      · exact ih _

theorem sumBy_sublist {α : Type} {f : α → Int} {a b : List α} (h : a.Sublist b) (hf : ∀ x ∈ b, 0 ≤ f x) :
    sumBy f a ≤ sumBy f b := by
  induction h with
  | slnil => simp
  | cons x _ ih =>
    have := ih fun y hy => hf y (by simp [hy])
    have := hf x (by simp)
    simp only [sumBy]; omega
  | cons_cons x _ ih =>
    have := ih fun y hy => hf y (by simp [hy])
    simp only [sumBy]; omega

/-- Offset of a region inside the physical memory of its type. -/
def physOff (r : SReg) : Int :=
  if r.type.primary ≤ r.origin ∧ r.origin + r.length ≤ r.type.primary + r.type.length then r.origin - r.type.primary
  else r.origin - r.type.secondary

/-- `r` lies in a window of its type. -/
def InItsWindow (r : SReg) : Prop :=
  0 ≤ r.length ∧ ∃ base, IsBase r.type base ∧ base ≤ r.origin ∧ r.origin + r.length ≤ base + r.type.length

/-- The two regions use different physical memory. -/
def PhysDisjoint (q r : SReg) : Prop :=
  physOff q + q.length ≤ physOff r ∨ physOff r + r.length ≤ physOff q

def cover (o l x : Int) : Int := if o ≤ x ∧ x < o + l then 1 else 0

theorem sum_cover (o l : Int) (n : Nat) (ho : 0 ≤ o) (hl : 0 ≤ l) :
    sumBy (fun x : Nat => cover o l x) (List.range n) = if (n : Int) ≤ o then 0 else if o + l ≤ n then l else n - o := by
  induction n with
  | zero => simp; omega
  | succ n ih =>
    rw [List.range_succ, sumBy_append, ih]
    simp only [sumBy, cover]
    repeat' split
    all_goals omega

theorem cover_le_one (l : List SReg) (off : SReg → Int)
    (h : l.Pairwise fun q r => off q + q.length ≤ off r ∨ off r + r.length ≤ off q) (x : Int) :
    sumBy (fun r => cover (off r) r.length x) l ≤ 1 ∧ 0 ≤ sumBy (fun r => cover (off r) r.length x) l := by
  induction l with
  | nil => simp
  | cons r t ih =>
    obtain ⟨h1, h2⟩ := List.pairwise_cons.mp h
    obtain ⟨i1, i2⟩ := ih h2
    simp only [sumBy]
    by_cases hc : off r ≤ x ∧ x < off r + r.length
    · have : sumBy (fun r => cover (off r) r.length x) t = 0 := by
        apply sumBy_zero
        intro q hq
        have := h1 q hq
        unfold cover
        rw [if_neg (by omega)]
      rw [this]; unfold cover; rw [if_pos hc]; omega
    · have : cover (off r) r.length x = 0 := by unfold cover; rw [if_neg hc]
      omega

theorem packing (l : List SReg) (off : SReg → Int) (L : Int) (hL : 0 ≤ L)
    (hin : ∀ r ∈ l, 0 ≤ r.length ∧ 0 ≤ off r ∧ off r + r.length ≤ L)
    (h : l.Pairwise fun q r => off q + q.length ≤ off r ∨ off r + r.length ≤ off q) :
    sumBy (fun r => r.length) l ≤ L := by
  have e : sumBy (fun r => r.length) l = sumBy (fun r => sumBy (fun x : Nat => cover (off r) r.length x) (List.range L.toNat)) l := by
    apply sumBy_congr
    intro r hr
    obtain ⟨a, b, c⟩ := hin r hr
    rw [sum_cover _ _ _ b a]
    split
    · omega
    · rw [if_pos (by omega)]
  rw [e, sumBy_comm]
  have : ∀ (m : List Nat), sumBy (fun x : Nat => sumBy (fun r => cover (off r) r.length x) l) m ≤ m.length := by
    intro m
    induction m with
    | nil => simp
    | cons x t ih =>
      have := (cover_le_one l off h x).1
      simp only [sumBy, List.length_cons]; omega
  have := this (List.range L.toNat)
  rw [List.length_range] at this
  omega

theorem firstViews_pairwise (k : Str) (R : SReg → SReg → Prop) (seen rs : List SReg)
    (h1 : ∀ q ∈ seen, ∀ r ∈ rs, q.type.name = k → r.type.name = k → SameMemory q r ∨ R q r)
    (h : rs.Pairwise fun q r => q.type.name = k → r.type.name = k → SameMemory q r ∨ R q r) :
    (firstViews k seen rs).Pairwise R ∧
      ∀ q ∈ seen, q.type.name = k → ∀ r ∈ firstViews k seen rs, R q r := by
  induction rs generalizing seen with
  | nil => simp [firstViews]
  | cons r t ih =>
    obtain ⟨h2, h3⟩ := List.pairwise_cons.mp h
    obtain ⟨i1, i2⟩ := ih (seen ++ [r]) (by
      intro q hq x hx
      rcases List.mem_append.mp hq with hq | hq
      · exact h1 q hq x (by simp [hx])
      · have : q = r := by simpa using hq
        subst this; exact h2 x hx) h3
    unfold firstViews
    split
    · rename_i hc
      refine ⟨List.pairwise_cons.mpr ⟨fun x hx => i2 r (by simp) hc.1 x hx, i1⟩, ?_⟩
      intro q hq hqk x hx
      rcases List.mem_cons.mp hx with rfl | hx
      · rcases h1 q hq x (by simp) hqk hc.1 with h | h
        · exact absurd h (hc.2 q hq hqk)
        · exact h
      · exact i2 q (by simp [hq]) hqk x hx
    · exact ⟨i1, fun q hq hqk x hx => i2 q (by simp [hq]) hqk x hx⟩

/-- C16. The size of a memory type is the sum of the lengths of its regions that are not another view of
an earlier one, never more than the plain sum; if any two regions of the type are either views of the same
memory or physically disjoint, it never exceeds the physical length.

Partial: with regions that are merely disjoint as address ranges the last bound fails, see
`C16_partial_alias`. -/
theorem C16_sizes_partial (types : Dict Str MemTypeInfo) (regions : List SReg) (sections : List MSec)
    (hr : ∀ r ∈ regions, IsAlias types r.type.name) (habb : ∀ s ∈ sections, s.abb = abbrevSec s.name) :
    ∃ d, getMemTypeMap types regions sections = .ok d ∧ (∀ k, k ∈ dkeys d ↔ IsAlias types k) ∧
      ∀ k mt, dget d k = some mt →
        mt.size = sumBy (fun r => r.length) (firstViews k [] regions) ∧
        ((∀ r ∈ regions, 0 ≤ r.length) →
          mt.size ≤ sumBy (fun r => r.length) (regions.filter fun r => r.type.name = k)) ∧
        (∀ t : MemTypeInfo, 0 ≤ t.length → (∀ r ∈ regions, r.type.name = k → r.type = t ∧ InItsWindow r) →
          regions.Pairwise (fun q r => q.type.name = k → r.type.name = k → SameMemory q r ∨ PhysDisjoint q r) →
          mt.size ≤ t.length) := by
  obtain ⟨d, goes, hd, ok⟩ := memTypeMap_ok types regions sections hr habb
  refine ⟨d, hd, ok.keys, fun k mt hk => ⟨ok.size k mt hk, fun h0 => ?_, fun t ht hw hp => ?_⟩⟩
  · rw [ok.size k mt hk]
    exact sumBy_sublist (firstViews_sub k [] regions) fun r h => h0 r (List.mem_filter.mp h).1
  · rw [ok.size k mt hk]
    refine packing _ physOff t.length ht ?_ (firstViews_pairwise k _ [] regions (by simp) hp).1
    intro r hr'
    have hm := List.mem_filter.mp ((firstViews_sub k [] regions).subset hr')
    obtain ⟨e, h0, base, hb, h1, h2⟩ := hw r hm.1 (by simpa using hm.2)
    rw [← e]
    refine ⟨h0, ?_⟩
    unfold physOff
    unfold IsBase at hb
    split <;> omega

/-- Two regions of one type, the second a view of the first. -/
def exDiram : MemTypeInfo := { name := str "DIRAM", primary := 1000, length := 100, secondary := 5000 }
def exDTypes : Dict Str MemTypeInfo := [(str "DIRAM", exDiram)]
def exReg (n : String) (o l : Int) : SReg := { name := str n, origin := o, length := l, attrs := str "rw", type := exDiram }

example : getMemTypeMap exDTypes [exReg "iram" 1010 50, exReg "dram" 5010 50, exReg "rtc" 1060 40] [] =
    .ok [(str "DIRAM", { emptyType with size := 90 })] := by decide

/-- Against C16: two regions with disjoint addresses that view the same memory with different lengths are
counted twice, beyond the physical length. -/
theorem C16_partial_alias :
    ∃ d mt, getMemTypeMap exDTypes [exReg "iram" 1000 100, exReg "dram" 5000 60] [] = .ok d ∧
      dget d (str "DIRAM") = some mt ∧ mt.size = 160 ∧ exDiram.length = 100 :=
  ⟨[(str "DIRAM", { emptyType with size := 160 })], _, by decide, rfl, by decide, rfl⟩

/-- The condition on the table holds for the regions produced by the region splitting. -/
theorem pieces_isAlias {types : Dict Str MemTypeInfo} {r : Region} {p : SReg} (h : PieceOk types r p) :
    IsAlias types p.type.name := by
  obtain ⟨_, _, _, k, _, hk, _⟩ := h
  exact ⟨(k, p.type), hk, rfl⟩

/-! ### C17 -/

theorem sumBy_partition (goes : MSec → Option (Str × Str)) (ks : List Str) (hk : ks.Nodup) (sections : List MSec)
    (h : ∀ s ∈ sections, ∀ x, goes s = some x → x.1 ∈ ks) :
    sumBy (fun k => sumBy (fun s => s.size) (sections.filter fun s => (goes s).any fun x => x.1 = k)) ks +
      sumBy (fun s => s.size) (sections.filter fun s => (goes s).isNone) = sumBy (fun s => s.size) sections := by
  induction sections with
  | nil => simp [sumBy_zero (fun _ _ => rfl)]
  | cons s t ih =>
    replace ih := ih fun x hx => h x (by simp [hx])
    have e : ∀ k, sumBy (fun s => s.size) ((s :: t).filter fun s => (goes s).any fun x => decide (x.1 = k)) =
        (if (goes s).any (fun x => decide (x.1 = k)) = true then s.size else 0) +
          sumBy (fun s => s.size) (t.filter fun s => (goes s).any fun x => decide (x.1 = k)) := by
      intro k
      rw [List.filter_cons]
      split <;> simp [sumBy]
    simp only [e, sumBy_add]
    rw [List.filter_cons]
    cases hg : goes s with
    | none =>
      simp only [Option.any_none, Bool.false_eq_true, if_false, Option.isNone_none, if_true, sumBy]
      rw [sumBy_zero (fun _ _ => rfl)]; omega
    | some x =>
      simp only [Option.any_some, decide_eq_true_eq, Option.isNone_some, Bool.false_eq_true, if_false, sumBy]
      have hx := h s (by simp) x hg
      have : sumBy (fun k => if x.1 = k then s.size else 0) ks = s.size := by
        clear e h hg
        clear ih
        induction ks with
        | nil => cases hx
        | cons a as iha =>
          simp only [sumBy]
          obtain ⟨n1, n2⟩ := List.nodup_cons.mp hk
          by_cases ha : x.1 = a
          · rw [if_pos ha, sumBy_zero, Int.add_zero]
            intro b hb
            rw [if_neg]
            intro h'; exact n1 (by rw [← ha, h']; exact hb)
          · rw [if_neg ha, iha n2 (by simpa [ha] using hx)]; omega
      omega

theorem abb_addArchives {sections : List OSec} : ∀ s ∈ addArchives sections, s.abb = abbrevSec s.name := by
  intro s hs
  unfold addArchives at hs
  obtain ⟨o, _, rfl⟩ := List.mem_map.mp hs
  rfl

/-- Size of the sections `goes` sends nowhere (the sections of the "cannot assign" warning). -/
def lostSize (goes : MSec → Option (Str × Str)) (sections : List MSec) : Int :=
  sumBy (fun s => s.size) (sections.filter fun s => (goes s).isNone)

/-- C17. Every byte of output section is accounted exactly once: `used` of all memory types plus the sizes
of the sections that cannot be assigned is the total size of the sections before splitting. -/
theorem C17_accounted (types : Dict Str MemTypeInfo) (regions : List SReg) (kept : List OSec)
    (hr : ∀ r ∈ regions, IsAlias types r.type.name) :
    ∃ d goes, getMemTypeMap types regions (addArchives (splitMapSections kept regions)) = .ok d ∧
      (∀ s, Goes types regions s (goes s)) ∧
      sumBy (fun p => p.2.used) d + lostSize goes (addArchives (splitMapSections kept regions)) =
        sumBy (fun s => s.size) kept := by
  obtain ⟨d, goes, hd, ok⟩ := memTypeMap_ok types regions (addArchives (splitMapSections kept regions)) hr abb_addArchives
  refine ⟨d, goes, hd, ok.rule, ?_⟩
  have e : sumBy (fun p => p.2.used) d = sumBy (fun k => sumBy (fun s => s.size)
      ((addArchives (splitMapSections kept regions)).filter fun s => (goes s).any fun x => x.1 = k)) (dkeys d) := by
    unfold dkeys
    rw [sumBy_map]
    apply sumBy_congr
    intro p hp
    exact (ok.holds p.1 p.2 (dget_of_mem ok.nodup hp)).used
  unfold lostSize
  rw [e, sumBy_partition goes (dkeys d) ok.nodup]
  · rw [← C19_total kept regions]
    unfold addArchives
    rw [sumBy_map]
  · intro s _ x hx
    exact (ok.keys _).mpr (goes_isAlias hr (key := x.2) (hx ▸ ok.rule s))

/-! ### C18 -/

/-- C18. `used` of a memory type is the sum of the sizes of its sections, when no two output sections go
to the same entry.

Partial: two parts of one output section that fall into the same memory type share their entry, see
`C18_same_name_lost`. -/
theorem C18_used_partial (types : Dict Str MemTypeInfo) (regions : List SReg) (sections : List MSec)
    (hr : ∀ r ∈ regions, IsAlias types r.type.name) (habb : ∀ s ∈ sections, s.abb = abbrevSec s.name) :
    ∃ d, ∃ goes : MSec → Option (Str × Str), getMemTypeMap types regions sections = .ok d ∧ (∀ s, Goes types regions s (goes s)) ∧
      ((∀ i j : Nat, ∀ s s', i < j → sections[i]? = some s → sections[j]? = some s' →
          ∀ x, goes s = some x → goes s' ≠ some x) →
        ∀ k mt, dget d k = some mt → mt.used = sumBy (fun p => p.2.size) mt.sections) := by
  obtain ⟨d, goes, hd, ok⟩ := memTypeMap_ok types regions sections hr habb
  refine ⟨d, goes, hd, ok.rule, fun h k mt hk => (ok.holds k mt hk).distinct ?_⟩
  intro i j s s' hij hi hj key h1 h2
  exact h i j s s' hij hi hj (k, key) h1 h2

/-- The part of C18 that needs no condition: every section entry is the last output section that goes to
it, and `used` counts all of them. -/
theorem C18_entries (types : Dict Str MemTypeInfo) (regions : List SReg) (sections : List MSec)
    (hr : ∀ r ∈ regions, IsAlias types r.type.name) (habb : ∀ s ∈ sections, s.abb = abbrevSec s.name) :
    ∃ d goes, getMemTypeMap types regions sections = .ok d ∧ MapOk types regions sections goes d :=
  memTypeMap_ok types regions sections hr habb

def exTwo : List SReg := [exReg "dram" 1000 50, exReg "dram2" 1050 50]
def exPart (a : Int) : OSec := { name := str ".dram0.bss", address := a, size := 10, inputs := [] }
def exLong : OSec := { name := str ".dram0.bss", address := 1040, size := 20, inputs := [] }

/-- Against C18: an output section over two regions of the same memory type. -/
theorem C18_same_name_lost :
    ∃ d mt, getMemTypeMap exDTypes exTwo (addArchives (splitMapSections [exLong] exTwo)) = .ok d ∧
      dget d (str "DIRAM") = some mt ∧ mt.used = 20 ∧ sumBy (fun p => p.2.size) mt.sections = 10 := by
  have h : splitMapSections [exLong] exTwo =
      [exPart 1040, exPart 1050] := by
    unfold splitMapSections
    show splitStack exTwo [exLong] = _
    rw [splitStack_some (a := exPart 1040) (b := exPart 1050) (by decide),
      splitStack_none (by decide), splitStack]
  rw [h]
  exact ⟨[(str "DIRAM", { emptyType with size := 100, used := 20, sections :=
    [(str ".dram0.bss", { abb := str ".bss", size := 10, sizeDiff := 0, kids := [] })] })], _, by decide, rfl, rfl, by decide⟩

/-! ### C24, C25 -/

theorem extAlias_unique {types : Dict Str MemTypeInfo} {e e' : Str} (h : ExtAlias types e) (h' : ExtAlias types e') : e = e' := by
  rw [← extRamAlias_some] at h h'
  rw [h] at h'; exact Option.some.inj h'

/-- C24. On a chip with external RAM, the output sections with the known names go there whatever their
address, under their name, and to no other memory type; all others, and all on other chips, go to the region that contains their
address (lowest origin), whatever their name. -/
theorem C24_external_ram (types : Dict Str MemTypeInfo) (regions : List SReg) (sections : List MSec)
    (hr : ∀ r ∈ regions, IsAlias types r.type.name) (habb : ∀ s ∈ sections, s.abb = abbrevSec s.name) :
    ∃ d goes, getMemTypeMap types regions sections = .ok d ∧ MapOk types regions sections goes d ∧
      (∀ s e, ExtAlias types e → ExtName s.name → goes s = some (e, s.name)) ∧
      (∀ s, (∀ e, ExtAlias types e → ¬ ExtName s.name) →
        (∃ r ∈ regions, InRegion r s.address) →
        ∃ r ∈ regions, InRegion r s.address ∧ (∀ r' ∈ regions, InRegion r' s.address → r.origin ≤ r'.origin) ∧
          goes s = some (r.type.name, s.name)) := by
  obtain ⟨d, goes, hd, ok⟩ := memTypeMap_ok types regions sections hr habb
  refine ⟨d, goes, hd, ok, fun s e he hn => ?_, fun s hs => ?_⟩
  · have := ok.rule s
    generalize goes s = g at this
    cases this with
    | ext h _ => rw [extAlias_unique h he]
    | inside h _ _ _ => exact absurd hn (h e he)
    | between h _ _ _ _ _ => exact absurd hn (h e he)
    | below h _ _ _ _ => exact absurd hn (h e he)
    | above h _ _ => exact absurd hn (h e he)
    | alone h _ _ => exact absurd hn (h e he)
  · rintro ⟨r0, hr0, hin⟩
    have := ok.rule s
    generalize goes s = g at this
    cases this with
    | ext h hn => exact absurd hn (hs _ h)
    | inside _ h1 h2 h3 => exact ⟨_, h1, h2, h3, rfl⟩
    | between _ h _ _ _ _ => exact absurd hin (h r0 hr0)
    | below _ h _ _ _ => have := h r0 hr0; unfold InRegion at hin; omega
    | above _ h _ => exact absurd hin (h r0 hr0)
    | alone _ h _ => have := h r0 hr0; unfold InRegion at hin; omega

/-- Consequence for the map: the entry is there. -/
theorem C24_entry (types : Dict Str MemTypeInfo) (regions : List SReg) (sections : List MSec)
    (hr : ∀ r ∈ regions, IsAlias types r.type.name) (habb : ∀ s ∈ sections, s.abb = abbrevSec s.name) (e : Str)
    (he : ExtAlias types e) :
    ∃ d mt, getMemTypeMap types regions sections = .ok d ∧ dget d e = some mt ∧
      ∀ s ∈ sections, ExtName s.name → (dget mt.sections s.name).isSome = true := by
  obtain ⟨d, goes, hd, ok, h1, _⟩ := C24_external_ram types regions sections hr habb
  obtain ⟨mt, hmt⟩ := Option.isSome_iff_exists.mp (dget_isSome.mpr ((ok.keys e).mpr (extAlias_isAlias he)))
  exact ⟨d, mt, hd, hmt, fun s hs hn => ((ok.holds e mt hmt).keys s.name).mpr ⟨s, hs, h1 s e he hn⟩⟩

/-- External RAM shares the address window of the flash; the section goes to external RAM by name. -/
def exExt : MemTypeInfo := { name := str "External RAM", primary := 1000, length := 100, secondary := 0 }
def exETypes : Dict Str MemTypeInfo := [(str "DIRAM", exDiram), (str "EXT_RAM", exExt)]
def exESec (n : String) : MSec := { name := str n, abb := abbrevSec (str n), address := 1000, size := 8, archives := [] }

example : ExtAlias exETypes (str "External RAM") :=
  ⟨[(str "DIRAM", exDiram)], (str "EXT_RAM", exExt), [], rfl, rfl, by decide, by decide⟩
example : getMemTypeMap exETypes [exReg "dram" 1000 50] [exESec ".ext_ram.bss", exESec ".dram0.bss"] =
    .ok [(str "DIRAM", { emptyType with size := 50, used := 8, sections :=
        [(str ".dram0.bss", { abb := str ".bss", size := 8, sizeDiff := 0, kids := [] })] }),
      (str "External RAM", { emptyType with size := 0, used := 8, sections :=
        [(str ".ext_ram.bss", { abb := abbrevSec (str ".ext_ram.bss"), size := 8, sizeDiff := 0, kids := [] })] })] := by decide

/-- C25. An output section in no region, above some region and below another, is accounted to the closest
region below it with the suffix `_overflow`.

Partial: it needs a region above the section too, see `C25_above_all`; and a section below all regions
is treated as overflow of the region above it, see `C25_below_all`. -/
theorem C25_overflow_partial (types : Dict Str MemTypeInfo) (regions : List SReg) (sections : List MSec)
    (hr : ∀ r ∈ regions, IsAlias types r.type.name) (habb : ∀ s ∈ sections, s.abb = abbrevSec s.name) :
    ∃ d goes, getMemTypeMap types regions sections = .ok d ∧ MapOk types regions sections goes d ∧
      ∀ s, (∀ e, ExtAlias types e → ¬ ExtName s.name) → (∀ r ∈ regions, ¬ InRegion r s.address) →
        (∃ r ∈ regions, r.origin ≤ s.address) → (∃ r ∈ regions, s.address < r.origin) →
        ∃ r ∈ regions, r.origin ≤ s.address ∧ (∀ r' ∈ regions, r'.origin ≤ s.address → r'.origin ≤ r.origin) ∧
          goes s = some (r.type.name, s.name ++ str "_overflow") := by
  obtain ⟨d, goes, hd, ok⟩ := memTypeMap_ok types regions sections hr habb
  refine ⟨d, goes, hd, ok, fun s hs hno ⟨lo, hlo, hlo'⟩ ⟨hi, hhi, hhi'⟩ => ?_⟩
  have := ok.rule s
  generalize goes s = g at this
  cases this with
  | ext h hn => exact absurd hn (hs _ h)
  | inside _ h1 h2 _ => exact absurd h2 (hno _ h1)
  | between _ _ h1 h2 h3 _ => exact ⟨_, h1, h2, h3, rfl⟩
  | below _ h _ _ _ => have := h lo hlo; omega
  | above _ _ h => have := h hi hhi; omega
  | alone _ h _ => have := h lo hlo; omega

def exIram : MemTypeInfo := { name := str "IRAM", primary := 3000, length := 100, secondary := 0 }
def exIReg : SReg := { name := str "iram", origin := 3000, length := 50, attrs := str "rx", type := exIram }
def exOTypes : Dict Str MemTypeInfo := [(str "DIRAM", exDiram), (str "IRAM", exIram)]
def exMSec (a : Int) : MSec := { name := str ".bss", abb := str ".bss", address := a, size := 8, archives := [] }

/-- A section between the two regions. -/
example : getMemTypeMap exOTypes [exReg "dram" 1000 50, exIReg] [exMSec 1050] =
    .ok [(str "DIRAM", { emptyType with size := 50, used := 8, sections :=
      [(str ".bss_overflow", { abb := str ".bss_overflow", size := 8, sizeDiff := 0, kids := [] })] }),
     (str "IRAM", { emptyType with size := 50 })] := by decide

/-- Against C25: a section above all regions, the usual overflow of the highest region, is not accounted. -/
theorem C25_above_all :
    getMemTypeMap exOTypes [exReg "dram" 1000 50, exIReg] [exMSec 3050] =
      .ok [(str "DIRAM", { emptyType with size := 50 }), (str "IRAM", { emptyType with size := 50 })] := by decide

/-- Against C25: a section below all regions is accounted to a region above it. -/
theorem C25_below_all :
    ∃ d mt, getMemTypeMap exOTypes [exReg "dram" 1000 50, exIReg] [exMSec 10] = .ok d ∧
      dget d (str "DIRAM") = some mt ∧ mt.used = 8 :=
  ⟨[(str "DIRAM", { emptyType with size := 50, used := 8, sections :=
      [(str ".bss_overflow", { abb := str ".bss_overflow", size := 8, sizeDiff := 0, kids := [] })] }),
     (str "IRAM", { emptyType with size := 50 })], _, by decide, rfl, rfl⟩

end EspSize
