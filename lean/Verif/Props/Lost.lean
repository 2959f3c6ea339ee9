import Verif.Props.RunTotals
import Verif.Props.Pieces
import Verif.Spec.Lost
/-!
# The totals of the map, without conditions

The map shows the parts that have a memory type and are not replaced by a later part.
-/
namespace EspSize

section
variable {goes : MSec → Option (Str × Str)}

theorem shown_lost_sum (v : MSec → Int) (ps : List MSec) :
    sumBy v (shownParts goes ps) + sumBy v (lostParts goes ps) = sumBy v ps := by
  induction ps with
  | nil => rfl
  | cons p ps ih =>
    unfold shownParts lostParts
    split <;> simp only [sumBy_cons] <;> omega

theorem mem_shown {p : MSec} {ps : List MSec} (h : p ∈ shownParts goes ps) : p ∈ ps ∧ goes p ≠ none := by
  induction ps with
  | nil => cases h
  | cons q ps ih =>
    unfold shownParts at h
    split at h
    · exact ⟨by simp [(ih h).1], (ih h).2⟩
    · rename_i hq
      rcases List.mem_cons.mp h with rfl | h
      · exact ⟨by simp, fun e => hq (.inl e)⟩
      · exact ⟨by simp [(ih h).1], (ih h).2⟩

theorem shown_pairwise (ps : List MSec) : (shownParts goes ps).Pairwise fun p q => goes p ≠ goes q := by
  induction ps with
  | nil => exact List.Pairwise.nil
  | cons p ps ih =>
    unfold shownParts
    split
    · exact ih
    · rename_i hp
      refine List.Pairwise.cons ?_ ih
      intro q hq e
      exact hp (.inr ⟨q, (mem_shown hq).1, e.symm⟩)

theorem last_shown {s : MSec} {pre post : List MSec} (hs : goes s ≠ none) (hpost : ∀ q ∈ post, goes q ≠ goes s) :
    s ∈ shownParts goes (pre ++ s :: post) := by
  induction pre with
  | nil =>
    simp only [List.nil_append]
    unfold shownParts
    rw [if_neg]
    · exact List.mem_cons_self
    · rintro (h | ⟨q, hq, e⟩)
      · exact hs h
      · exact hpost q hq e
  | cons p pre ih =>
    simp only [List.cons_append]
    unfold shownParts
    split
    · exact ih
    · exact List.mem_cons_of_mem _ ih

theorem lost_nil {ps : List MSec} (hnc : ¬ Collision goes ps) (hall : ∀ s ∈ ps, goes s ≠ none) : lostParts goes ps = [] := by
  induction ps with
  | nil => rfl
  | cons p ps ih =>
    unfold lostParts
    rw [if_neg]
    · refine ih ?_ fun s hs => hall s (by simp [hs])
      rintro ⟨i, j, s, s', x, hij, hi, hj, h1, h2⟩
      exact hnc ⟨i + 1, j + 1, s, s', x, by omega, by simpa using hi, by simpa using hj, h1, h2⟩
    · rintro (h | ⟨q, hq, e⟩)
      · exact hall p (by simp) h
      · obtain ⟨x, hx⟩ := Option.ne_none_iff_exists'.mp (hall p (by simp))
        obtain ⟨j, hj, e'⟩ := List.mem_iff_getElem.mp hq
        exact hnc ⟨0, j + 1, p, q, x, by omega, rfl, by simp [hj, e'], hx, by rw [e, hx]⟩

theorem sumBy_of_dget {κ α : Type} [DecidableEq κ] {a b : Dict κ α} (ha : KeysNodup a) (hb : KeysNodup b)
    (h : ∀ k, dget a k = dget b k) (f : κ × α → Int) : sumBy f a = sumBy f b := by
  have hnd : ∀ d : Dict κ α, KeysNodup d → d.Nodup := by
    intro d hd
    unfold KeysNodup dkeys List.Nodup at hd
    rw [List.pairwise_map] at hd
    exact hd.imp fun hne e => hne (by rw [e])
  have na := hnd a ha
  have nb := hnd b hb
  apply sumBy_perm
  rw [List.perm_ext_iff_of_nodup na nb]
  intro p
  constructor
  · intro hp
    exact mem_of_dget (k := p.1) (by rw [← h]; exact dget_of_mem ha hp)
  · intro hp
    exact mem_of_dget (k := p.1) (by rw [h]; exact dget_of_mem hb hp)

/-- The entry of a part in memory type `k`. -/
def entryIn (goes : MSec → Option (Str × Str)) (k : Str) (s : MSec) : Option (Str × Sec) :=
  match goes s with
  | some x => if x.1 = k then some (x.2, secEntry x.2 s) else none
  | none => none

theorem entryIn_some {k : Str} {s : MSec} {p : Str × Sec} (h : entryIn goes k s = some p) :
    goes s = some (k, p.1) ∧ p.2 = secEntry p.1 s := by
  unfold entryIn at h
  split at h
  · rename_i x hx
    split at h
    · rename_i hk
      cases h
      exact ⟨by rw [hx, ← hk], rfl⟩
    · cases h
  · cases h

/-- Sums over the sections of a memory type are sums over the parts shown there. -/
theorem holds_sum {parts : List MSec} {k : Str} {mt : MType} (h : Holds goes parts k mt) (g : Sec → Int) :
    sumBy (fun p => g p.2) mt.sections = sumBy (entryValue goes k g) (shownParts goes parts) := by
  have hL : sumBy (entryValue goes k g) (shownParts goes parts) =
      sumBy (fun p => g p.2) ((shownParts goes parts).filterMap (entryIn goes k)) := by
    rw [sumBy_filterMap]
    apply sumBy_congr
    intro s _
    unfold entryValue entryIn
    cases goes s with
    | none => rfl
    | some x =>
      simp only []
      by_cases hx : x.1 = k <;> simp [hx]
  have hn : KeysNodup ((shownParts goes parts).filterMap (entryIn goes k)) := by
    unfold KeysNodup dkeys List.Nodup
    rw [List.pairwise_map, List.pairwise_filterMap]
    refine (shown_pairwise parts).imp ?_
    intro s s' hne p hp q hq e
    have h1 := (entryIn_some hp).1
    have h2 := (entryIn_some hq).1
    exact hne (by rw [h1, h2, e])
  rw [hL]
  apply sumBy_of_dget h.nodup hn
  intro key
  cases hk : dget mt.sections key with
  | none =>
    symm
    rw [dget_eq_none]
    intro hm
    obtain ⟨p, hp, e⟩ := List.mem_map.mp hm
    obtain ⟨s, hs, he⟩ := List.mem_filterMap.mp hp
    have h1 := (entryIn_some he).1
    have : (dget mt.sections key).isSome = true := (h.keys key).mpr ⟨s, (mem_shown hs).1, by rw [h1, e]⟩
    rw [hk] at this; cases this
  | some x =>
    symm
    obtain ⟨pre, s, post, h1, h2, h3, h4⟩ := h.last key x hk
    apply dget_of_mem hn
    refine List.mem_filterMap.mpr ⟨s, ?_, ?_⟩
    · rw [h1]
      exact last_shown (by rw [h2]; simp) fun q hq => by rw [h2]; exact h4 q hq
    · unfold entryIn
      rw [h2]
      simp [h3]

end

/-- The files of the parts are those of the output sections. -/
theorem partsFiles_total {n : Nat} {ls : Bool} {l : GetIn} {regs : List SReg} {parts : List MSec} (hp : PartsOf n ls l regs parts)
    (P : Str → Str → Bool) : partsFiles P parts = sumBy (inputSum (fun x y _ => P x y) ISec.size) (keptOf l) := by
  unfold partsFiles
  obtain ⟨osecs, hsy, rfl⟩ := hp.sections
  have hsame := symbolStep_same hsy
  have h1 : sumBy (fun p : MSec => sumBy (fun a => sumBy (fun o => if P a.1 o.1 then o.2.size else 0) a.2.kids) p.archives)
      (addArchives (splitMapSections osecs regs)) =
      sumBy (inputSum (fun x y _ => P x y) ISec.size) (splitMapSections osecs regs) := by
    symm
    exact (C23_archives (splitMapSections osecs regs)).sum fun s ms hsm => (objs_inputSum hsm P).symm
  rw [h1]
  obtain ⟨ps, hp1, hp2⟩ := C19_split_sections osecs regs
  rw [hp1, sumBy_flatMap, sumBy_perm (List.reverse_perm osecs)]
  rw [sumBy_congr fun s _ => (hp2 s).sizes _]
  rw [← kept_sum l _ (inputSum_filter _)]
  symm
  exact hsame.sum fun x y hxy => (symsOf_inputSum hxy _).symm

/-- Every total over the sections of the map returned by `get` is a total over the parts that are shown. -/
theorem get_shown {n : Nat} {w : World} {fn : Str} {ls : Bool} {ud : Option Bool} {mf : Option MapFile} {m : MemMap} {e : Option ElfData}
    (h : getMap n w fn ls ud mf e = some (.ok m)) :
    ∃ l regs parts goes, load w fn ud mf = .ok l ∧ PartsOf n ls l regs parts ∧ (∀ s, Goes l.types regs s (goes s)) ∧ m.WF ∧
      (∀ k s x, getSec m k s = some x → x.sizeDiff = 0 ∧ ∃ p ∈ parts, x = secEntry s p ∧ goes p = some (k, s)) ∧
      (∀ k mt, getType m k = some mt → IsAlias l.types k ∧ Holds goes parts k mt) ∧
      sumBy (fun p => p.2.used) m.memoryTypes + lostSize goes parts = sumBy (fun s => s.size) (keptOf l) ∧
      (∀ (g : Sec → Int) (v : MSec → Int), (∀ key s, g (secEntry key s) = v s) → secsTotal g m = sumBy v (shownParts goes parts)) ∧
      (∀ P : Str → Str → Bool, partsFiles P parts = sumBy (inputSum (fun x y _ => P x y) ISec.size) (keptOf l)) := by
  obtain ⟨l, regs, parts, goes, hl, hp, hwf, _, _, _, hsec, hg, hused, _, hold, hkeys⟩ := C58_accounted n w fn ls ud mf e m h
  refine ⟨l, regs, parts, goes, hl, hp, hg, hwf, hsec, fun k mt hk => ⟨(hold k mt hk).1, (hold k mt hk).2.1⟩, hused, ?_, ?_⟩
  · intro g v hv
    obtain ⟨ws, hsplit⟩ := hp.regions
    have hft := isAlias_of (splitRegions_fromTable (by intro p hp; cases hp) hsplit)
    unfold secsTotal
    have e : sumBy (fun t : Str × MType => sumBy (fun s => g s.2) t.2.sections) m.memoryTypes =
        sumBy (fun k => sumBy (entryValue goes k g) (shownParts goes parts)) (dkeys m.memoryTypes) := by
      unfold dkeys
      rw [sumBy_map]
      apply sumBy_congr
      intro p hp
      exact holds_sum (hold p.1 p.2 (dget_of_mem hwf.1 hp)).2.1 g
    rw [e]
    apply entryValue_sum hv _ hwf.1
    intro s hs
    cases hx : goes s with
    | none => exact absurd hx (mem_shown hs).2
    | some x => exact ⟨x, rfl, dget_isSome.mp (hkeys _ (goes_isAlias hft (key := x.2) (hx ▸ hg s)))⟩
  · exact partsFiles_total hp

end EspSize
