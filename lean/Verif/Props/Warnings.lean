import Verif.Spec.Warnings
import Verif.Props.SymRun
import Verif.Props.MapErrors
/-! # C80: the warnings of a run -/
namespace EspSize

/-! ### Output sections -/

theorem goes_none {types : Dict Str MemTypeInfo} {regions : List SReg} {s : MSec} {x : Option (Str × Str)}
    (h : Goes types regions s x) : x = none ↔ NoPlace types regions s := by
  cases h with
  | ext he hn => exact ⟨fun h => (nomatch h), fun h => absurd hn (h.1 _ he)⟩
  | inside hx hr hin _ =>
    refine ⟨fun h => (nomatch h), fun h => ?_⟩
    rcases h.2 with ⟨h1, _⟩ | ⟨h1, _⟩
    · exact absurd hin (h1 _ hr)
    · have := h1 _ hr; unfold InRegion at hin; omega
  | between hx hno hr hle _ hgt =>
    refine ⟨fun h => (nomatch h), fun h => ?_⟩
    obtain ⟨r', hr', hgt⟩ := hgt
    rcases h.2 with ⟨_, h1⟩ | ⟨h1, _⟩
    · have := h1 _ hr'; omega
    · have := h1 _ hr; omega
  | below hx hlt h2 hr _ =>
    refine ⟨fun h => (nomatch h), fun h => ?_⟩
    rcases h.2 with ⟨_, h1⟩ | ⟨_, h1⟩
    · have := h1 _ hr; have := hlt _ hr; omega
    · omega
  | above hx h1 h2 => exact ⟨fun _ => ⟨hx, .inl ⟨h1, h2⟩⟩, fun _ => rfl⟩
  | alone hx h1 h2 => exact ⟨fun _ => ⟨hx, .inr ⟨h1, h2⟩⟩, fun _ => rfl⟩

theorem placeLoop_ne_ext {a : Int} {l : List SReg} {p : Option SReg} {e : Str} : placeLoop a p l ≠ .ext e := by
  induction l generalizing p with
  | nil => unfold placeLoop; intro h; cases h
  | cons q l ih =>
    unfold placeLoop
    split
    · intro h; cases h
    · split
      · split
        · intro h; cases h
        · exact ih
      · exact ih

theorem placeLoop_inside {a : Int} {l : List SReg} {p : Option SReg} {r : SReg} (h : placeLoop a p l = .inside r) :
    r ∈ l ∧ InRegion r a := by
  induction l generalizing p with
  | nil => unfold placeLoop at h; cases h
  | cons q l ih =>
    unfold placeLoop at h
    split at h
    · rename_i hin
      cases h
      exact ⟨by simp, hin⟩
    · split at h
      · split at h
        · cases h
        · have := ih h; exact ⟨by simp [this.1], this.2⟩
      · have := ih h; exact ⟨by simp [this.1], this.2⟩

theorem place_loop {ext : Option Str} {l : List SReg} {s : MSec} {r : SReg} (h : place ext l s = .inside r) :
    placeLoop s.address none l = .inside r := by
  unfold place at h
  split at h
  · split at h
    · cases h
    · exact h
  · exact h

/-- **C80** the message "cannot assign output section" is given for exactly the parts that belong to no memory type. -/
theorem C80_nowhere (types : Dict Str MemTypeInfo) (regions : List SReg) (s : MSec) :
    sectionMsgs types regions s = [.nowhere s] ↔ NoPlace types regions s := by
  rw [← goes_none (goes_goesOf types regions s)]
  unfold sectionMsgs goesOf
  cases place (extRamAlias types) (sortedBy (fun r => r.origin) false regions) s with
  | ext e => simp
  | inside r => dsimp only; split <;> simp
  | overflow r => simp
  | nowhere => simp

/-- **C80** the message "overflow detected" names the region that the part is accounted to, under a name that ends in
`_overflow`; it is given for exactly the parts that are in no region and go to one nevertheless. -/
theorem C80_overflow (types : Dict Str MemTypeInfo) (regions : List SReg) (s : MSec) :
    (∀ r, sectionMsgs types regions s = [.overflow s r] → r ∈ regions ∧ goesOf types regions s = some (r.type.name, overflowKey s.name)) ∧
    ((∃ r, sectionMsgs types regions s = [.overflow s r]) ↔
      (∀ e, ExtAlias types e → ¬ ExtName s.name) ∧ (∀ r ∈ regions, ¬ InRegion r s.address) ∧ ¬ NoPlace types regions s) := by
  have hg := goes_goesOf types regions s
  have hreg : ∀ r, place (extRamAlias types) (sortedBy (fun r => r.origin) false regions) s = .overflow r → r ∈ regions := by
    intro r hr
    have hmem : ∀ (l : List SReg) (p : Option SReg) x, placeLoop s.address p l = .overflow x → x ∈ l ∨ p = some x := by
      intro l
      induction l with
      | nil => intro p x h; cases p <;> cases h
      | cons q l ih =>
        intro p x h
        unfold placeLoop at h
        split at h
        · cases h
        · split at h
          · split at h
            · cases h; exact .inr rfl
            · rcases ih _ _ h with h | h
              · exact .inl (by simp [h])
              · cases h; exact .inl (by simp)
          · rcases ih _ _ h with h | h
            · exact .inl (by simp [h])
            · cases h; exact .inl (by simp)
    have hloop : placeLoop s.address none (sortedBy (fun r => r.origin) false regions) = .overflow r := by
      unfold place at hr
      split at hr
      · split at hr
        · cases hr
        · exact hr
      · exact hr
    rcases hmem _ _ _ hloop with h | h
    · exact (sortedBy_stable (fun r : SReg => r.origin) false regions).perm.mem_iff.mp h
    · cases h
  constructor
  · intro r h
    unfold sectionMsgs at h
    unfold goesOf
    split at h
    · cases h
    · split at h <;> cases h
    · rename_i q hq
      simp only [List.cons.injEq, Msg.overflow.injEq, and_true, true_and] at h
      subst h
      rw [hq]
      exact ⟨hreg _ hq, rfl⟩
    · cases h
  · constructor
    · rintro ⟨r, h⟩
      have hne : ¬ NoPlace types regions s := by
        rw [← C80_nowhere, h]; simp
      have hp : place (extRamAlias types) (sortedBy (fun r => r.origin) false regions) s = .overflow r := by
        unfold sectionMsgs at h
        split at h
        · cases h
        · split at h <;> cases h
        · rename_i q hq
          simp only [List.cons.injEq, Msg.overflow.injEq, and_true, true_and] at h
          subst h; exact hq
        · cases h
      have hgo : goesOf types regions s = some (r.type.name, overflowKey s.name) := by
        unfold goesOf; rw [hp]
      rw [hgo] at hg
      have hlen : s.name ≠ overflowKey s.name := by
        intro e
        have := congrArg List.length e
        simp [overflowKey, str] at this
      generalize hk : (some (r.type.name, overflowKey s.name)) = x at hg
      cases hg with
      | ext _ _ => simp only [Option.some.injEq, Prod.mk.injEq] at hk; exact absurd hk.2.symm hlen
      | inside _ _ _ _ => simp only [Option.some.injEq, Prod.mk.injEq] at hk; exact absurd hk.2.symm hlen
      | between h1 h2 _ _ _ _ => exact ⟨h1, h2, hne⟩
      | below h1 h2 _ _ _ => exact ⟨h1, fun r' hr' hin => by have := h2 r' hr'; unfold InRegion at hin; omega, hne⟩
      | above _ _ _ => cases hk
      | alone _ _ _ => cases hk
    · rintro ⟨h1, h2, h3⟩
      unfold sectionMsgs
      unfold goesOf at hg
      split at hg
      · rename_i e he
        exfalso
        unfold place at he
        split at he
        · rename_i e' he'
          split at he
          · rename_i hn
            exact h1 e' (extRamAlias_some.mp he') ((extName_iff _).mp hn)
          · exact placeLoop_ne_ext he
        · exact placeLoop_ne_ext he
      · rename_i r hr
        exfalso
        have := placeLoop_inside (place_loop hr)
        exact h2 r ((sortedBy_stable (fun r : SReg => r.origin) false regions).perm.mem_iff.mp this.1) this.2
      · rename_i r hr
        rw [hr]
        exact ⟨r, rfl⟩
      · exact absurd ((goes_none hg).mp rfl) h3

/-! ### The messages of `get` -/

theorem announced_append (a b : List Msg) : announced (a ++ b) = announced a + announced b := by
  unfold announced; exact sumBy_append ..

theorem announced_zero {l : List Msg} (h : ∀ m ∈ l, ∀ s, m ≠ .nowhere s) : announced l = 0 := by
  unfold announced
  apply sumBy_zero
  intro m hm
  have := h m hm
  cases m with
  | nowhere s => exact absurd rfl (this s)
  | _ => rfl

theorem targetMsgs_kind (lines : List Str) (found : Bool) : ∀ m ∈ targetMsgs lines found, m = .noTarget := by
  induction lines generalizing found with
  | nil => simp [targetMsgs]
  | cons l ls ih =>
    unfold targetMsgs
    split
    · simp
    · split
      · exact ih _
      · split
        · simp
        · exact ih _

theorem mapMsgs_kind (w : World) (fn : Str) : ∀ m ∈ mapMsgs w fn, m = .noTarget := by
  unfold mapMsgs
  split
  · simp
  · split
    · simp
    · exact targetMsgs_kind _ _

theorem useMapMsgs_kind (w : World) (fn : Str) (f : Option MapFile) : ∀ m ∈ useMapMsgs w fn f, m = .noTarget := by
  cases f with
  | none => exact mapMsgs_kind w fn
  | some f => simp [useMapMsgs]

theorem elfMsgs_kind (w : World) (fn : Str) (d : Option ProjDesc) : ∀ m ∈ elfMsgs w fn d, m = .badElf := by
  unfold elfMsgs
  dsimp only
  split
  · simp
  · split
    · simp
    · split <;> simp

theorem validMsgs_kind (f : MapFile) : ∀ m ∈ validMsgs f, m = .invalid := by
  unfold validMsgs; split <;> simp

theorem dwarfMsgs_kind (b : Bool) (d : Option ProjDesc) (e : Option ElfData) :
    ∀ m ∈ dwarfMsgs b d e, m = .noDesc ∨ m = .noElf := by
  unfold dwarfMsgs
  split
  · split <;> simp
  · simp

theorem sectionMsgs_kind (types : Dict Str MemTypeInfo) (regs : List SReg) (s : MSec) : ∀ m ∈ sectionMsgs types regs s,
    (∃ r, m = .exceeds s r) ∨ (∃ r, m = .overflow s r) ∨ m = .nowhere s := by
  unfold sectionMsgs
  split
  · simp
  · split <;> simp
  · simp
  · simp

/-- What the messages of a successful `get` consist of. -/
theorem getMsgs_ok {n : Nat} {w : World} {fn : Str} {ls : Bool} {ud : Option Bool} {mf : Option MapFile} {l : GetIn}
    {regs : List SReg} {parts : List MSec} (hl : load w fn ud mf = .ok l) (hp : PartsOf n ls l regs parts) :
    ∃ f elf ws, useMap w fn mf = .ok f ∧ getElf w fn (getProjDesc w fn) = .ok elf ∧
      splitMemoryRegions n l.types (l.regions.filter fun r => r.name ≠ str "*default*") [] [] = some (regs, ws) ∧
      getMsgs n w fn ls ud mf = useMapMsgs w fn mf ++
        (validMsgs f ++ elfMsgs w fn (getProjDesc w fn) ++ dwarfMsgs (wantDwarf w fn ud) (getProjDesc w fn) elf ++
          (ws.map .region ++ parts.flatMap (sectionMsgs l.types regs))) := by
  obtain ⟨ws, hws⟩ := hp.regions
  obtain ⟨osecs, ho, rfl⟩ := hp.sections
  have hl' := hl
  unfold load at hl'
  simp only [bind, Except.bind] at hl'
  split at hl'
  · cases hl'
  · split at hl'
    · cases hl'
    · rename_i f hf
      split at hl'
      · cases hl'
      · split at hl'
        · cases hl'
        · rename_i elf he
          refine ⟨f, elf, ws, hf, he, hws, ?_⟩
          unfold getMsgs
          dsimp only
          rw [hf, he, hl]
          dsimp only
          unfold buildMsgs
          rw [show filterMemoryRegions l.regions = l.regions.filter fun r => r.name ≠ str "*default*" from rfl, hws]
          dsimp only
          rw [ho]

/-- **C80** the bytes in no memory type are exactly those of the parts that "cannot assign output section" is given for:
with the bytes in memory types they make up the output sections that count. -/
theorem C80_accounted (n : Nat) (w : World) (fn : Str) (ls : Bool) (ud : Option Bool) (mf : Option MapFile)
    (e : Option ElfData) (m : MemMap) (h : getMap n w fn ls ud mf e = some (.ok m)) :
    ∃ l, load w fn ud mf = .ok l ∧
      sumBy (fun p => p.2.used) m.memoryTypes + announced (getMsgs n w fn ls ud mf) = sumBy (fun s => s.size) (keptOf l) := by
  obtain ⟨l, regs, parts, goes, hl, hp, _, _, _, _, _, hgo, hsum, _⟩ := C58_accounted n w fn ls ud mf e m h
  refine ⟨l, hl, ?_⟩
  obtain ⟨f, elf, ws, _, _, _, hm⟩ := getMsgs_ok hl hp
  rw [← hsum, hm]
  simp only [announced_append]
  rw [announced_zero (l := useMapMsgs ..) (by intro x hx s; rw [useMapMsgs_kind _ _ _ x hx]; simp),
    announced_zero (l := validMsgs f) (by intro x hx s; rw [validMsgs_kind _ x hx]; simp),
    announced_zero (l := elfMsgs ..) (by intro x hx s; rw [elfMsgs_kind _ _ _ x hx]; simp),
    announced_zero (l := dwarfMsgs ..) (by intro x hx s; rcases dwarfMsgs_kind _ _ _ x hx with rfl | rfl <;> simp),
    announced_zero (l := ws.map _) (by intro x hx s; obtain ⟨_, _, rfl⟩ := List.mem_map.mp hx; simp)]
  have : announced (parts.flatMap (sectionMsgs l.types regs)) = lostSize goes parts := by
    unfold announced lostSize
    rw [sumBy_flatMap, sumBy_filter]
    apply sumBy_congr
    intro s _
    by_cases hn : NoPlace l.types regs s
    · rw [(C80_nowhere _ _ _).mpr hn, (goes_none (hgo s)).mpr hn]; simp
    · have h1 : goes s ≠ none := fun h => hn ((goes_none (hgo s)).mp h)
      rw [if_neg (by simpa using h1)]
      apply sumBy_zero
      intro x hx
      rcases sectionMsgs_kind _ _ _ x hx with ⟨r, rfl⟩ | ⟨r, rfl⟩ | rfl
      · rfl
      · rfl
      · refine absurd ?_ hn
        rw [← C80_nowhere]
        revert hx
        unfold sectionMsgs
        split <;> simp
  rw [this]; omega

/-! ### Parts that exceed their region -/

theorem tiles_disjoint {l : List SReg} {a b : Int} (h : Tiles a b l) (hp : ∀ p ∈ l, 0 ≤ p.length) :
    a ≤ b ∧ (∀ p ∈ l, a ≤ p.origin ∧ p.origin + p.length ≤ b) ∧ RegionsDisjoint l := by
  induction l generalizing a with
  | nil => exact ⟨by have : a = b := h; omega, by simp, List.Pairwise.nil⟩
  | cons q l ih =>
    obtain ⟨i0, i1, i2⟩ := ih h.2 fun p hp' => hp p (by simp [hp'])
    have hq := hp q (by simp)
    have ho := h.1
    refine ⟨by omega, ?_, ?_⟩
    · intro p hpm
      rcases List.mem_cons.mp hpm with rfl | hpm
      · omega
      · have := i1 p hpm; omega
    · refine List.Pairwise.cons ?_ i2
      intro p hpm x ⟨h1, h2⟩
      have := i1 p hpm
      unfold InRegion at h1 h2
      omega

theorem regionOk_pieces {types : Dict Str MemTypeInfo} {r : Region} {x : List SReg × Bool} (hl : 0 ≤ r.length)
    (h : RegionOk types r x) :
    (∀ p ∈ x.1, ∀ y, InRegion p y → r.origin ≤ y ∧ y < r.origin + r.length) ∧ RegionsDisjoint x.1 := by
  obtain ⟨_, h2, h3, h4, _, h6⟩ := h
  by_cases hz : r.length = 0
  · have h6 := h6 hz
    refine ⟨fun p hp y hy => ?_, List.Pairwise.imp_of_mem (R := fun _ _ => True) ?_ (List.pairwise_of_forall fun _ _ => trivial)⟩
    · have := h6 p hp; unfold InRegion at hy; omega
    · intro p q hp _ _ y hy
      have := h6 p hp; have := hy.1; unfold InRegion at this; omega
  · have hpos : 0 < r.length := by omega
    have hlen : ∀ p ∈ x.1, 0 ≤ p.length := fun p hp => by have := (h2 hpos p hp).2.2.1; omega
    have key : ∃ g, g ≤ r.origin + r.length ∧ Tiles r.origin g x.1 := by
      cases hw : x.2 with
      | false => exact ⟨_, by omega, h3 hw⟩
      | true => obtain ⟨g, hg, ht⟩ := h4 hw hpos; exact ⟨g, by have := hg.2.1; omega, ht⟩
    obtain ⟨g, hg, ht⟩ := key
    obtain ⟨_, h1, h2⟩ := tiles_disjoint ht hlen
    refine ⟨fun p hp y hy => ?_, h2⟩
    have := h1 p hp; unfold InRegion at hy; omega

theorem split_disjoint {types : Dict Str MemTypeInfo} {regions : List Region} (hl : ∀ r ∈ regions, 0 ≤ r.length)
    (hd : MapRegionsDisjoint regions) {n : Nat} {out : List SReg} {ws : List Str}
    (h : splitMemoryRegions n types regions [] [] = some (out, ws)) : RegionsDisjoint out := by
  obtain ⟨L, rfl, hws, hL⟩ := C14_split_regions types regions hl n out ws h
  clear h hws
  suffices H : (∀ p ∈ (L.map (·.1)).flatten, ∀ y, InRegion p y → ∃ r ∈ regions, r.origin ≤ y ∧ y < r.origin + r.length) ∧
      RegionsDisjoint (L.map (·.1)).flatten from H.2
  induction regions generalizing L with
  | nil =>
    cases L with
    | nil => exact ⟨by simp, List.Pairwise.nil⟩
    | cons => cases hL
  | cons r rs ih =>
    cases L with
    | nil => cases hL
    | cons x L =>
      obtain ⟨h1, h2⟩ := regionOk_pieces (hl r (by simp)) hL.1
      obtain ⟨i1, i2⟩ := ih (fun q hq => hl q (by simp [hq])) (List.pairwise_cons.mp hd).2 L hL.2
      have hd1 := (List.pairwise_cons.mp hd).1
      simp only [List.map_cons, List.flatten_cons]
      constructor
      · intro p hp y hy
        rcases List.mem_append.mp hp with hp | hp
        · exact ⟨r, by simp, h1 p hp y hy⟩
        · obtain ⟨q, hq, h⟩ := i1 p hp y hy
          exact ⟨q, by simp [hq], h⟩
      · unfold RegionsDisjoint
        rw [List.pairwise_append]
        refine ⟨h2, i2, fun p hp q hq y hy => ?_⟩
        obtain ⟨s, hs, h⟩ := i1 q hq y hy.2
        exact hd1 s hs y ⟨h1 p hp y hy.1, h⟩

theorem disjoint_unique {l : List SReg} (h : RegionsDisjoint l) {r q : SReg} {x : Int} (hr : r ∈ l) (hq : q ∈ l)
    (h1 : InRegion r x) (h2 : InRegion q x) : r = q := by
  induction l with
  | nil => cases hr
  | cons p l ih =>
    obtain ⟨a, b⟩ := List.pairwise_cons.mp h
    rcases List.mem_cons.mp hr with e1 | hr' <;> rcases List.mem_cons.mp hq with e2 | hq'
    · rw [e1, e2]
    · subst e1; exact absurd ⟨h1, h2⟩ (a q hq' x)
    · subst e2; exact absurd ⟨h2, h1⟩ (a r hr' x)
    · exact ih b hr' hq'

/-- **C80** (what holds) if the memory regions do not overlap, no part exceeds the region it is in. -/
theorem C80_exceeds_partial (n : Nat) (w : World) (fn : Str) (ls : Bool) (ud : Option Bool) (mf : Option MapFile)
    (e : Option ElfData) (m : MemMap) (h : getMap n w fn ls ud mf e = some (.ok m)) (f : MapFile)
    (hf : useMap w fn mf = .ok f) (hl : ∀ r ∈ f.regions, 0 ≤ r.length)
    (hd : MapRegionsDisjoint (f.regions.filter fun r => r.name ≠ str "*default*")) (s : MSec) (r : SReg) :
    .exceeds s r ∉ getMsgs n w fn ls ud mf := by
  obtain ⟨l, regs, parts, goes, hld, hp, _⟩ := C58_accounted n w fn ls ud mf e m h
  obtain ⟨f', elf, ws, hf', _, hws, hm⟩ := getMsgs_ok hld hp
  have hreg : l.regions = f.regions := by
    unfold load at hld
    simp only [bind, Except.bind, hf] at hld
    repeat' split at hld
    all_goals first | cases hld; done | (cases hld; rfl)
  rw [hreg] at hws
  have hdis : RegionsDisjoint regs := split_disjoint (fun r hr => hl r (List.mem_filter.mp hr).1) hd hws
  rw [hm]
  simp only [List.mem_append, not_or]
  refine ⟨fun hx => ?_, ⟨⟨fun hx => ?_, fun hx => ?_⟩, fun hx => ?_⟩, fun hx => ?_, fun hx => ?_⟩
  · cases useMapMsgs_kind _ _ _ _ hx
  · cases validMsgs_kind _ _ hx
  · cases elfMsgs_kind _ _ _ _ hx
  · rcases dwarfMsgs_kind _ _ _ _ hx with h | h <;> cases h
  · obtain ⟨_, _, h⟩ := List.mem_map.mp hx; cases h
  · obtain ⟨p, hpm, hx⟩ := List.mem_flatMap.mp hx
    obtain ⟨osecs, _, rfl⟩ := hp.sections
    obtain ⟨o, ho, rfl⟩ := List.mem_map.mp hpm
    obtain ⟨pf, hsp, hpl⟩ := C19_split_sections osecs regs
    rw [hsp] at ho
    obtain ⟨t, _, ho⟩ := List.mem_flatMap.mp ho
    have hplaced := (hpl t).placed o ho
    unfold sectionMsgs at hx
    split at hx
    · simp at hx
    · rename_i q hq
      split at hx
      · rename_i hgt
        have hin := placeLoop_inside (place_loop hq)
        have hqm := (sortedBy_stable (fun r : SReg => r.origin) false regs).perm.mem_iff.mp hin.1
        rcases hplaced with ⟨q', h1, h2, h3⟩ | h1
        · cases disjoint_unique hdis h1 hqm h2 hin.2
          dsimp only at hgt
          omega
        · exact h1 q hqm hin.2
      · simp at hx
    · simp at hx
    · simp at hx

/-! ### Memory regions -/

theorem tiles_covered {types : Dict Str MemTypeInfo} {r : Region} {l : List SReg} {a b : Int} (h : Tiles a b l)
    (hp : ∀ p ∈ l, PieceOk types r p) (x : Int) (h1 : a ≤ x) (h2 : x < b) : CoveredAddr types x := by
  induction l generalizing a with
  | nil => have : a = b := h; omega
  | cons p l ih =>
    by_cases hx : x < a + p.length
    · obtain ⟨_, _, _, k, base, hk, hb, h3, h4⟩ := hp p (by simp)
      have := h.1
      exact ⟨k, p.type, base, hk, hb, by unfold InWindow; omega⟩
    · exact ih h.2 (fun q hq => hp q (by simp [hq])) (by omega)

theorem mem_warned {types : Dict Str MemTypeInfo} {regions : List Region} {L : List (List SReg × Bool)}
    (h : All2 (RegionOk types) regions L) (nm : Str) :
    (nm ∈ warnedNames regions L → ∃ r ∈ regions, r.name = nm ∧ ∃ x, RegionOk types r (x, true)) ∧
    (∀ r ∈ regions, r.name = nm → (∃ x, RegionOk types r (x, false)) ∨ nm ∈ warnedNames regions L) := by
  induction regions generalizing L with
  | nil => exact ⟨by simp [warnedNames], by simp⟩
  | cons r rs ih =>
    cases L with
    | nil => cases h
    | cons x L =>
      obtain ⟨i1, i2⟩ := ih h.2
      obtain ⟨x1, x2⟩ := x
      cases x2 with
      | true =>
        simp only [warnedNames, if_true, List.mem_cons]
        constructor
        · rintro (rfl | hm)
          · exact ⟨r, .inl rfl, rfl, x1, h.1⟩
          · obtain ⟨q, hq, e⟩ := i1 hm
            exact ⟨q, .inr hq, e⟩
        · rintro q (rfl | hq) hn
          · exact .inr (.inl hn.symm)
          · rcases i2 q hq hn with h | h
            · exact .inl h
            · exact .inr (.inr h)
      | false =>
        simp only [warnedNames, Bool.false_eq_true, if_false, List.mem_cons]
        constructor
        · intro hm
          obtain ⟨q, hq, e⟩ := i1 hm
          exact ⟨q, .inr hq, e⟩
        · rintro q (rfl | hq) hn
          · exact .inl ⟨x1, h.1⟩
          · exact i2 q hq hn

/-- **C80** the message "cannot assign memory region" is given for exactly the memory regions of the map file, other than
`*default*`, that are not covered by the memory types of the target (an empty one only if its origin is not). -/
theorem C80_regions (n : Nat) (w : World) (fn : Str) (ls : Bool) (ud : Option Bool) (mf : Option MapFile)
    (e : Option ElfData) (m : MemMap) (h : getMap n w fn ls ud mf e = some (.ok m)) (f : MapFile)
    (hf : useMap w fn mf = .ok f) (hl : ∀ r ∈ f.regions, 0 ≤ r.length) (nm : Str) :
    ∃ l, load w fn ud mf = .ok l ∧
      (.region nm ∈ getMsgs n w fn ls ud mf → ∃ r ∈ f.regions, r.name = nm ∧ nm ≠ str "*default*" ∧
        ((0 < r.length ∧ ¬ FullyCovered l.types r) ∨ (r.length = 0 ∧ ¬ CoveredAddr l.types r.origin))) ∧
      ∀ r ∈ f.regions, r.name = nm → nm ≠ str "*default*" → ¬ FullyCovered l.types r → .region nm ∈ getMsgs n w fn ls ud mf := by
  obtain ⟨l, regs, parts, goes, hld, hp, _⟩ := C58_accounted n w fn ls ud mf e m h
  obtain ⟨f', elf, ws, hf', _, hws, hm⟩ := getMsgs_ok hld hp
  have hreg : l.regions = f.regions := by
    unfold load at hld
    simp only [bind, Except.bind, hf] at hld
    repeat' split at hld
    all_goals first | cases hld; done | (cases hld; rfl)
  rw [hreg] at hws
  have hl' : ∀ r ∈ f.regions.filter (fun r => r.name ≠ str "*default*"), 0 ≤ r.length :=
    fun r hr => hl r (List.mem_filter.mp hr).1
  obtain ⟨L, _, rfl, hL⟩ := C14_split_regions _ _ hl' _ _ _ hws
  obtain ⟨w1, w2⟩ := mem_warned hL nm
  refine ⟨l, hld, fun hx => ?_, fun r hr hn hd hc => ?_⟩
  · rw [hm] at hx
    simp only [List.mem_append] at hx
    rcases hx with hx | ((hx | hx) | hx) | hx | hx
    · cases useMapMsgs_kind _ _ _ _ hx
    · cases validMsgs_kind _ _ hx
    · cases elfMsgs_kind _ _ _ _ hx
    · rcases dwarfMsgs_kind _ _ _ _ hx with h | h <;> cases h
    · obtain ⟨y, hy, e⟩ := List.mem_map.mp hx
      cases e
      obtain ⟨r, hr, hn, x, hok⟩ := w1 hy
      obtain ⟨hr, hd⟩ := List.mem_filter.mp hr
      refine ⟨r, hr, hn, by rw [← hn]; simpa using hd, ?_⟩
      have := hl r hr
      by_cases hz : r.length = 0
      · exact .inr ⟨hz, (hok.2.2.2.2.1 rfl hz).2⟩
      · refine .inl ⟨by omega, fun hcov => ?_⟩
        obtain ⟨g, hg, _⟩ := hok.2.2.2.1 rfl (by omega)
        exact hg.2.2.1 (hcov g hg.1 hg.2.1)
    · obtain ⟨p, _, h⟩ := List.mem_flatMap.mp hx
      rcases sectionMsgs_kind _ _ _ _ h with ⟨r, h⟩ | ⟨r, h⟩ | h <;> cases h
  · have hpos : 0 < r.length := by
      have := hl r hr
      by_cases hz : r.length = 0
      · exact absurd (fun x h1 h2 => by omega) hc
      · omega
    rcases w2 r (List.mem_filter.mpr ⟨hr, by rw [hn]; simpa using hd⟩) hn with ⟨x, hok⟩ | hw
    · exact absurd (fun y h1 h2 => tiles_covered (hok.2.2.1 rfl) (hok.2.1 hpos) y h1 h2) hc
    · rw [hm]
      simp only [List.mem_append]
      exact .inr (.inr (.inl (List.mem_map_of_mem hw)))

/-! ### The target of the map file -/

/-- **C80** "cannot find target" is given only if there is no target. -/
theorem C80_noTarget (lines : List Str) : targetMsgs lines false = [.noTarget] → getTarget lines = [] := by
  unfold getTarget
  generalize false = found
  induction lines generalizing found with
  | nil => intro h; rfl
  | cons l ls ih =>
    unfold targetMsgs targetLoop
    split
    · intro _; rfl
    · split
      · exact ih _
      · cases lineTarget l with
        | some t => intro h; cases h
        | none => exact ih _

/-- **C80** (what holds) "cannot find target" is given, once, if no line before the cross reference table names a target. -/
theorem C80_noTarget_partial (pre post : List Str) (l : Str) (hpre : ∀ x ∈ pre, SilentLine x)
    (hl : str "Cross Reference Table" <+: l) : targetMsgs (pre ++ l :: post) false = [.noTarget] := by
  generalize false = found
  induction pre generalizing found with
  | nil =>
    rw [List.nil_append, targetMsgs, if_pos (by rw [startsWith_iff]; exact hl)]
  | cons x pre ih =>
    have hx := hpre x (by simp)
    have ih' := fun b => ih (fun y hy => hpre y (by simp [hy])) b
    rw [List.cons_append, targetMsgs, if_neg (by rw [startsWith_iff]; exact hx.2.2.2)]
    split
    · exact ih' true
    · rw [silent_none hx]; exact ih' found

/-- **C80** (violated) without cross reference table nothing is said about the missing target. -/
theorem C80_noTarget_silent (lines : List Str) (h : ∀ l ∈ lines, SilentLine l) :
    targetMsgs lines false = [] ∧ getTarget lines = [] := by
  refine ⟨?_, C34_detect_none lines h⟩
  generalize false = found
  induction lines generalizing found with
  | nil => rfl
  | cons x ls ih =>
    have hx := h x (by simp)
    rw [targetMsgs, if_neg (by rw [startsWith_iff]; exact hx.2.2.2)]
    split
    · exact ih (fun y hy => h y (by simp [hy])) true
    · rw [silent_none hx]; exact ih (fun y hy => h y (by simp [hy])) found

/-! ### DWARF and the ELF file -/

/-- **C80** if `get` says that it ignores DWARF information, the result is that of a call without DWARF. -/
theorem C80_dwarf (n : Nat) (w : World) (fn : Str) (ls : Bool) (ud : Option Bool) (mf : Option MapFile)
    (e : Option ElfData) (m : MemMap) (h : getMap n w fn ls ud mf e = some (.ok m))
    (hm : .noDesc ∈ getMsgs n w fn ls ud mf ∨ .noElf ∈ getMsgs n w fn ls ud mf) :
    wantDwarf w fn ud = true ∧ getMap n w fn ls (some false) mf e = some (.ok m) := by
  obtain ⟨l, regs, parts, goes, hld, hp, _⟩ := C58_accounted n w fn ls ud mf e m h
  obtain ⟨f, elf, ws, hf, he, _, heq⟩ := getMsgs_ok hld hp
  have hin : .noDesc ∈ dwarfMsgs (wantDwarf w fn ud) (getProjDesc w fn) elf ∨
      .noElf ∈ dwarfMsgs (wantDwarf w fn ud) (getProjDesc w fn) elf := by
    rw [heq] at hm
    have aux : ∀ x : Msg, (x = .noDesc ∨ x = .noElf) → x ∈ useMapMsgs w fn mf ++
        (validMsgs f ++ elfMsgs w fn (getProjDesc w fn) ++ dwarfMsgs (wantDwarf w fn ud) (getProjDesc w fn) elf ++
          (ws.map .region ++ parts.flatMap (sectionMsgs l.types regs))) →
        x ∈ dwarfMsgs (wantDwarf w fn ud) (getProjDesc w fn) elf := by
      intro x hx hm
      simp only [List.mem_append] at hm
      rcases hm with hm | ((hm | hm) | hm) | hm | hm
      · rcases hx with rfl | rfl <;> cases useMapMsgs_kind _ _ _ _ hm
      · rcases hx with rfl | rfl <;> cases validMsgs_kind _ _ hm
      · rcases hx with rfl | rfl <;> cases elfMsgs_kind _ _ _ _ hm
      · exact hm
      · obtain ⟨_, _, h⟩ := List.mem_map.mp hm
        subst h; rcases hx with h | h <;> cases h
      · obtain ⟨p, _, h⟩ := List.mem_flatMap.mp hm
        rcases sectionMsgs_kind _ _ _ _ h with ⟨r, rfl⟩ | ⟨r, rfl⟩ | rfl <;> rcases hx with h | h <;> cases h
    rcases hm with hm | hm
    · exact .inl (aux _ (.inl rfl) hm)
    · exact .inr (aux _ (.inr rfl) hm)
  have hw : wantDwarf w fn ud = true := by
    unfold dwarfMsgs at hin
    split at hin
    · assumption
    · simp at hin
  refine ⟨hw, ?_⟩
  have hds : ∀ secs, dwarfSections (wantDwarf w fn ud) (getProjDesc w fn) elf secs =
      dwarfSections (wantDwarf w fn (some false)) (getProjDesc w fn) elf secs := by
    intro secs
    unfold dwarfMsgs at hin
    rw [hw] at hin ⊢
    unfold dwarfSections wantDwarf
    cases hd : getProjDesc w fn with
    | none => simp
    | some d =>
      cases elf with
      | none => simp
      | some x => rw [hd] at hin; simp at hin
  have hsame : load w fn (some false) mf = load w fn ud mf := by
    unfold load
    simp only [bind, Except.bind, hf, he, hds]
  unfold getMap at h ⊢
  rw [hsame]
  exact h

/-- **C80** if `get` says that it cannot read or parse the ELF file, the result is that of a project without ELF file. -/
theorem C80_badElf (n : Nat) (w : World) (fn : Str) (ls : Bool) (ud : Option Bool) (mf : Option MapFile)
    (e : Option ElfData) (m : MemMap) (h : getMap n w fn ls ud mf e = some (.ok m))
    (hm : .badElf ∈ getMsgs n w fn ls ud mf) :
    getMap n { w with elf := fun _ => none } fn ls ud mf e = some (.ok m) := by
  obtain ⟨l, regs, parts, goes, hld, hp, _⟩ := C58_accounted n w fn ls ud mf e m h
  obtain ⟨f, elf, ws, hf, he, _, heq⟩ := getMsgs_ok hld hp
  have hin : .badElf ∈ elfMsgs w fn (getProjDesc w fn) := by
    rw [heq] at hm
    simp only [List.mem_append] at hm
    rcases hm with hm | ((hm | hm) | hm) | hm | hm
    · cases useMapMsgs_kind _ _ _ _ hm
    · cases validMsgs_kind _ _ hm
    · exact hm
    · rcases dwarfMsgs_kind _ _ _ _ hm with h | h <;> cases h
    · obtain ⟨_, _, h⟩ := List.mem_map.mp hm; cases h
    · obtain ⟨p, _, h⟩ := List.mem_flatMap.mp hm
      rcases sectionMsgs_kind _ _ _ _ h with ⟨r, h⟩ | ⟨r, h⟩ | h <;> cases h
  have hdesc : getProjDesc { w with elf := fun _ => none } fn = getProjDesc w fn := rfl
  have hmap : useMap { w with elf := fun _ => none } fn mf = useMap w fn mf := rfl
  have hwant : wantDwarf { w with elf := fun _ => none } fn ud = wantDwarf w fn ud := rfl
  have htypes : ∀ t, getMemoryTypes { w with elf := fun _ => none } t = getMemoryTypes w t := fun _ => rfl
  have hnone : getElf { w with elf := fun _ => none } fn (getProjDesc w fn) = getElf w fn (getProjDesc w fn) := by
    unfold elfMsgs at hin
    unfold getElf at he ⊢
    dsimp only at hin he ⊢
    rw [hdesc]
    cases hd : getProjDesc w fn with
    | none => rfl
    | some d =>
      simp only [hd, ite_self] at hin he ⊢
      cases happ : d.appElf with
      | none => rfl
      | some app =>
        simp only [happ, getKey, bind, Except.bind] at hin he ⊢
        split at hin
        · rename_i x hx
          rw [hx] at he ⊢
          dsimp only at he ⊢
          cases x <;> first | rfl | cases he
        · simp at hin
  have hsame : load { w with elf := fun _ => none } fn ud mf = load w fn ud mf := by
    unfold load
    simp only [hdesc, hmap, hwant, htypes, hnone]
  unfold getMap at h ⊢
  rw [hsame]
  exact h

/-- Messages that are not about memory come from three places. -/
theorem mem_getMsgs {n : Nat} {w : World} {fn : Str} {ls : Bool} {ud : Option Bool} {mf : Option MapFile}
    {e : Option ElfData} {m : MemMap} (h : getMap n w fn ls ud mf e = some (.ok m)) :
    ∃ f elf, useMap w fn mf = .ok f ∧ getElf w fn (getProjDesc w fn) = .ok elf ∧
      (.invalid ∈ getMsgs n w fn ls ud mf ↔ .invalid ∈ validMsgs f) ∧
      (.badElf ∈ getMsgs n w fn ls ud mf ↔ .badElf ∈ elfMsgs w fn (getProjDesc w fn)) ∧
      (∀ x, (x = .noDesc ∨ x = .noElf) →
        (x ∈ getMsgs n w fn ls ud mf ↔ x ∈ dwarfMsgs (wantDwarf w fn ud) (getProjDesc w fn) elf)) := by
  obtain ⟨l, regs, parts, goes, hld, hp, _⟩ := C58_accounted n w fn ls ud mf e m h
  obtain ⟨f, elf, ws, hf, he, _, heq⟩ := getMsgs_ok hld hp
  have h1 : ∀ x, (∀ s, x ≠ .region s) → x ∉ ws.map Msg.region := by
    intro x hx hm
    obtain ⟨_, _, h⟩ := List.mem_map.mp hm
    exact hx _ h.symm
  have h2 : ∀ x, (∀ s r, x ≠ .exceeds s r) → (∀ s r, x ≠ .overflow s r) → (∀ s, x ≠ .nowhere s) →
      x ∉ parts.flatMap (sectionMsgs l.types regs) := by
    intro x a b c hm
    obtain ⟨p, _, h⟩ := List.mem_flatMap.mp hm
    rcases sectionMsgs_kind _ _ _ _ h with ⟨r, h⟩ | ⟨r, h⟩ | h
    · exact a _ _ h
    · exact b _ _ h
    · exact c _ h
  refine ⟨f, elf, hf, he, ?_, ?_, ?_⟩
  · rw [heq]
    simp only [List.mem_append]
    refine ⟨fun h => ?_, fun h => .inr (.inl (.inl (.inl h)))⟩
    rcases h with h | ((h | h) | h) | h | h
    · cases useMapMsgs_kind _ _ _ _ h
    · exact h
    · cases elfMsgs_kind _ _ _ _ h
    · rcases dwarfMsgs_kind _ _ _ _ h with h | h <;> cases h
    · exact absurd h (h1 _ (by simp))
    · exact absurd h (h2 _ (by simp) (by simp) (by simp))
  · rw [heq]
    simp only [List.mem_append]
    refine ⟨fun h => ?_, fun h => .inr (.inl (.inl (.inr h)))⟩
    rcases h with h | ((h | h) | h) | h | h
    · cases useMapMsgs_kind _ _ _ _ h
    · cases validMsgs_kind _ _ h
    · exact h
    · rcases dwarfMsgs_kind _ _ _ _ h with h | h <;> cases h
    · exact absurd h (h1 _ (by simp))
    · exact absurd h (h2 _ (by simp) (by simp) (by simp))
  · intro x hx
    rw [heq]
    simp only [List.mem_append]
    refine ⟨fun h => ?_, fun h => .inr (.inl (.inr h))⟩
    rcases h with h | ((h | h) | h) | h | h
    · rcases hx with rfl | rfl <;> cases useMapMsgs_kind _ _ _ _ h
    · rcases hx with rfl | rfl <;> cases validMsgs_kind _ _ h
    · rcases hx with rfl | rfl <;> cases elfMsgs_kind _ _ _ _ h
    · exact h
    · rcases hx with rfl | rfl <;> exact absurd h (h1 _ (by simp))
    · rcases hx with rfl | rfl <;> exact absurd h (h2 _ (by simp) (by simp) (by simp))

theorem getElf_cases {w : World} {fn : Str} {elf : Option ElfData} (h : getElf w fn (getProjDesc w fn) = .ok elf) :
    (getProjDesc w fn = none ∧ elf = none) ∨ ∃ d app, getProjDesc w fn = some d ∧ d.appElf = some app ∧
      ((w.elf (pathJoin (dirname fn) app) = none ∧ elf = none) ∨
        (∃ x, w.elf (pathJoin (dirname fn) app) = some (.error x) ∧ elf = none) ∨
        ∃ x, w.elf (pathJoin (dirname fn) app) = some (.ok x) ∧ elf = some x) := by
  unfold getElf at h
  dsimp only at h
  cases hd : getProjDesc w fn with
  | none => simp only [hd] at h; cases h; exact .inl ⟨rfl, rfl⟩
  | some d =>
    simp only [hd, ite_self] at h
    cases happ : d.appElf with
    | none => simp only [happ, getKey, bind, Except.bind] at h; cases h
    | some app =>
      simp only [happ, getKey, bind, Except.bind] at h
      refine .inr ⟨d, app, rfl, happ, ?_⟩
      split at h
      · rename_i hx; cases h; exact .inl ⟨hx, rfl⟩
      · rename_i r hx
        cases r with
        | ok x => cases h; exact .inr (.inr ⟨x, hx, rfl⟩)
        | error x =>
          refine .inr (.inl ⟨x, hx, ?_⟩)
          cases x <;> first | (cases h; rfl) | cases h

/-- **C80** "cannot load project description": exactly if DWARF information is wanted and there is no project description
for the map file. -/
theorem C80_noDesc (n : Nat) (w : World) (fn : Str) (ls : Bool) (ud : Option Bool) (mf : Option MapFile)
    (e : Option ElfData) (m : MemMap) (h : getMap n w fn ls ud mf e = some (.ok m)) :
    .noDesc ∈ getMsgs n w fn ls ud mf ↔ wantDwarf w fn ud = true ∧ getProjDesc w fn = none := by
  obtain ⟨f, elf, _, _, _, _, h3⟩ := mem_getMsgs h
  rw [h3 _ (.inl rfl)]
  unfold dwarfMsgs
  cases wantDwarf w fn ud <;> cases getProjDesc w fn <;> cases elf <;> simp

/-- **C80** "cannot load ELF file": exactly if DWARF information is wanted and the ELF file that the project description
names is missing or cannot be read. -/
theorem C80_noElf (n : Nat) (w : World) (fn : Str) (ls : Bool) (ud : Option Bool) (mf : Option MapFile)
    (e : Option ElfData) (m : MemMap) (h : getMap n w fn ls ud mf e = some (.ok m)) :
    .noElf ∈ getMsgs n w fn ls ud mf ↔ wantDwarf w fn ud = true ∧ ∃ d app, getProjDesc w fn = some d ∧ d.appElf = some app ∧
      ∀ x, w.elf (pathJoin (dirname fn) app) ≠ some (.ok x) := by
  obtain ⟨f, elf, _, he, _, _, h3⟩ := mem_getMsgs h
  rw [h3 _ (.inr rfl)]
  unfold dwarfMsgs
  rcases getElf_cases he with ⟨hd, rfl⟩ | ⟨d, app, hd, ha, hc⟩
  · rw [hd]
    cases wantDwarf w fn ud <;> simp
  · rw [hd]
    rcases hc with ⟨hc, rfl⟩ | ⟨x, hc, rfl⟩ | ⟨x, hc, rfl⟩
    all_goals cases wantDwarf w fn ud <;> simp [ha, hc]

/-- **C80** an ELF file is said to be unreadable exactly if the project description names it, it exists, and reading it raises. -/
theorem C80_badElf_iff (n : Nat) (w : World) (fn : Str) (ls : Bool) (ud : Option Bool) (mf : Option MapFile)
    (e : Option ElfData) (m : MemMap) (h : getMap n w fn ls ud mf e = some (.ok m)) :
    .badElf ∈ getMsgs n w fn ls ud mf ↔ ∃ d app x, getProjDesc w fn = some d ∧ d.appElf = some app ∧
      w.elf (pathJoin (dirname fn) app) = some (.error x) := by
  obtain ⟨f, elf, _, he, _, h2, _⟩ := mem_getMsgs h
  rw [h2]
  unfold elfMsgs
  dsimp only
  rcases getElf_cases he with ⟨hd, rfl⟩ | ⟨d, app, hd, ha, hc⟩
  · simp [hd]
  · rcases hc with ⟨hc, rfl⟩ | ⟨x, hc, rfl⟩ | ⟨x, hc, rfl⟩
    all_goals simp [hd, ha, hc]

/-- **C80** the map file is said to be invalid exactly if some section with contents does not start where the ones before it
in the same output section end. -/
theorem C80_invalid (n : Nat) (w : World) (fn : Str) (ls : Bool) (ud : Option Bool) (mf : Option MapFile)
    (e : Option ElfData) (m : MemMap) (h : getMap n w fn ls ud mf e = some (.ok m)) (f : MapFile) (hf : useMap w fn mf = .ok f)
    (hk : ∀ o ∈ f.sections, Known o) :
    .invalid ∈ getMsgs n w fn ls ud mf ↔
      ∃ o ∈ f.sections, ∃ i is a, o.inputs = i :: is ∧ i.address = some a ∧ ¬ Contiguous a o.inputs := by
  obtain ⟨f', elf, hf', _, h1, _, _⟩ := mem_getMsgs h
  rw [hf] at hf'
  cases hf'
  rw [h1]
  unfold validMsgs
  obtain ⟨v1, v2⟩ := C32_validate f.sections hk
  constructor
  · intro hx
    refine Classical.byContradiction fun hno => ?_
    rw [v1.mpr (fun o ho i is a h1 h2 => Classical.byContradiction fun h3 => hno ⟨o, ho, i, is, a, h1, h2, h3⟩)] at hx
    simp at hx
  · rintro ⟨o, ho, i, is, a, g1, g2, g3⟩
    rcases v2 with h | h
    · exact absurd (v1.mp h o ho i is a g1 g2) g3
    · rw [h]; simp

/-! ### The messages of a run -/

theorem getMsgs_kind (n : Nat) (w : World) (fn : Str) (ls : Bool) (ud : Option Bool) (mf : Option MapFile) :
    ∀ m ∈ getMsgs n w fn ls ud mf, m ≠ .noAbbrev ∧ m ≠ .noDiff ∧ ∀ a b, m ≠ .targets a b := by
  intro m hm
  unfold getMsgs at hm
  dsimp only at hm
  rcases List.mem_append.mp hm with hm | hm
  · rw [useMapMsgs_kind _ _ _ _ hm]; simp
  · split at hm
    · simp only [List.mem_append] at hm
      rcases hm with ((hm | hm) | hm) | hm
      · rw [validMsgs_kind _ _ hm]; simp
      · rw [elfMsgs_kind _ _ _ _ hm]; simp
      · rcases dwarfMsgs_kind _ _ _ _ hm with rfl | rfl <;> simp
      · unfold buildMsgs at hm
        split at hm
        · simp at hm
        · rcases List.mem_append.mp hm with hm | hm
          · obtain ⟨_, _, rfl⟩ := List.mem_map.mp hm; simp
          · split at hm
            · simp at hm
            · obtain ⟨p, _, h⟩ := List.mem_flatMap.mp hm
              rcases sectionMsgs_kind _ _ _ _ h with ⟨r, rfl⟩ | ⟨r, rfl⟩ | rfl <;> simp
    · simp at hm

theorem prepare_targets {args : Args} {m ref d : MemMap} (h : prepare args m ref = .ok d) (hd : truthy args.diff = true) :
    d.target = m.target ∧ d.targetDiff = ref.target := by
  unfold prepare at h
  simp only [hd, if_true, bind, Except.bind, diff] at h
  split at h
  · cases h
  · rename_i x hx
    split at hx
    · cases hx
    · cases hx
      cases h
      cases args.unify <;> cases args.showUnused <;> cases args.useFlashSize <;> exact ⟨rfl, rfl⟩

theorem eff_diff (args : Args) : (effectiveArgs args).diff = if args.archiveDependencies && truthy args.diff then none else args.diff := by
  unfold effectiveArgs
  dsimp only
  cases hc : args.archiveDependencies <;> cases ht : truthy args.diff <;> cases hu : (args.noAbbrev && args.unify) <;> simp_all

/-- **C80** the messages about options are given exactly if the options are in conflict; `--unify` and
`--archive-dependencies` have priority. -/
theorem C80_options (R : RunIn) (input : Str) (args : Args) (m ref : MemMap) :
    (.noAbbrev ∈ runMsgs R input args m ref ↔ args.noAbbrev = true ∧ args.unify = true) ∧
    (.noDiff ∈ runMsgs R input args m ref ↔ args.archiveDependencies = true ∧ truthy args.diff = true) ∧
    (.noAbbrev ∈ runMsgs R input args m ref → (effectiveArgs args).noAbbrev = false) ∧
    (.noDiff ∈ runMsgs R input args m ref → (effectiveArgs args).diff = none) := by
  have hrest : ∀ x : Msg, (x = .noAbbrev ∨ x = .noDiff) → (x ∈ runMsgs R input args m ref ↔ x ∈ optionMsgs args) := by
    intro x hx
    unfold runMsgs
    simp only [List.mem_append]
    constructor
    · intro h
      rcases h with (((h | h) | h) | h) | h
      · exact h
      · rcases hx with rfl | rfl <;> cases mapMsgs_kind _ _ _ h
      · rcases hx with rfl | rfl <;> cases elfMsgs_kind _ _ _ _ h
      · have := getMsgs_kind _ _ _ _ _ _ _ h
        rcases hx with rfl | rfl <;> simp at this
      · split at h
        · rcases List.mem_append.mp h with h | h
          · have := getMsgs_kind _ _ _ _ _ _ _ h
            rcases hx with rfl | rfl <;> simp at this
          · split at h
            · split at h
              · rcases hx with rfl | rfl <;> simp at h
              · simp at h
            · simp at h
        · simp at h
    · intro h; exact .inl (.inl (.inl (.inl h)))
  have h1 : .noAbbrev ∈ runMsgs R input args m ref ↔ args.noAbbrev = true ∧ args.unify = true := by
    rw [hrest _ (.inl rfl)]
    unfold optionMsgs
    cases args.noAbbrev <;> cases args.unify <;> cases args.archiveDependencies <;> cases truthy args.diff <;> simp
  have h2 : .noDiff ∈ runMsgs R input args m ref ↔ args.archiveDependencies = true ∧ truthy args.diff = true := by
    rw [hrest _ (.inr rfl)]
    unfold optionMsgs
    cases args.noAbbrev <;> cases args.unify <;> cases args.archiveDependencies <;> cases truthy args.diff <;> simp
  refine ⟨h1, h2, fun h => ?_, fun h => ?_⟩
  · have := h1.mp h
    unfold effectiveArgs
    dsimp only
    simp only [this.1, this.2, Bool.and_self, if_true]
    split <;> rfl
  · have := h2.mp h
    rw [eff_diff, this.1, this.2]; rfl

/-- **C80** (what holds) in a run that reaches the report, the message about targets is given exactly if two projects are
compared and their targets differ. -/
theorem C80_targets_partial (R : RunIn) (input : Str) (args : Args) (m ref d : MemMap)
    (h : prepare (effectiveArgs args) m ref = .ok d) (a b : Str) :
    .targets a b ∈ runMsgs R input args m ref ↔
      args.archiveDependencies = false ∧ truthy args.diff = true ∧ a = m.target ∧ b = ref.target ∧ a ≠ b := by
  have hopt : .targets a b ∉ optionMsgs args := by
    unfold optionMsgs
    cases args.noAbbrev <;> cases args.unify <;> cases args.archiveDependencies <;> cases truthy args.diff <;> simp
  unfold runMsgs
  simp only [List.mem_append]
  rw [eff_diff]
  constructor
  · rintro ((((h' | h') | h') | h') | h')
    · exact absurd h' hopt
    · cases mapMsgs_kind _ _ _ h'
    · cases elfMsgs_kind _ _ _ _ h'
    · exact absurd rfl ((getMsgs_kind _ _ _ _ _ _ _ h').2.2 a b)
    · split at h'
      · rename_i c fn hfn
        have ht : truthy args.diff = true ∧ args.archiveDependencies = false := by
          split at hfn
          · cases hfn
          · rename_i hc
            rw [hfn] at hc ⊢
            simpa [truthy] using hc
        rcases List.mem_append.mp h' with h' | h'
        · exact absurd rfl ((getMsgs_kind _ _ _ _ _ _ _ h').2.2 a b)
        · rw [h] at h'
          have ht2 : truthy (effectiveArgs args).diff = true := by rw [eff_diff, ht.2]; simp [ht.1]
          obtain ⟨e1, e2⟩ := prepare_targets h ht2
          dsimp only at h'
          rw [e1, e2] at h'
          split at h'
          · rename_i hne
            simp only [List.mem_singleton, Msg.targets.injEq] at h'
            exact ⟨ht.2, ht.1, h'.1, h'.2, by rw [h'.1, h'.2]; exact hne⟩
          · simp at h'
      · simp at h'
  · rintro ⟨hdep, hdiff, rfl, rfl, hne⟩
    right
    have ht2 : truthy (effectiveArgs args).diff = true := by rw [eff_diff, hdep]; simp [hdiff]
    obtain ⟨e1, e2⟩ := prepare_targets h ht2
    rw [hdep]
    simp only [Bool.false_and, Bool.false_eq_true, if_false]
    cases hf : args.diff with
    | none => rw [hf] at hdiff; cases hdiff
    | some fn =>
      cases fn with
      | nil => rw [hf] at hdiff; cases hdiff
      | cons c fn =>
        rw [h]
        simp [e1, e2, hne]

/-- **C80** (violated) the target that the message names as that of the reference is never that of the reference. -/
theorem C80_targets_swapped (R : RunIn) (input : Str) (args : Args) (m ref d : MemMap)
    (h : prepare (effectiveArgs args) m ref = .ok d) (a b : Str) (hm : .targets a b ∈ runMsgs R input args m ref) :
    targetsText a b = str "The target of the reference and other project is " ++ m.target ++ str " and " ++ ref.target ++
        str ", respectively." ∧ a ≠ ref.target := by
  obtain ⟨_, _, rfl, rfl, hne⟩ := (C80_targets_partial R input args m ref d h a b).mp hm
  exact ⟨rfl, hne⟩

theorem elfMsgs_none (w : World) (fn : Str) : elfMsgs w fn none = elfMsgs w fn (getProjDesc w fn) := by
  unfold elfMsgs
  cases h : getProjDesc w fn with
  | none => simp
  | some d => simp

/-- **C80** (violated) the ELF file of the input is read twice, and an error in it reported twice. -/
theorem C80_badElf_twice (R : RunIn) (input : Str) (args : Args) (r : Report) (hr : makeReport R input args = some (.ok r))
    (m ref : MemMap) (h : .badElf ∈ elfMsgs R.w input none) : 2 ≤ (runMsgs R input args m ref).count .badElf := by
  obtain ⟨mf, elf, m', ref', d, hmf, _, hget, _⟩ := makeReport_ok hr
  obtain ⟨l, regs, parts, goes, hld, hp, _⟩ := C58_accounted _ _ _ _ _ _ _ _ hget
  obtain ⟨f, elf', ws, _, _, _, heq⟩ := getMsgs_ok hld hp
  have h1 : 1 ≤ (elfMsgs R.w input none).count .badElf := List.count_pos_iff.mpr h
  have h2 : 1 ≤ (getMsgs R.n R.w input (loadSymbolsOf (effectiveArgs args)) (useDwarfOf args) (some mf)).count .badElf := by
    apply List.count_pos_iff.mpr
    rw [heq, ← elfMsgs_none]
    simp [h]
  unfold runMsgs
  simp only [List.count_append, hmf, useDwarf_eff]
  omega

/-! ### Examples -/

/-- The first region and the one below it overlap; a third one is not covered by memory types. -/
def exWarnRegs : List Region :=
  [⟨str "iram0_0_seg", 0x100, 0x100, str "xr"⟩, ⟨str "dram0_0_seg", 0, 0x150, str "rw"⟩, ⟨str "ext_seg", 0x700, 8, str "rw"⟩,
   ⟨str "rtc_seg", 0x300, 0x10, str "rw"⟩]

def exWarnOuts : List ListedOut :=
  [⟨str ".iram0.text", 0x120, 0x50, [⟨str ".text.a", 0x120, 0x50, str "lib/liba.a", str "a.o", []⟩]⟩,
   ⟨str ".dram0.data", 0x280, 4, [⟨str ".data.a", 0x280, 4, str "lib/liba.a", str "a.o", []⟩]⟩,
   ⟨str ".rtc.data", 0x500, 0x10, [⟨str ".data.b", 0x500, 0x10, str "lib/liba.a", str "a.o", []⟩]⟩]

def exWarnTypes : Dict Str MemTypeInfo := [(str "RAM", { name := str "RAM", primary := 0, length := 0x400, secondary := 0 })]

def exWarnWorld : World :=
  { exWorld with
    lines := fun fn => if fn = str "/b/x.map" then .ok (printMap exWarnRegs (str "espo") exWarnOuts exCsvCrt)
      else if fn = str "/o/x.map" then .ok exMapLines else .error .osError
    chip := fun fn => if fn = str "espo.yaml" then .ok exWarnTypes else if fn = str "espx.yaml" then .ok exTypesX else .error .osError }

inductive Brief where
  | region (n : Str) | exceeds (n : Str) (r : Str) | overflow (n : Str) (r : Str) | nowhere (n : Str) | other (m : Msg)
deriving DecidableEq

def brief : Msg → Brief
  | .region n => .region n
  | .exceeds s r => .exceeds s.name r.name
  | .overflow s r => .overflow s.name r.name
  | .nowhere s => .nowhere s.name
  | m => .other m

def exUsedSum : Option (Except Err MemMap) → Option Int
  | some (.ok m) => some (sumBy (fun p => p.2.used) m.memoryTypes)
  | _ => none

/-- **C80** (violated) with overlapping regions a part that is inside of a region is reported to exceed another one. -/
theorem C80_exceeds_fits :
    (getMsgs 9 exWarnWorld (str "/b/x.map") false none none).map brief =
      [.region (str "ext_seg"), .nowhere (str ".rtc.data"), .overflow (str ".dram0.data") (str "iram0_0_seg"),
        .exceeds (str ".iram0.text") (str "dram0_0_seg")] ∧
    (0x100 ≤ (0x120 : Int) ∧ (0x120 + 0x50 : Int) ≤ 0x100 + 0x100) := by
  decide +kernel

-- 0x10 bytes are announced, the rest is accounted
example : exUsedSum (getMap 9 exWarnWorld (str "/b/x.map") false none none none) = some 0x54 ∧
    announced (getMsgs 9 exWarnWorld (str "/b/x.map") false none none) = 0x10 := by decide +kernel

-- two targets, and options in conflict
def exMaps (f : MemMap → MemMap → List Msg) (a b : Option (Except Err MemMap)) : Option (List Brief) :=
  match a, b with
  | some (.ok m), some (.ok ref) => some ((f m ref).map brief)
  | _, _ => none

example : exMaps (runMsgs (exRun exWarnWorld) (str "/o/x.map") { diff := some (str "/b/x.map"), noAbbrev := true, unify := true })
    (getMap 9 exWarnWorld (str "/o/x.map") false none none none) (getMap 9 exWarnWorld (str "/b/x.map") false none none none) =
    some [.other .noAbbrev, .region (str "ext_seg"), .nowhere (str ".rtc.data"), .overflow (str ".dram0.data") (str "iram0_0_seg"),
        .exceeds (str ".iram0.text") (str "dram0_0_seg"), .other (.targets (str "espx") (str "espo"))] := by
  decide +kernel

-- no ELF file although the project has one; DWARF is ignored
def exBadElfWorld : World :=
  { exWorld with
    json := fun _ => some { appElf := some (str "x.elf"), target := some (str "espx"), build := some (str "/b"), comps := some [] }
    elf := fun _ => some (.error .elf) }

example : (getMsgs 3 exBadElfWorld (str "/b/x.map") false (some true) none) = [.badElf, .noElf] := by decide +kernel
example : getMap 3 exBadElfWorld (str "/b/x.map") false (some true) none none = some (.ok exResult) := by decide +kernel
example : (getMsgs 3 exWorld (str "/b/x.map") false (some true) none) = [.noDesc] := by decide +kernel

example : runMsgs (exRun exBadElfWorld) (str "/b/x.map") {} exResult exResult = [.badElf, .badElf] := by decide +kernel

-- a hole between two sections
def exHoleMap : MapFile :=
  { regions := [⟨str "iram0_0_seg", 0x100, 0x100, str "xr"⟩], target := str "espx"
    sections := [⟨str ".iram0.text", some 0x100, some 32, [⟨str ".text.a", some 0x100, some 8, 0, str "liba.a", str "a.o"⟩,
      ⟨str ".text.b", some 0x110, some 16, 0, str "liba.a", str "b.o"⟩]⟩], crt := none }

example : getMsgs 3 exWorld (str "/b/x.map") false none (some exHoleMap) = [.invalid] ∧ (∀ o ∈ exHoleMap.sections, Known o) ∧
    exUsedSum (getMap 3 exWorld (str "/b/x.map") false none (some exHoleMap) none) = some 32 := by
  refine ⟨by decide +kernel, ?_, by decide +kernel⟩
  simp [exHoleMap, Known]

-- a map file without target, with and without table
example : targetMsgs [str "x", str "Cross Reference Table"] false = [.noTarget] ∧ targetMsgs [str "x"] false = [] := by decide

-- regions without overlap, without a message
example : (getMsgs 3 exWorld (str "/b/x.map") false none none) = [] ∧
    MapRegionsDisjoint [⟨str "iram0_0_seg", 0x100, 0x100, str "xr"⟩] := ⟨by decide +kernel, by simp [MapRegionsDisjoint]⟩

end EspSize
