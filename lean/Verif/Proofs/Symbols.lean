import Verif.Spec.Symbols
import Verif.Proofs.Sort
import Verif.Proofs.List
/-! # Lemmas on the attribution of symbols -/
namespace EspSize

theorem selfSym_eq (i : ISec) : selfSym i = ownEntry i := rfl
theorem entry_eq (y : ElfSym) : ({ name := symName y, address := y.value, size := y.size } : MSym) = symEntry y := rfl

/-- Final symbols of a slot that already has some. -/
def finSyms (ys : List ElfSym) (pre : List ISec) (t : Slot) : List MSym :=
  let own := t.syms ++ (ys.filter fun y => (∀ q ∈ pre, q.stop ≤ y.value) ∧ StartsIn t.isec y).map symEntry
  if own = [] ∧ ∃ y ∈ ys, (∀ q ∈ pre, q.stop ≤ y.value) ∧ t.isec.stop ≤ y.value then [ownEntry t.isec] else own

def fin (ys : List ElfSym) (pre : List ISec) : List Slot → List Slot
  | [] => []
  | t :: ts => { t with syms := finSyms ys pre t } :: fin ys (pre ++ [t.isec]) ts

theorem finSyms_empty (ys : List ElfSym) (pre : List ISec) (n : Nat) (i : ISec) :
    finSyms ys pre { idx := n, isec := i, syms := [] } = symsAt ys pre i := by
  simp [finSyms, symsAt]

/-- Sections that end before all symbols do not matter. -/
theorem finSyms_drop (ys : List ElfSym) (c : ISec) (pre : List ISec) (t : Slot) (h : ∀ y ∈ ys, c.stop ≤ y.value) :
    finSyms ys (c :: pre) t = finSyms ys pre t := by
  have e1 : (ys.filter fun y => decide ((∀ q ∈ c :: pre, q.stop ≤ y.value) ∧ StartsIn t.isec y)) =
      ys.filter fun y => decide ((∀ q ∈ pre, q.stop ≤ y.value) ∧ StartsIn t.isec y) := by
    apply List.filter_congr
    intro y hy
    simp [h y hy]
  have e2 : (∃ y ∈ ys, (∀ q ∈ c :: pre, q.stop ≤ y.value) ∧ t.isec.stop ≤ y.value) ↔
      ∃ y ∈ ys, (∀ q ∈ pre, q.stop ≤ y.value) ∧ t.isec.stop ≤ y.value := by
    constructor
    · rintro ⟨y, hy, a, b⟩
      exact ⟨y, hy, fun q hq => a q (by simp [hq]), b⟩
    · rintro ⟨y, hy, a, b⟩
      refine ⟨y, hy, fun q hq => ?_, b⟩
      rcases List.mem_cons.mp hq with rfl | hq
      · exact h y hy
      · exact a q hq
  unfold finSyms
  simp only [e1, e2]

theorem fin_drop (ys : List ElfSym) (c : ISec) (pre : List ISec) (ts : List Slot) (h : ∀ y ∈ ys, c.stop ≤ y.value) :
    fin ys (c :: pre) ts = fin ys pre ts := by
  induction ts generalizing pre with
  | nil => rfl
  | cons t ts ih => simp only [fin, finSyms_drop ys c pre t h, List.cons_append, ih]

/-- A symbol before the end of an earlier section does not matter. -/
theorem finSyms_skip (y : ElfSym) (ys : List ElfSym) (pre : List ISec) (t : Slot) (h : ∃ c ∈ pre, y.value < c.stop) :
    finSyms (y :: ys) pre t = finSyms ys pre t := by
  obtain ⟨c, hc, hlt⟩ := h
  have hn : ¬ ∀ q ∈ pre, q.stop ≤ y.value := fun h => by have := h c hc; omega
  unfold finSyms
  simp only [List.filter_cons, hn, false_and, decide_false, Bool.false_eq_true, if_false, List.mem_cons,
    exists_eq_or_imp, false_or]

theorem fin_skip (y : ElfSym) (ys : List ElfSym) (pre : List ISec) (ts : List Slot) (h : ∃ c ∈ pre, y.value < c.stop) :
    fin (y :: ys) pre ts = fin ys pre ts := by
  induction ts generalizing pre with
  | nil => rfl
  | cons t ts ih =>
    obtain ⟨c, hc, hlt⟩ := h
    simp only [fin, finSyms_skip y ys pre t ⟨c, hc, hlt⟩, ih (pre ++ [t.isec]) ⟨c, by simp [hc], hlt⟩]

def slotOf (p : Nat × ISec) : Slot := { idx := p.1, isec := p.2, syms := [] }

theorem sweep_step (y : ElfSym) (ys : List ElfSym) (cur : Slot) (p : Nat × ISec) (rest : List (Nat × ISec))
    (done : List Slot) (h : y.value ≥ cur.isec.stop) :
    sweep (y :: ys) cur (p :: rest) done =
      sweep (y :: ys) (slotOf p) rest (done ++ [if cur.syms.isEmpty then { cur with syms := [selfSym cur.isec] } else cur]) := by
  conv => lhs; unfold sweep
  rw [advance, if_pos (show y.value ≥ cur.isec.address + cur.isec.size from h)]
  conv => rhs; unfold sweep
  rfl

theorem sweep_stay (y : ElfSym) (ys : List ElfSym) (cur : Slot) (rest : List (Nat × ISec))
    (done : List Slot) (h : ¬ y.value ≥ cur.isec.stop) :
    sweep (y :: ys) cur rest done =
      if y.value + y.size > cur.isec.stop then .error .memMap
      else if y.value < cur.isec.address then sweep ys cur rest done
      else sweep ys { cur with syms := cur.syms ++ [symEntry y] } rest done := by
  conv => lhs; unfold sweep
  cases rest <;> rw [advance, if_neg (show ¬ y.value ≥ cur.isec.address + cur.isec.size from h)] <;> rfl

theorem sweep_end (y : ElfSym) (ys : List ElfSym) (cur : Slot) (done : List Slot) (h : y.value ≥ cur.isec.stop) :
    sweep (y :: ys) cur [] done = .error .memMap := by
  unfold sweep
  rw [advance, if_pos (show y.value ≥ cur.isec.address + cur.isec.size from h)]
  rfl

theorem fin_nil (pre : List ISec) (ts : List Slot) : fin [] pre ts = ts := by
  induction ts generalizing pre with
  | nil => rfl
  | cons t ts ih => simp [fin, finSyms, ih]

theorem fitsIn_cons_lt {c : ISec} {l : List ISec} {y : ElfSym} (h : y.value < c.stop) :
    FitsIn (c :: l) y ↔ y.value + y.size ≤ c.stop := by
  constructor
  · rintro ⟨pre, p, post, e, h1, h2, h3⟩
    cases pre with
    | nil => cases e; exact h3
    | cons q pre =>
      have : q = c := by cases e; rfl
      subst this
      have := h1 q (by simp); omega
  · intro h'
    exact ⟨[], c, l, rfl, by simp, h, h'⟩

theorem fitsIn_cons_ge {c : ISec} {l : List ISec} {y : ElfSym} (h : c.stop ≤ y.value) :
    FitsIn (c :: l) y ↔ FitsIn l y := by
  constructor
  · rintro ⟨pre, p, post, e, h1, h2, h3⟩
    cases pre with
    | nil => cases e; omega
    | cons q pre =>
      have e' : l = pre ++ p :: post := by cases e; rfl
      exact ⟨pre, p, post, e', fun x hx => h1 x (by simp [hx]), h2, h3⟩
  · rintro ⟨pre, p, post, e, h1, h2, h3⟩
    refine ⟨c :: pre, p, post, by rw [e]; rfl, ?_, h2, h3⟩
    intro q hq
    rcases List.mem_cons.mp hq with rfl | hq
    · exact h
    · exact h1 q hq

/-- What the sweep computes. -/
theorem sweep_eq (ys : List ElfSym) (hs : ys.Pairwise fun a b => a.value ≤ b.value) (cur : Slot)
    (rest : List (Nat × ISec)) (done : List Slot) :
    ((∀ y ∈ ys, FitsIn (cur.isec :: rest.map Prod.snd) y) ∧
      sweep ys cur rest done = .ok (done ++ fin ys [] (cur :: rest.map slotOf))) ∨
    ((∃ y ∈ ys, ¬ FitsIn (cur.isec :: rest.map Prod.snd) y) ∧ sweep ys cur rest done = .error .memMap) := by
  induction ys generalizing cur rest done with
  | nil =>
    left
    refine ⟨by simp, ?_⟩
    rw [sweep, fin_nil]
    simp only [List.append_assoc]; rfl
  | cons y ys ih =>
    obtain ⟨hy, hs'⟩ := List.pairwise_cons.mp hs
    induction rest generalizing cur done with
    | nil =>
      by_cases hge : y.value ≥ cur.isec.stop
      · right
        refine ⟨⟨y, by simp, ?_⟩, sweep_end y ys cur done hge⟩
        rw [fitsIn_cons_ge hge]
        rintro ⟨pre, p, post, e, _⟩
        simp at e
      · exact step_stay y ys cur [] done hge hy (ih hs')
    | cons p rest ihr =>
      by_cases hge : y.value ≥ cur.isec.stop
      · have hall : ∀ z ∈ y :: ys, cur.isec.stop ≤ z.value := by
          intro z hz
          rcases List.mem_cons.mp hz with rfl | hz
          · exact hge
          · have := hy z hz; omega
        rw [sweep_step y ys cur p rest done hge]
        have hfit : ∀ z ∈ y :: ys, (FitsIn (cur.isec :: (p :: rest).map Prod.snd) z ↔
            FitsIn ((slotOf p).isec :: rest.map Prod.snd) z) := fun z hz => fitsIn_cons_ge (hall z hz)
        rcases ihr (slotOf p) (done ++ [if cur.syms.isEmpty then { cur with syms := [selfSym cur.isec] } else cur]) with ⟨h1, h2⟩ | ⟨⟨z, hz, h1⟩, h2⟩
        · left
          refine ⟨fun z hz => (hfit z hz).mpr (h1 z hz), ?_⟩
          rw [h2, List.append_assoc]
          congr 2
          show _ = fin (y :: ys) [] (cur :: slotOf p :: rest.map slotOf)
          conv => rhs; unfold fin
          rw [List.nil_append, fin_drop _ _ _ _ hall]
          simp only [List.cons_append, List.nil_append]
          congr 1
          have hf : (y :: ys).filter (fun z => decide ((∀ q ∈ ([] : List ISec), q.stop ≤ z.value) ∧ StartsIn cur.isec z)) = [] := by
            rw [List.filter_eq_nil_iff]
            intro z hz
            have := hall z hz
            intro hd
            have hd := (of_decide_eq_true hd).2.2
            omega
          have hex : ∃ z ∈ y :: ys, (∀ q ∈ ([] : List ISec), q.stop ≤ z.value) ∧ cur.isec.stop ≤ z.value :=
            ⟨y, by simp, by simp, hge⟩
          unfold finSyms
          simp only [hf, List.map_nil, List.append_nil, hex, and_true]
          cases hc : cur.syms with
          | nil => simp [selfSym_eq]
          | cons a b =>
            simp only [List.isEmpty_cons, Bool.false_eq_true, if_false, reduceCtorEq]
            rw [← hc]
        · right
          exact ⟨⟨z, hz, fun h => h1 ((hfit z hz).mp h)⟩, h2⟩
      · exact step_stay y ys cur (p :: rest) done hge hy (ih hs')
where
  step_stay (y : ElfSym) (ys : List ElfSym) (cur : Slot) (rest : List (Nat × ISec)) (done : List Slot)
      (hge : ¬ y.value ≥ cur.isec.stop) (_hy : ∀ z ∈ ys, y.value ≤ z.value)
      (ih : ∀ (cur : Slot) (rest : List (Nat × ISec)) (done : List Slot),
        ((∀ y ∈ ys, FitsIn (cur.isec :: rest.map Prod.snd) y) ∧
          sweep ys cur rest done = .ok (done ++ fin ys [] (cur :: rest.map slotOf))) ∨
        ((∃ y ∈ ys, ¬ FitsIn (cur.isec :: rest.map Prod.snd) y) ∧ sweep ys cur rest done = .error .memMap)) :
      ((∀ z ∈ y :: ys, FitsIn (cur.isec :: rest.map Prod.snd) z) ∧
        sweep (y :: ys) cur rest done = .ok (done ++ fin (y :: ys) [] (cur :: rest.map slotOf))) ∨
      ((∃ z ∈ y :: ys, ¬ FitsIn (cur.isec :: rest.map Prod.snd) z) ∧ sweep (y :: ys) cur rest done = .error .memMap) := by
    have hlt : y.value < cur.isec.stop := by omega
    have hfit : FitsIn (cur.isec :: rest.map Prod.snd) y ↔ y.value + y.size ≤ cur.isec.stop := fitsIn_cons_lt hlt
    rw [sweep_stay y ys cur rest done hge]
    by_cases hb : y.value + y.size > cur.isec.stop
    · right
      rw [if_pos hb]
      exact ⟨⟨y, by simp, fun h => by have := hfit.mp h; omega⟩, rfl⟩
    · rw [if_neg hb]
      have hy1 : FitsIn (cur.isec :: rest.map Prod.snd) y := hfit.mpr (by omega)
      have hrest : fin (y :: ys) ([] ++ [cur.isec]) (rest.map slotOf) = fin ys ([] ++ [cur.isec]) (rest.map slotOf) :=
        fin_skip _ _ _ _ ⟨cur.isec, by simp, hlt⟩
      by_cases ha : y.value < cur.isec.address
      · rw [if_pos ha]
        rcases ih cur rest done with ⟨h1, h2⟩ | ⟨⟨z, hz, h1⟩, h2⟩
        · left
          refine ⟨fun z hz => ?_, ?_⟩
          · rcases List.mem_cons.mp hz with rfl | hz
            · exact hy1
            · exact h1 z hz
          · rw [h2]
            congr 2
            simp only [fin]
            rw [hrest]
            congr 1
            have hn : ¬ StartsIn cur.isec y := by unfold StartsIn; omega
            have hn2 : ¬ cur.isec.stop ≤ y.value := by omega
            unfold finSyms
            simp [hn, hn2]
        · right; exact ⟨⟨z, by simp [hz], h1⟩, h2⟩
      · rw [if_neg ha]
        rcases ih { cur with syms := cur.syms ++ [symEntry y] } rest done with ⟨h1, h2⟩ | ⟨⟨z, hz, h1⟩, h2⟩
        · left
          refine ⟨fun z hz => ?_, ?_⟩
          · rcases List.mem_cons.mp hz with rfl | hz
            · exact hy1
            · exact h1 z hz
          · rw [h2]
            congr 2
            simp only [fin]
            rw [hrest]
            congr 1
            have hn : StartsIn cur.isec y := by unfold StartsIn; omega
            unfold finSyms
            simp [hn]
        · right; exact ⟨⟨z, by simp [hz], h1⟩, h2⟩

/-! ### Slots of a list -/

theorem fin_mem {ys : List ElfSym} {ts : List Slot} {pre : List ISec} {t : Slot} (h : t ∈ fin ys pre ts) :
    ∃ a u b, ts = a ++ u :: b ∧ t.idx = u.idx ∧ t.isec = u.isec ∧ t.syms = finSyms ys (pre ++ a.map Slot.isec) u := by
  induction ts generalizing pre with
  | nil => cases h
  | cons u ts ih =>
    rcases List.mem_cons.mp h with rfl | h
    · exact ⟨[], u, ts, rfl, rfl, rfl, by simp⟩
    · obtain ⟨a, v, b, h1, h2, h3, h4⟩ := ih h
      exact ⟨u :: a, v, b, by rw [h1]; rfl, h2, h3, by rw [h4]; simp⟩

theorem fin_idx (ys : List ElfSym) (ts : List Slot) (pre : List ISec) :
    (fin ys pre ts).map (fun t => (t.idx, t.isec)) = ts.map fun t => (t.idx, t.isec) := by
  induction ts generalizing pre with
  | nil => rfl
  | cons u ts ih => simp [fin, ih]

theorem all2_refill {R : ISec → ISec → Prop} (os : List OSec) (new : List ISec)
    (h : All2 R (os.flatMap (·.inputs)) new) :
    All2 (fun o o' => o' = { o with inputs := o'.inputs } ∧ All2 R o.inputs o'.inputs) os (refill os new) := by
  induction os generalizing new with
  | nil => trivial
  | cons o os ih =>
    have : ∀ (a b : List ISec) (l : List ISec), All2 R (a ++ b) l → All2 R a (l.take a.length) ∧ All2 R b (l.drop a.length) := by
      intro a
      induction a with
      | nil => intro b l h; simpa [All2] using h
      | cons x a iha =>
        intro b l h
        cases l with
        | nil => cases h
        | cons y l =>
          obtain ⟨h1, h2⟩ := h
          obtain ⟨i1, i2⟩ := iha b l h2
          exact ⟨⟨h1, by simpa using i1⟩, by simpa using i2⟩
    obtain ⟨h1, h2⟩ := this o.inputs _ new (by simpa using h)
    exact ⟨⟨rfl, h1⟩, ih _ h2⟩

theorem all2_zipIdx {α β : Type} {R : α → β → Prop} (l : List α) (n : Nat) (g : α × Nat → β)
    (h : ∀ p ∈ l.zipIdx n, R p.1 (g p)) : All2 R l ((l.zipIdx n).map g) := by
  induction l generalizing n with
  | nil => trivial
  | cons x t ih =>
    rw [List.zipIdx_cons, List.map_cons]
    refine ⟨h (x, n) (by simp), ih (n + 1) fun p hp => h p ?_⟩
    rw [List.zipIdx_cons]; exact List.mem_cons_of_mem _ hp

end EspSize
