import Verif.Proofs.Unify
/-! # `unify` after `diff` versus `diff` after `unify` -/
namespace EspSize
variable {α : Type}

theorem sumBy_ite_key {κ : Type} [DecidableEq κ] (d : Dict κ α) (hd : KeysNodup d) (k : κ) (c : Int) :
    sumBy (fun p => if p.1 = k then c else 0) d = if k ∈ dkeys d then c else 0 := by
  induction d with
  | nil => simp [sumBy, dkeys]
  | cons p t ih =>
    have h := KeysNodup.cons_iff.mp hd
    simp only [sumBy, ih h.2]
    have hk : dkeys (p :: t) = p.1 :: dkeys t := rfl
    rw [hk]
    by_cases e : p.1 = k
    · subst e; simp [h.1]
    · simp [e, Ne.symm e]

/-- Double counting over common keys. -/
theorem sumBy_dget_swap (P : Str → Bool) (H : α → Int) {β : Type} (cur : Dict Str β) (ref : Dict Str α)
    (hc : KeysNodup cur) (hr : KeysNodup ref) :
    sumBy (fun p => if P p.1 then orZero H (dget ref p.1) else 0) cur =
      sumBy (fun q => if P q.1 ∧ q.1 ∈ dkeys cur then H q.2 else 0) ref := by
  induction ref with
  | nil =>
    rw [sumBy_zero]
    · rfl
    · intro x _; simp [dget, orZero]
  | cons q t ih =>
    have h := KeysNodup.cons_iff.mp hr
    have hq : dget t q.1 = none := dget_eq_none.mpr h.1
    have h1 : sumBy (fun p => if P p.1 then orZero H (dget (q :: t) p.1) else 0) cur =
        sumBy (fun p => (if p.1 = q.1 then (if P q.1 then H q.2 else 0) else 0) +
          (if P p.1 then orZero H (dget t p.1) else 0)) cur := by
      apply sumBy_congr
      intro p _
      rw [dget_cons]
      by_cases e : q.1 = p.1
      · rw [if_pos e, if_pos e.symm]
        rw [← e, hq]
        simp [orZero]
      · rw [if_neg e, if_neg (Ne.symm e)]; simp
    rw [h1, sumBy_add, ih h.2, sumBy_ite_key cur hc]
    simp only [sumBy]
    congr 1
    by_cases h1 : q.1 ∈ dkeys cur <;> by_cases h2 : P q.1 <;> simp [h1, h2]

/-- `g` of the difference is `G` of the current entry minus `H` of the reference entry. -/
def Lin (W : α → Prop) (out : Option α → Option α → α) (g G H : α → Int) : Prop :=
  ∀ c r, (c.isSome = true ∨ r.isSome = true) → (∀ x, c = some x → W x) → (∀ x, r = some x → W x) →
    g (out c r) = orZero G c - orZero H r

/-- `P` holds of the difference iff it holds of the current or of the reference entry. -/
def Exi (W : α → Prop) (out : Option α → Option α → α) (P : α → Prop) : Prop :=
  ∀ c r, (c.isSome = true ∨ r.isSome = true) → (∀ x, c = some x → W x) → (∀ x, r = some x → W x) →
    (P (out c r) ↔ (∃ x, c = some x ∧ P x) ∨ ∃ x, r = some x ∧ P x)

/-- The abbreviated name of the difference comes from either entry. -/
def AbbLaw (abb : α → Str) (out : Option α → Option α → α) : Prop :=
  (∀ c r, abb (out (some c) r) = abb c) ∧ ∀ r, abb (out none (some r)) = abb r

/-- Well-formed dictionary whose abbreviated names are a function of the key. -/
def DictN (W : α → Prop) (abb : α → Str) (f : Str → Str) (d : Dict Str α) : Prop :=
  KeysNodup d ∧ ∀ p ∈ d, abb p.2 = f p.1 ∧ W p.2

theorem DictN.get {W : α → Prop} {abb : α → Str} {f : Str → Str} {d : Dict Str α}
    (h : DictN W abb f d) {k : Str} {x : α} (hx : dget d k = some x) : W x :=
  (h.2 _ (mem_of_dget hx)).2

theorem named_sum (abb : α → Str) (g : α → Int) (k : Str) (d : Dict Str α) :
    sumBy g (named abb k d) = sumBy (fun p => if abb p.2 = k then g p.2 else 0) d := by
  unfold named
  rw [sumBy_map, sumBy_filter]
  simp

theorem lin_level {W : α → Prop} {abb : α → Str} {out : Option α → Option α → α} {g G H : α → Int}
    (f : Str → Str) (hl : Lin W out g G H) (ha : AbbLaw abb out) {c r : Dict Str α}
    (hc : DictN W abb f c) (hr : DictN W abb f r) (k : Str) :
    sumBy g (named abb k (outLevel out c r)) =
      sumBy G (named abb k c) - sumBy H (named abb k r) := by
  simp only [named_sum]
  unfold outLevel
  rw [sumBy_append, sumBy_map, sumBy_map, sumBy_filter]
  have e1 : sumBy (fun p => if abb (out (some p.2) (dget r p.1)) = k
        then g (out (some p.2) (dget r p.1)) else 0) c =
      sumBy (fun p => if abb p.2 = k then G p.2 else 0) c -
        sumBy (fun p => if decide (f p.1 = k) = true then orZero H (dget r p.1) else 0) c := by
    rw [← sumBy_sub]
    apply sumBy_congr
    intro p hp
    rw [ha.1, (hc.2 p hp).1, hl _ _ (Or.inl rfl)
      (by intro x hx; cases hx; exact (hc.2 p hp).2) (by intro x hx; exact hr.get hx)]
    by_cases e : f p.1 = k <;> simp [e, orZero]
  rw [e1, sumBy_dget_swap (fun x => decide (f x = k)) H c r hc.1 hr.1]
  have e2 : sumBy (fun x => if (!dhas c x.1) = true then
        (if abb (out none (some x.2)) = k then g (out none (some x.2)) else 0) else 0) r =
      sumBy (fun q => if decide (f q.1 = k) = true ∧ q.1 ∈ dkeys c then H q.2 else 0) r -
        sumBy (fun p => if abb p.2 = k then H p.2 else 0) r := by
    rw [← sumBy_sub]
    apply sumBy_congr
    intro p hp
    rw [ha.2, (hr.2 p hp).1, hl _ _ (Or.inr rfl)
      (by intro x hx; cases hx) (by intro x hx; cases hx; exact (hr.2 p hp).2)]
    have hd : dhas c p.1 = true ↔ p.1 ∈ dkeys c := dhas_iff
    by_cases e : f p.1 = k <;> by_cases e' : p.1 ∈ dkeys c <;> simp [e, e', hd.mpr, orZero]
    have : dhas c p.1 = false := by
      rw [← Bool.not_eq_true, hd]; exact e'
    simp [this]
  simp only [] at *
  rw [e2]
  omega

theorem exi_level {W : α → Prop} {abb : α → Str} {out : Option α → Option α → α} {P : α → Prop}
    (f : Str → Str) (hl : Exi W out P) (ha : AbbLaw abb out) {c r : Dict Str α}
    (hc : DictN W abb f c) (hr : DictN W abb f r) (k : Str) :
    (∃ n ∈ named abb k (outLevel out c r), P n) ↔
      (∃ n ∈ named abb k c, P n) ∨ ∃ n ∈ named abb k r, P n := by
  simp only [named, List.mem_map, List.mem_filter, decide_eq_true_eq]
  constructor
  · rintro ⟨n, ⟨q, ⟨hq, hk⟩, rfl⟩, hP⟩
    simp only [outLevel, List.mem_append, List.mem_map, List.mem_filter] at hq
    rcases hq with ⟨p, hp, rfl⟩ | ⟨p, ⟨hp, _⟩, rfl⟩
    · simp only [ha.1] at hk
      rw [hl _ _ (Or.inl rfl) (by intro x hx; cases hx; exact (hc.2 p hp).2)
        (by intro x hx; exact hr.get hx)] at hP
      rcases hP with ⟨x, hx, hPx⟩ | ⟨x, hx, hPx⟩
      · cases hx; exact Or.inl ⟨_, ⟨p, ⟨hp, hk⟩, rfl⟩, hPx⟩
      · have hm := mem_of_dget hx
        refine Or.inr ⟨_, ⟨_, ⟨hm, ?_⟩, rfl⟩, hPx⟩
        rw [(hr.2 _ hm).1]
        rw [(hc.2 p hp).1] at hk
        exact hk
    · simp only [ha.2] at hk
      rw [hl _ _ (Or.inr rfl) (by intro x hx; cases hx)
        (by intro x hx; cases hx; exact (hr.2 p hp).2)] at hP
      rcases hP with ⟨x, hx, hPx⟩ | ⟨x, hx, hPx⟩
      · cases hx
      · cases hx; exact Or.inr ⟨_, ⟨p, ⟨hp, hk⟩, rfl⟩, hPx⟩
  · rintro (⟨n, ⟨p, ⟨hp, hk⟩, rfl⟩, hP⟩ | ⟨n, ⟨p, ⟨hp, hk⟩, rfl⟩, hP⟩)
    · refine ⟨_, ⟨_, ⟨List.mem_append_left _ (List.mem_map_of_mem hp), ?_⟩, rfl⟩, ?_⟩
      · simpa [ha.1] using hk
      · rw [hl _ _ (Or.inl rfl) (by intro x hx; cases hx; exact (hc.2 p hp).2)
          (by intro x hx; exact hr.get hx)]
        exact Or.inl ⟨_, rfl, hP⟩
    · by_cases hm : p.1 ∈ dkeys c
      · obtain ⟨v, hv⟩ := Option.isSome_iff_exists.mp (dget_isSome.mpr hm)
        have hvm := mem_of_dget hv
        refine ⟨_, ⟨_, ⟨List.mem_append_left _ (List.mem_map_of_mem hvm), ?_⟩, rfl⟩, ?_⟩
        · simp only [ha.1, (hc.2 _ hvm).1]
          rw [(hr.2 p hp).1] at hk
          exact hk
        · simp only [dget_of_mem hr.1 (k := p.1) (v := p.2) hp]
          rw [hl _ _ (Or.inl rfl) (by intro x hx; cases hx; exact (hc.2 _ hvm).2)
            (by intro x hx; cases hx; exact (hr.2 p hp).2)]
          exact Or.inr ⟨_, rfl, hP⟩
      · have hd : (!dhas c p.1) = true := by
          rw [← dhas_iff] at hm; simpa using hm
        refine ⟨_, ⟨_, ⟨List.mem_append_right _ (List.mem_map_of_mem (List.mem_filter.mpr ⟨hp, hd⟩)), ?_⟩, rfl⟩, ?_⟩
        · simpa [ha.2] using hk
        · rw [hl _ _ (Or.inr rfl) (by intro x hx; cases hx)
            (by intro x hx; cases hx; exact (hr.2 p hp).2)]
          exact Or.inr ⟨_, rfl, hP⟩

/-! ### Node level -/

def NodeN (W : α → Prop) (abb : α → Str) (f : Str → Str) (n : Node α) : Prop := DictN W abb f n.kids

theorem dictN_nil (W : α → Prop) (abb : α → Str) (f : Str → Str) : DictN W abb f [] :=
  ⟨KeysNodup.nil, by simp⟩

/-- Group sum inside a node. -/
def grp (abb : α → Str) (k : Str) (g : α → Int) (n : Node α) : Int := sumBy g (named abb k n.kids)
/-- A member of the group inside a node satisfies `P`. -/
def has (abb : α → Str) (k : Str) (P : α → Prop) (n : Node α) : Prop := ∃ x ∈ named abb k n.kids, P x

theorem abbLaw_node (out : Option α → Option α → α) : AbbLaw Node.abb (outNode out) :=
  ⟨fun _ _ => rfl, fun _ => rfl⟩
theorem abbLaw_sym : AbbLaw Sym.abb outSym := ⟨fun _ _ => rfl, fun _ => rfl⟩

theorem lin_node {W : α → Prop} {abb : α → Str} {out : Option α → Option α → α} {g G H : α → Int}
    (f : Str → Str) (hl : Lin W out g G H) (ha : AbbLaw abb out) (k : Str) :
    Lin (NodeN W abb f) (outNode out) (grp abb k g) (grp abb k G) (grp abb k H) := by
  intro c r hs hc hr
  cases c with
  | none =>
    cases r with
    | none => simp at hs
    | some r =>
      simp only [outNode, grp, orZero]
      rw [lin_level f hl ha (dictN_nil W abb f) (hr r rfl)]
      simp [named]
  | some c =>
    cases r with
    | none =>
      simp only [outNode, grp, orZero, kidsOf]
      rw [lin_level f hl ha (hc c rfl) (dictN_nil W abb f)]
      simp [named]
    | some r =>
      simp only [outNode, grp, orZero, kidsOf]
      rw [lin_level f hl ha (hc c rfl) (hr r rfl)]

theorem exi_node {W : α → Prop} {abb : α → Str} {out : Option α → Option α → α} {P : α → Prop}
    (f : Str → Str) (hl : Exi W out P) (ha : AbbLaw abb out) (k : Str) :
    Exi (NodeN W abb f) (outNode out) (has abb k P) := by
  intro c r hs hc hr
  cases c with
  | none =>
    cases r with
    | none => simp at hs
    | some r =>
      simp only [outNode, has]
      rw [exi_level f hl ha (dictN_nil W abb f) (hr r rfl)]
      simp [named]
  | some c =>
    cases r with
    | none =>
      simp only [outNode, has, kidsOf]
      rw [exi_level f hl ha (hc c rfl) (dictN_nil W abb f)]
      simp [named]
    | some r =>
      simp only [outNode, has, kidsOf]
      rw [exi_level f hl ha (hc c rfl) (hr r rfl)]
      simp

theorem lin_node_size (W : Node α → Prop) (out : Option α → Option α → α) :
    Lin W (outNode out) Node.size Node.size (fun _ => 0) := by
  intro c r hs _ _
  cases c <;> cases r <;> simp_all [outNode, orZero]
theorem lin_node_diff (W : Node α → Prop) (out : Option α → Option α → α) :
    Lin W (outNode out) Node.sizeDiff Node.size Node.size := by
  intro c r hs _ _
  cases c <;> cases r <;> simp_all [outNode, orZero]
theorem lin_sym_size (W : Sym → Prop) : Lin W outSym Sym.size Sym.size (fun _ => 0) := by
  intro c r hs _ _
  cases c <;> cases r <;> simp_all [outSym, orZero]
theorem lin_sym_diff (W : Sym → Prop) : Lin W outSym Sym.sizeDiff Sym.size Sym.size := by
  intro c r hs _ _
  cases c <;> cases r <;> simp_all [outSym, orZero]
theorem exi_true (W : α → Prop) (out : Option α → Option α → α) : Exi W out fun _ => True := by
  intro c r hs _ _
  cases c <;> cases r <;> simp_all

/-! ### Memory map level -/

/-- Sections of a memory type of a map; empty if the type is absent. -/
def secsAt (m : MemMap) (t : Str) : Dict Str Sec := sectionsOf (getType m t)

theorem chainSecs_eq (m : MemMap) (t s : Str) : chainSecs m t s = named Node.abb s (secsAt m t) := by
  unfold chainSecs secsAt
  cases getType m t <;> rfl

theorem secsAt_outMap {a b : MemMap} (hb : b.WF) (t : Str) :
    secsAt (outMap a b) t = outLevel outSec (secsAt a t) (secsAt b t) := by
  unfold secsAt
  rw [getType_outMap hb]
  cases getType a t <;> cases getType b t <;> rfl

abbrev NObj (fy : Str → Str) : Obj → Prop := NodeN (fun _ => True) Sym.abb fy
abbrev NArch (fo fy : Str → Str) : Arch → Prop := NodeN (NObj fy) Node.abb fo
abbrev NSec (fa fo fy : Str → Str) : Sec → Prop := NodeN (NArch fo fy) Node.abb fa

theorem nobj_of {fy n} (h : Obj.WF n) (h' : Obj.AbbBy fy n) : NObj fy n :=
  ⟨h.1, fun p hp => ⟨h' p hp, trivial⟩⟩
theorem narch_of {fo fy n} (h : Arch.WF n) (h' : Arch.AbbBy fo fy n) : NArch fo fy n :=
  ⟨h.1, fun p hp => ⟨(h' p hp).1, nobj_of (h.2 p hp) (h' p hp).2⟩⟩
theorem nsec_of {fa fo fy n} (h : Sec.WF n) (h' : Sec.AbbBy fa fo fy n) : NSec fa fo fy n :=
  ⟨h.1, fun p hp => ⟨(h' p hp).1, narch_of (h.2 p hp) (h' p hp).2⟩⟩

theorem dictN_secsAt {fs fa fo fy} {m : MemMap} (h : m.WF) (h' : m.AbbBy fs fa fo fy) (t : Str) :
    DictN (NSec fa fo fy) Node.abb fs (secsAt m t) := by
  unfold secsAt
  cases hx : getType m t with
  | none => exact dictN_nil _ _ _
  | some x =>
    have hm := mem_of_dget hx
    have h1 := h.2 _ hm
    have h2 := h' _ hm
    exact ⟨h1.1, fun p hp => ⟨(h2 p hp).1, nsec_of (h1.2 p hp) (h2 p hp).2⟩⟩

/-- Sums over chains are nested group sums. -/
theorem sum_chainArchs (g : Arch → Int) (m t s a) :
    sumBy g (chainArchs m t s a) = sumBy (grp Node.abb a g) (chainSecs m t s) := by
  unfold chainArchs; rw [sumBy_flatMap]; rfl
theorem sum_chainObjs (g : Obj → Int) (m t s a o) :
    sumBy g (chainObjs m t s a o) = sumBy (grp Node.abb a (grp Node.abb o g)) (chainSecs m t s) := by
  unfold chainObjs; rw [sumBy_flatMap, ← sum_chainArchs]; rfl
theorem sum_chainSyms (g : Sym → Int) (m t s a o y) :
    sumBy g (chainSyms m t s a o y) =
      sumBy (grp Node.abb a (grp Node.abb o (grp Sym.abb y g))) (chainSecs m t s) := by
  unfold chainSyms; rw [sumBy_flatMap, ← sum_chainObjs]; rfl

theorem ex_chainArchs (P : Arch → Prop) (m t s a) :
    (∃ x ∈ chainArchs m t s a, P x) ↔ ∃ x ∈ chainSecs m t s, has Node.abb a P x := by
  unfold chainArchs has
  simp only [List.mem_flatMap]
  constructor
  · rintro ⟨x, ⟨y, hy, hx⟩, hP⟩; exact ⟨y, hy, x, hx, hP⟩
  · rintro ⟨y, hy, x, hx, hP⟩; exact ⟨x, ⟨y, hy, hx⟩, hP⟩
theorem ex_chainObjs (P : Obj → Prop) (m t s a o) :
    (∃ x ∈ chainObjs m t s a o, P x) ↔
      ∃ x ∈ chainSecs m t s, has Node.abb a (has Node.abb o P) x := by
  rw [← ex_chainArchs]
  unfold chainObjs
  simp only [List.mem_flatMap, has]
  constructor
  · rintro ⟨x, ⟨y, hy, hx⟩, hP⟩; exact ⟨y, hy, x, hx, hP⟩
  · rintro ⟨y, hy, x, hx, hP⟩; exact ⟨x, ⟨y, hy, hx⟩, hP⟩
theorem ex_chainSyms (P : Sym → Prop) (m t s a o y) :
    (∃ x ∈ chainSyms m t s a o y, P x) ↔
      ∃ x ∈ chainSecs m t s, has Node.abb a (has Node.abb o (has Sym.abb y P)) x := by
  rw [← ex_chainObjs]
  unfold chainSyms
  simp only [List.mem_flatMap, has]
  constructor
  · rintro ⟨x, ⟨y, hy, hx⟩, hP⟩; exact ⟨y, hy, x, hx, hP⟩
  · rintro ⟨y, hy, x, hx, hP⟩; exact ⟨x, ⟨y, hy, hx⟩, hP⟩

theorem ne_nil_iff (l : List α) : l ≠ [] ↔ ∃ x ∈ l, True := by
  cases l <;> simp
end EspSize
