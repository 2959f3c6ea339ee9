import Verif.Model.Deps
import Verif.Spec.Deps
import Verif.Proofs.Dict
import Verif.Proofs.List
/-! # Building the dependency dictionary -/
namespace EspSize

/-- One symbol appended: symbol, outer key, inner key. -/
structure DepEv where
  sym : Str
  outer : Str
  inner : Str

def DepEv.on (O I : Str) (e : DepEv) : Bool := e.outer = O && e.inner = I

/-- The dictionary after the given symbols were appended. -/
structure DepInv (sizes : Dict Str Entry) (evs : List DepEv) (d : Deps) : Prop where
  nodup : KeysNodup d
  has : ∀ O, (dget d O).isSome = true ↔ ∃ e ∈ evs, e.outer = O
  outer : ∀ O a, dget d O = some a → a.abb = basename O ∧ (∃ x, dget sizes O = some x ∧ a.size = x.size) ∧
    KeysNodup a.archives
  inner : ∀ O a, dget d O = some a → ∀ I, (dget a.archives I).isSome = true ↔ ∃ e ∈ evs, e.outer = O ∧ e.inner = I
  info : ∀ O a I i, dget d O = some a → dget a.archives I = some i →
    i.abb = basename I ∧ (∃ x, dget sizes I = some x ∧ i.size = x.size) ∧
    i.symbols = (evs.filter (DepEv.on O I)).map DepEv.sym

theorem DepInv.nil (sizes : Dict Str Entry) : DepInv sizes [] [] where
  nodup := KeysNodup.nil
  has := by simp
  outer := by simp
  inner := by simp
  info := by simp

theorem filter_snoc_on {O I : Str} {evs : List DepEv} {e : DepEv} (h : ¬(e.outer = O ∧ e.inner = I)) :
    ((evs ++ [e]).filter (DepEv.on O I)).map DepEv.sym = (evs.filter (DepEv.on O I)).map DepEv.sym := by
  have : DepEv.on O I e = false := by
    simp only [DepEv.on, Bool.and_eq_false_iff, decide_eq_false_iff_not]
    by_cases h1 : e.outer = O
    · exact Or.inr fun h2 => h ⟨h1, h2⟩
    · exact Or.inl h1
  simp [List.filter_append, this]

theorem filter_none_on {O I : Str} {evs : List DepEv} (h : ¬ ∃ e ∈ evs, e.outer = O ∧ e.inner = I) :
    evs.filter (DepEv.on O I) = [] := by
  rw [List.filter_eq_nil_iff]
  intro e he hon
  simp only [DepEv.on, Bool.and_eq_true, decide_eq_true_eq] at hon
  exact h ⟨e, he, hon⟩

theorem archSize_ok {sizes : Dict Str Entry} {n : Str} (h : dhas sizes n = true) :
    ∃ x, dget sizes n = some x ∧ archSize sizes n = .ok x.size := by
  obtain ⟨x, hx⟩ := Option.isSome_iff_exists.mp h
  exact ⟨x, hx, by simp [archSize, hx]⟩

/-- The outer entry that `addDep` starts from. -/
theorem ensureArch_inv {sizes : Dict Str Entry} {evs : List DepEv} {d : Deps} (h : DepInv sizes evs d) {O : Str}
    (hO : dhas sizes O = true) :
    ∃ d' a, ensureArch sizes d O = .ok (d', a) ∧ dget d' O = some a ∧ KeysNodup d' ∧
      (∀ O', O' ≠ O → dget d' O' = dget d O') ∧
      a.abb = basename O ∧ (∃ x, dget sizes O = some x ∧ a.size = x.size) ∧ KeysNodup a.archives ∧
      (∀ I, (dget a.archives I).isSome = true ↔ ∃ e ∈ evs, e.outer = O ∧ e.inner = I) ∧
      (∀ I i, dget a.archives I = some i → i.abb = basename I ∧
        (∃ x, dget sizes I = some x ∧ i.size = x.size) ∧
        i.symbols = (evs.filter (DepEv.on O I)).map DepEv.sym) := by
  unfold ensureArch
  cases hd : dget d O with
  | some a =>
    obtain ⟨h1, h2, h3⟩ := h.outer O a hd
    exact ⟨d, a, rfl, hd, h.nodup, fun _ _ => rfl, h1, h2, h3, h.inner O a hd, fun I i hi => h.info O a I i hd hi⟩
  | none =>
    obtain ⟨x, hx, hz⟩ := archSize_ok hO
    refine ⟨_, _, by rw [hz]; rfl, dget_dset_self _ _ _, h.nodup.dset _ _,
      fun O' hne => dget_dset_ne (Ne.symm hne), rfl, ⟨x, hx, rfl⟩, KeysNodup.nil, ?_, by simp⟩
    intro I
    simp only [dget_nil, Option.isSome_none, Bool.false_eq_true, false_iff]
    rintro ⟨e, he, ho, _⟩
    have := (h.has O).mpr ⟨e, he, ho⟩
    rw [hd] at this; cases this

theorem addDep_inv {sizes : Dict Str Entry} {evs : List DepEv} {d : Deps} (h : DepInv sizes evs d) (e : DepEv)
    (hO : dhas sizes e.outer = true) (hI : dhas sizes e.inner = true) :
    ∃ d', addDep sizes e.sym d e.outer e.inner = .ok d' ∧ DepInv sizes (evs ++ [e]) d' := by
  obtain ⟨d1, a, h1, hget, hnd, hne, habb, hsize, hkn, hin, hinfo⟩ := ensureArch_inv h hO
  have hinner : ∃ i, innerOf sizes a e.inner = .ok i ∧ i.abb = basename e.inner ∧
      (∃ x, dget sizes e.inner = some x ∧ i.size = x.size) ∧
      i.symbols = (evs.filter (DepEv.on e.outer e.inner)).map DepEv.sym := by
    unfold innerOf
    cases hi : dget a.archives e.inner with
    | some i => exact ⟨i, rfl, hinfo _ _ hi⟩
    | none =>
      obtain ⟨x, hx, hz⟩ := archSize_ok hI
      refine ⟨_, by rw [hz]; rfl, rfl, ⟨x, hx, rfl⟩, ?_⟩
      rw [filter_none_on]
      · rfl
      · intro hex
        have := (hin e.inner).mpr hex
        rw [hi] at this; cases this
  obtain ⟨i, hi, iabb, isize, isyms⟩ := hinner
  refine ⟨_, by unfold addDep; rw [h1]; simp only [bind, Except.bind]; rw [hi], ?_⟩
  constructor
  · exact hnd.dset _ _
  · intro O
    rw [dget_dset]
    by_cases hO' : e.outer = O
    · rw [if_pos hO']
      simp only [Option.isSome_some, true_iff]
      exact ⟨e, by simp, hO'⟩
    · rw [if_neg hO', hne O (Ne.symm hO'), h.has O]
      constructor
      · rintro ⟨x, hx, rfl⟩; exact ⟨x, List.mem_append_left _ hx, rfl⟩
      · rintro ⟨x, hx, rfl⟩
        rcases List.mem_append.mp hx with hx | hx
        · exact ⟨x, hx, rfl⟩
        · simp only [List.mem_singleton] at hx; subst hx; exact absurd rfl hO'
  · intro O b hb
    rw [dget_dset] at hb
    by_cases hO' : e.outer = O
    · rw [if_pos hO'] at hb; cases hb
      subst hO'
      exact ⟨habb, hsize, hkn.dset _ _⟩
    · rw [if_neg hO', hne O (Ne.symm hO')] at hb
      exact h.outer O b hb
  · intro O b hb I
    rw [dget_dset] at hb
    by_cases hO' : e.outer = O
    · rw [if_pos hO'] at hb; cases hb
      subst hO'
      simp only [dget_dset]
      by_cases hI' : e.inner = I
      · rw [if_pos hI']
        simp only [Option.isSome_some, true_iff]
        exact ⟨e, by simp, rfl, hI'⟩
      · rw [if_neg hI', hin I]
        constructor
        · rintro ⟨x, hx, h⟩; exact ⟨x, List.mem_append_left _ hx, h⟩
        · rintro ⟨x, hx, h⟩
          rcases List.mem_append.mp hx with hx | hx
          · exact ⟨x, hx, h⟩
          · simp only [List.mem_singleton] at hx; subst hx; exact absurd h.2 hI'
    · rw [if_neg hO', hne O (Ne.symm hO')] at hb
      rw [h.inner O b hb I]
      constructor
      · rintro ⟨x, hx, h⟩; exact ⟨x, List.mem_append_left _ hx, h⟩
      · rintro ⟨x, hx, h⟩
        rcases List.mem_append.mp hx with hx | hx
        · exact ⟨x, hx, h⟩
        · simp only [List.mem_singleton] at hx; subst hx; exact absurd h.1 hO'
  · intro O b I j hb hj
    rw [dget_dset] at hb
    by_cases hO' : e.outer = O
    · rw [if_pos hO'] at hb; cases hb
      subst hO'
      simp only [dget_dset] at hj
      by_cases hI' : e.inner = I
      · rw [if_pos hI'] at hj; cases hj
        subst hI'
        refine ⟨iabb, isize, ?_⟩
        simp [isyms, List.filter_append, DepEv.on]
      · rw [if_neg hI'] at hj
        rw [filter_snoc_on fun h => hI' h.2]
        exact hinfo I j hj
    · rw [if_neg hO', hne O (Ne.symm hO')] at hb
      rw [filter_snoc_on fun h => hO' h.1]
      exact h.info O b I j hb hj

/-- Appending the symbols one after the other. -/
theorem addDeps_inv {sizes : Dict Str Entry} {evs : List DepEv} {d : Deps} (h : DepInv sizes evs d)
    (new : List DepEv) (hok : ∀ e ∈ new, dhas sizes e.outer = true ∧ dhas sizes e.inner = true) :
    ∃ d', new.foldlM (fun d e => addDep sizes e.sym d e.outer e.inner) d = .ok d' ∧
      DepInv sizes (evs ++ new) d' := by
  induction new generalizing evs d with
  | nil => exact ⟨d, rfl, by simpa using h⟩
  | cons e t ih =>
    obtain ⟨d1, h1, hi1⟩ := addDep_inv h e (hok e (by simp)).1 (hok e (by simp)).2
    obtain ⟨d2, h2, hi2⟩ := ih hi1 fun x hx => hok x (by simp [hx])
    refine ⟨d2, ?_, by simpa using hi2⟩
    rw [List.foldlM_cons, h1]
    exact h2

/-- The symbols of one row, in the order of the set iteration. -/
def rowEvs (ord : List Str → List Str) (rev : Bool) (p : Str × List (Str × Str)) : List DepEv :=
  match p.2 with
  | [] => []
  | df :: refs => (ord (refs.map (·.1))).map fun r =>
      { sym := p.1, outer := if rev then df.1 else r, inner := if rev then r else df.1 }

/-- A row as it is left by the filter: all archives known and at least one reference. -/
def RowOk (sizes : Dict Str Entry) (p : Str × List (Str × Str)) : Prop :=
  ∃ df refs, p.2 = df :: refs ∧ refs ≠ [] ∧ dhas sizes df.1 = true ∧ ∀ r ∈ refs, dhas sizes r.1 = true

theorem rowEvs_ok {ord : List Str → List Str} (hord : SetOrder ord) {sizes : Dict Str Entry}
    {p : Str × List (Str × Str)} (hp : RowOk sizes p) (rev : Bool) :
    ∀ e ∈ rowEvs ord rev p, dhas sizes e.outer = true ∧ dhas sizes e.inner = true := by
  obtain ⟨df, refs, hrow, _, hdf, hrefs⟩ := hp
  intro e he
  rw [rowEvs, hrow] at he
  obtain ⟨r, hr, rfl⟩ := List.mem_map.mp he
  rw [(hord _).2] at hr
  obtain ⟨q, hq, rfl⟩ := List.mem_map.mp hr
  cases rev
  · exact ⟨hrefs q hq, hdf⟩
  · exact ⟨hdf, hrefs q hq⟩

theorem getArchivesDeps_inv {ord : List Str → List Str} (hord : SetOrder ord) (sizes : Dict Str Entry) (crt : Crt)
    (hrows : ∀ p ∈ crt, RowOk sizes p) :
    ∃ d, getArchivesDeps ord sizes crt = .ok d ∧ DepInv sizes (crt.flatMap (rowEvs ord false)) d := by
  have : ∀ (crt : Crt) evs d, DepInv sizes evs d → (∀ p ∈ crt, RowOk sizes p) →
      ∃ d', crt.foldlM (depsRow ord sizes) d = .ok d' ∧
        DepInv sizes (evs ++ crt.flatMap (rowEvs ord false)) d' := by
    intro crt
    induction crt with
    | nil => intro evs d h _; exact ⟨d, rfl, by simpa using h⟩
    | cons p t ih =>
      intro evs d h hr
      have hp := hr p (by simp)
      obtain ⟨d1, h1, hi1⟩ := addDeps_inv h _ (rowEvs_ok hord hp false)
      obtain ⟨d2, h2, hi2⟩ := ih _ _ hi1 fun x hx => hr x (by simp [hx])
      refine ⟨d2, ?_, by simpa using hi2⟩
      obtain ⟨df, refs, hrow, _⟩ := hp
      rw [List.foldlM_cons, depsRow, hrow]
      simp only
      rw [rowEvs, hrow] at h1
      simp only [List.foldlM_map] at h1
      simp only [Bool.false_eq_true, if_false] at h1
      rw [h1]
      exact h2
  obtain ⟨d, h, hi⟩ := this crt [] [] (DepInv.nil sizes) hrows
  exact ⟨d, h, by simpa using hi⟩

/-- Creating the entry beforehand makes no difference when a symbol follows. -/
theorem ensureArch_addDep {sizes : Dict Str Entry} {d : Deps} {O I s : Str} {d1 : Deps} {a : DepArch}
    (h : ensureArch sizes d O = .ok (d1, a)) : addDep sizes s d1 O I = addDep sizes s d O I := by
  have h2 : ensureArch sizes d1 O = .ok (d1, a) := by
    unfold ensureArch at h
    cases hd : dget d O with
    | some b =>
      rw [hd] at h; cases h
      unfold ensureArch; rw [hd]
    | none =>
      rw [hd] at h
      cases hz : archSize sizes O with
      | error x => rw [hz] at h; cases h
      | ok z =>
        rw [hz] at h
        simp only [bind, Except.bind, Except.ok.injEq, Prod.mk.injEq] at h
        obtain ⟨rfl, rfl⟩ := h
        unfold ensureArch
        rw [dget_dset_self]
  unfold addDep
  rw [h, h2]

theorem getArchivesRevdeps_inv {ord : List Str → List Str} (hord : SetOrder ord) (sizes : Dict Str Entry) (crt : Crt)
    (hrows : ∀ p ∈ crt, RowOk sizes p) :
    ∃ d, getArchivesRevdeps ord sizes crt = .ok d ∧ DepInv sizes (crt.flatMap (rowEvs ord true)) d := by
  have : ∀ (crt : Crt) evs d, DepInv sizes evs d → (∀ p ∈ crt, RowOk sizes p) →
      ∃ d', crt.foldlM (revdepsRow ord sizes) d = .ok d' ∧
        DepInv sizes (evs ++ crt.flatMap (rowEvs ord true)) d' := by
    intro crt
    induction crt with
    | nil => intro evs d h _; exact ⟨d, rfl, by simpa using h⟩
    | cons p t ih =>
      intro evs d h hr
      have hp := hr p (by simp)
      obtain ⟨d1, h1, hi1⟩ := addDeps_inv h _ (rowEvs_ok hord hp true)
      obtain ⟨d2, h2, hi2⟩ := ih _ _ hi1 fun x hx => hr x (by simp [hx])
      refine ⟨d2, ?_, by simpa using hi2⟩
      obtain ⟨df, refs, hrow, hne, hdf, _⟩ := hp
      rw [List.foldlM_cons, revdepsRow, hrow]
      simp only
      rw [rowEvs, hrow] at h1
      simp only [List.foldlM_map] at h1
      simp only [if_true] at h1
      obtain ⟨d0, a, he, _⟩ := ensureArch_inv h hdf
      rw [he]
      have hord' : ord (refs.map (·.1)) ≠ [] := by
        intro hnil
        cases refs with
        | nil => exact hne rfl
        | cons r rs =>
          have := ((hord ((r :: rs).map (·.1))).2 r.1).mpr (by simp)
          rw [hnil] at this; cases this
      have hsame : (ord (refs.map (·.1))).foldlM (fun d r => addDep sizes p.1 d df.1 r) d0 =
          (ord (refs.map (·.1))).foldlM (fun d r => addDep sizes p.1 d df.1 r) d := by
        cases hl : ord (refs.map (·.1)) with
        | nil => exact absurd hl hord'
        | cons r rs => rw [List.foldlM_cons, List.foldlM_cons, ensureArch_addDep he]
      simp only [bind, Except.bind] at *
      rw [hsame, h1]
      exact h2
  obtain ⟨d, h, hi⟩ := this crt [] [] (DepInv.nil sizes) hrows
  exact ⟨d, h, by simpa using hi⟩

/-! ## The filter -/

/-- What the filter makes of a row. -/
def keepRow (archives : Dict Str Entry) (p : Str × List (Str × Str)) : Option (Str × List (Str × Str)) :=
  match p.2 with
  | [] => none
  | df :: refs =>
    if dhas archives df.1 = true then
      let refs := refs.filter fun r => dhas archives r.1 && r.1 ≠ df.1
      if refs = [] then none else some (p.1, df :: refs)
    else none

theorem keepRow_fst {archives : Dict Str Entry} {p q : Str × List (Str × Str)} (h : keepRow archives p = some q) :
    q.1 = p.1 := by
  unfold keepRow at h
  split at h
  · cases h
  · split at h
    · simp only at h
      split at h <;> cases h
      rfl
    · cases h

theorem filterRows_eq (archives : Dict Str Entry) (crt : Crt) (hn : KeysNodup crt) (hne : ∀ p ∈ crt, p.2 ≠ []) :
    filterRows archives crt = .ok (crt.filterMap (keepRow archives)) := by
  have : ∀ (crt : Crt) (acc : Crt), KeysNodup crt → (∀ p ∈ crt, p.2 ≠ []) → (∀ p ∈ crt, p.1 ∉ dkeys acc) →
      crt.foldlM (filterRow archives) acc = (.ok (acc ++ crt.filterMap (keepRow archives)) : Except Err Crt) := by
    intro crt
    induction crt with
    | nil => intro acc _ _ _; simp [pure, Except.pure]
    | cons p t ih =>
      intro acc hn hne hacc
      obtain ⟨hnt, hn⟩ := KeysNodup.cons_iff.mp hn
      cases hp : p.2 with
      | nil => exact absurd hp (hne p (by simp))
      | cons df refs =>
        rw [List.foldlM_cons, filterRow, hp, List.filterMap_cons]
        have ihacc : t.foldlM (filterRow archives) acc =
            (.ok (acc ++ t.filterMap (keepRow archives)) : Except Err Crt) :=
          ih acc hn (fun x hx => hne x (by simp [hx])) (fun x hx => hacc x (by simp [hx]))
        by_cases hdf : dhas archives df.1 = true
        · by_cases hr : refs.filter (fun r => dhas archives r.1 && r.1 ≠ df.1) = []
          · have hk : keepRow archives p = none := by simp only [keepRow, hp, hdf, if_true]; rw [if_pos hr]
            have hf : filterRefs archives (df :: refs) = .ok none := by
              simp only [filterRefs, hdf, hr]; rfl
            rw [hf, hk]
            exact ihacc
          · have hk : keepRow archives p =
                some (p.1, df :: refs.filter (fun r => dhas archives r.1 && r.1 ≠ df.1)) := by
              simp only [keepRow, hp, hdf, if_true]; rw [if_neg hr]
            have hf : filterRefs archives (df :: refs) =
                .ok (some (df :: refs.filter (fun r => dhas archives r.1 && r.1 ≠ df.1))) := by
              have : (refs.filter (fun r => dhas archives r.1 && r.1 ≠ df.1)).length + 1 > 1 := by
                have := List.length_pos_iff.mpr hr
                omega
              simp only [filterRefs, hdf, Bool.not_true, Bool.false_eq_true, if_false]
              rw [if_pos this]
            rw [hf, hk]
            simp only [bind, Except.bind]
            rw [dset_of_not_mem (hacc p (by simp))]
            have := ih (acc ++ [(p.1, df :: refs.filter (fun r => dhas archives r.1 && r.1 ≠ df.1))]) hn
              (fun x hx => hne x (by simp [hx])) (by
                intro x hx
                simp only [dkeys_append, dkeys_cons, dkeys_nil, List.mem_append, List.mem_singleton]
                rintro (h | h)
                · exact hacc x (by simp [hx]) h
                · exact hnt (h ▸ List.mem_map_of_mem hx))
            rw [this]
            simp
        · have hdf' : dhas archives df.1 = false := by simpa using hdf
          have hk : keepRow archives p = none := by simp [keepRow, hp, hdf']
          have hf : filterRefs archives (df :: refs) = .ok none := by
            simp only [filterRefs, hdf']; rfl
          rw [hf, hk]
          exact ihacc
  have := this crt [] hn hne (by simp)
  simpa [filterRows] using this

theorem keepRow_ok {archives : Dict Str Entry} {p q : Str × List (Str × Str)} (h : keepRow archives p = some q) :
    RowOk archives q := by
  unfold keepRow at h
  split at h
  · cases h
  · split at h
    · rename_i hdf
      simp only at h
      split at h
      · cases h
      · rename_i hr
        cases h
        refine ⟨_, _, rfl, hr, hdf, fun r hr => ?_⟩
        have := (List.mem_filter.mp hr).2
        simp only [Bool.and_eq_true] at this
        exact this.1
    · cases h

/-- The symbols contributed by a row for a pair of archives, whatever the order of the set iteration. -/
theorem rowEvs_filter {ord : List Str → List Str} (hord : SetOrder ord) (rev : Bool) (O I : Str)
    (p : Str × List (Str × Str)) :
    ((rowEvs ord rev p).filter (DepEv.on O I)).map DepEv.sym =
      (match p.2 with
       | [] => []
       | df :: refs => if df.1 = (if rev then O else I) ∧ (if rev then I else O) ∈ refs.map (·.1) then [p.1] else []) := by
  unfold rowEvs
  cases p.2 with
  | nil => rfl
  | cons df refs =>
    simp only
    obtain ⟨hn, hm⟩ := hord (refs.map (·.1))
    have hm' := hm (if rev then I else O)
    simp only [← hm']
    clear hm'
    generalize ord (refs.map (·.1)) = l at hn
    clear hm
    induction l with
    | nil => simp
    | cons r rs ih =>
      have hn' := List.nodup_cons.mp hn
      have ih := ih hn'.2
      cases rev
      · simp only [List.map_cons, Bool.false_eq_true, if_false, List.filter_cons] at ih ⊢
        by_cases hr : r = O
        · subst hr
          by_cases hd : df.1 = I
          · simp only [DepEv.on, hd, decide_true, Bool.and_self, if_true, List.map_cons, true_and,
              List.mem_cons, true_or]
            rw [if_neg (by simp only [hd, true_and]; exact hn'.1)] at ih
            simp only [hd] at ih
            rw [ih]
          · simp only [DepEv.on, hd, decide_false, Bool.and_false, Bool.false_eq_true, if_false, false_and] at ih ⊢
            exact ih
        · simp only [DepEv.on, hr, decide_false, Bool.false_and, Bool.false_eq_true, if_false] at ih ⊢
          rw [ih]
          simp only [List.mem_cons, Ne.symm hr, false_or]
      · simp only [List.map_cons, if_true, List.filter_cons] at ih ⊢
        by_cases hr : r = I
        · subst hr
          by_cases hd : df.1 = O
          · simp only [DepEv.on, hd, decide_true, Bool.and_self, if_true, List.map_cons, true_and,
              List.mem_cons, true_or]
            rw [if_neg (by simp only [hd, true_and]; exact hn'.1)] at ih
            simp only [hd] at ih
            rw [ih]
          · simp only [DepEv.on, hd, decide_false, Bool.false_and, Bool.false_eq_true, if_false, false_and] at ih ⊢
            exact ih
        · simp only [DepEv.on, hr, decide_false, Bool.and_false, Bool.false_eq_true, if_false] at ih ⊢
          rw [ih]
          simp only [List.mem_cons, Ne.symm hr, false_or]

end EspSize
