import Verif.Proofs.KeptDies
import Verif.Props.ElfObj
/-! # C109: the entries an exception leaves behind -/
namespace EspSize

/-! ## What is left -/

theorem walkDie_of (V : DieEnv) (off level : Nat) (parent : Option Nat) : WalkedDie V off parent level :=
  (walked V _ off (Nat.lt_succ_self _)).1 parent level

theorem walkDie_at {V : DieEnv} {off code o1 : Nat} (hu : getUleb128 V.d off = .ok (code, o1)) (hc : code ≠ 0) (parent : Option Nat) (level : Nat) :
    walkDie V off parent level =
      match V.tab with
      | .error x => ([], .error x)
      | .ok t =>
        match t[code - 1]? with
        | none => ([], .error .indexError)
        | some e =>
          if code ≠ e.code then (opened V.filter ⟨off, parent, level, code, e.tag, none, []⟩, .error .assertion)
          else match (walkAttrs V.E V.d e.attrs o1 []).2 with
            | .error x => (opened V.filter ⟨off, parent, level, code, e.tag, none, (walkAttrs V.E V.d e.attrs o1 []).1⟩, .error x)
            | .ok o2 =>
              if e.children = 0 then
                (opened V.filter ⟨off, parent, level, code, e.tag, some (o2 - off), (walkAttrs V.E V.d e.attrs o1 []).1⟩, .ok (code, o2))
              else match (walkKids V o2 off (level + 1)).2 with
                | .error x => (opened V.filter ⟨off, parent, level, code, e.tag, none, (walkAttrs V.E V.d e.attrs o1 []).1⟩ ++
                    (walkKids V o2 off (level + 1)).1, .error x)
                | .ok o3 => (opened V.filter ⟨off, parent, level, code, e.tag, some (o3 - off), (walkAttrs V.E V.d e.attrs o1 []).1⟩ ++
                    (walkKids V o2 off (level + 1)).1, .ok (code, o3)) := by
  rw [walkDie.eq_def]
  split
  · rename_i h; rw [hu] at h; cases h
  · rename_i c o h
    rw [hu] at h
    cases h
    rw [if_neg hc]
    cases V.tab with
    | error x => rfl
    | ok t =>
      simp only
      cases t[code - 1]? with
      | none => rfl
      | some e =>
        simp only
        by_cases he : code = e.code
        · have hn : ¬ code ≠ e.code := fun h => h he
          rw [if_neg hn, if_neg hn]
          cases (walkAttrs V.E V.d e.attrs o1 []).2 with
          | error x => rfl
          | ok o2 =>
            simp only
            by_cases hch : e.children = 0
            · rw [if_pos hch, if_pos hch]; rfl
            · rw [if_neg hch, if_neg hch]
              cases (walkKids V o2 off (level + 1)).2 <;> rfl
        · have hp : code ≠ e.code := he
          rw [if_pos hp, if_pos hp]; rfl

theorem abbrevOf_ok {V : DieEnv} {code : Nat} {e : AbbrevEntry} (h : abbrevOf V code = .ok e) :
    ∃ t, V.tab = .ok t ∧ t[code - 1]? = some e ∧ e.code = code := by
  unfold abbrevOf at h
  cases ht : V.tab with
  | error x => rw [ht] at h; cases h
  | ok t =>
    rw [ht] at h
    simp only at h
    cases hg : t[code - 1]? with
    | none => rw [hg] at h; cases h
    | some y =>
      rw [hg] at h
      simp only at h
      split at h
      · rename_i hy; cases h; exact ⟨t, rfl, hg, hy⟩
      · cases h

theorem walkAttrs_prefix {E : FormEnv} {d : Bytes} {as rest : List AbbrevAttr} {a : AbbrevAttr} {off o2 : Nat} {acc attrs : Dict Nat DAttr} {x : Err}
    (h1 : ∀ b ∈ as, b.attr ≠ 0) (h2 : a.attr ≠ 0) (h3 : dieAttrs E d as off acc = .ok (attrs, o2)) (h4 : dattrAt E a d o2 = .error x) :
    walkAttrs E d (as ++ a :: rest) off acc = (attrs, .error x) := by
  induction as generalizing off acc with
  | nil =>
    cases h3
    rw [List.nil_append, walkAttrs.eq_def]
    simp only [h2, if_false, h4]
  | cons b t ih =>
    rw [dieAttrs.eq_def] at h3
    simp only [h1 b (by simp), if_false] at h3
    obtain ⟨y, hy, h3⟩ := bind_ok h3
    rw [List.cons_append, walkAttrs.eq_def]
    simp only [h1 b (by simp), if_false, hy]
    exact ih (fun c hc => h1 c (List.mem_cons_of_mem _ hc)) h3

theorem walkAttrs_of {E : FormEnv} {d : Bytes} {l : List AbbrevAttr} {off o2 : Nat} {acc attrs : Dict Nat DAttr}
    (h : dieAttrs E d l off acc = .ok (attrs, o2)) : walkAttrs E d l off acc = (attrs, .ok o2) := by
  rw [walkAttrs_eq] at h
  cases hw : walkAttrs E d l off acc with
  | mk p q =>
    rw [hw] at h
    cases q with
    | error x => cases h
    | ok o => cases h; rfl

theorem siblings_kids {V : DieEnv} {parent level off o : Nat} {ds : List Die} (h : Siblings V parent level off o ds) {ks : List KeptDie} {x : Err}
    (hs : walkDie V o (some parent) level = (ks, .error x)) : walkKids V off parent level = (ds.map finished ++ ks, .error x) := by
  induction h with
  | nil => rw [walkKids.eq_def]; simp only [hs]; rfl
  | @cons off o r ds h1 h2 _ ih =>
    have hw := walkDie_of V off level (some parent)
    unfold WalkedDie at hw
    rw [h1] at hw
    simp only at hw
    rw [walkKids.eq_def]
    simp only [hw, h2, if_false, C66_dead_branch _ _ _ _ _ h1, and_self, dite_true, ih hs]
    simp

/-- **C109** `get_DIE` raises and leaves entries behind exactly as said by `Stopped`. -/
theorem C109_left (V : DieEnv) (off level : Nat) (parent : Option Nat) (ks : List KeptDie) (x : Err) :
    walkDie V off parent level = (ks, .error x) ↔ Stopped V off parent level ks x := by
  constructor
  · intro h
    have hw := walkDie_of V off level parent
    unfold WalkedDie at hw
    cases hg : getDie V off parent level with
    | ok r => rw [hg] at hw; simp only at hw; rw [hw] at h; cases h
    | error y =>
      rw [hg] at hw
      obtain ⟨ks', h1, h2⟩ := hw
      rw [h1] at h
      cases h
      exact h2
  · intro h
    induction h with
    | code hu =>
      rw [walkDie.eq_def]
      split
      · rename_i h; rw [hu] at h; cases h; rfl
      · rename_i h; rw [hu] at h; cases h
    | table hu hc ht => rw [walkDie_at hu hc, ht]
    | missing hu hc ht hg =>
      rw [walkDie_at hu hc, ht]
      simp only
      rw [List.getElem?_eq_none (by omega)]
    | other hu hc ht hg he =>
      rw [walkDie_at hu hc, ht]
      simp only [hg]
      rw [if_pos (fun h => he h.symm)]
    | attr hu hc hab he h1 h2 h3 h4 =>
      obtain ⟨t, k1, k2, k3⟩ := abbrevOf_ok hab
      rw [walkDie_at hu hc, k1]
      simp only [k2, k3, ne_eq, not_true, if_false, he, walkAttrs_prefix h1 h2 h3 h4]
    | child hu hc hab ha hch hs _ ih =>
      obtain ⟨t, k1, k2, k3⟩ := abbrevOf_ok hab
      rw [walkDie_at hu hc, k1]
      simp only [k2, k3, ne_eq, not_true, if_false, walkAttrs_of ha, hch, siblings_kids hs ih]

theorem Stopped.raises {V : DieEnv} {off level : Nat} {parent : Option Nat} {ks : List KeptDie} {x : Err} (h : Stopped V off parent level ks x) :
    getDie V off parent level = .error x := by
  have h1 := (C109_left _ _ _ _ _ _).mpr h
  have hw := walkDie_of V off level parent
  unfold WalkedDie at hw
  cases hg : getDie V off parent level with
  | ok r => rw [hg] at hw; simp only at hw; rw [hw] at h1; cases h1
  | error y =>
    rw [hg] at hw
    obtain ⟨ks', h2, _⟩ := hw
    rw [h2] at h1
    cases h1
    rfl

theorem getDie_leaf {V : DieEnv} {off code o1 o2 level : Nat} {parent : Option Nat} {e : AbbrevEntry} {attrs : Dict Nat DAttr}
    (hu : getUleb128 V.d off = .ok (code, o1)) (hc : code ≠ 0) (hab : abbrevOf V code = .ok e) (ha : dieAttrs V.E V.d e.attrs o1 [] = .ok (attrs, o2))
    (hch : e.children = 0) : getDie V off parent level =
      .ok ⟨code, o2, if wanted V.filter e.tag then [⟨off, parent, level, code, e.tag, o2 - off, attrs⟩] else []⟩ := by
  rw [getDie.eq_def]
  split
  · rename_i h; rw [hu] at h; cases h
  · rename_i h
    rw [hu] at h
    cases h
    rw [if_neg hc, hab]
    simp only
    split
    · rename_i h; rw [ha] at h; cases h
    · rename_i h
      rw [ha] at h
      cases h
      rw [if_pos hch]

/-- **C109** Without an exception the dictionary holds the entries that are returned, each with its size. -/
theorem C109_all {V : DieEnv} {cu : CU} {ds : Dict Nat Die} (h : getDIEs V cu = .ok ds) :
    walkDIEs V cu = (ds.map fun p => (p.1, finished p.2), .ok ()) := by
  unfold getDIEs at h
  obtain ⟨r, hr, h⟩ := bind_ok h
  cases h
  have hw := walkDie_of V cu.dieOff 0 none
  unfold WalkedDie at hw
  rw [hr] at hw
  simp only at hw
  unfold walkDIEs
  rw [hw]
  have hf : ∀ (l : List Die) (acc : Dict Nat Die), (l.map finished).foldl (fun acc x => dset acc x.offset x) (acc.map fun p => (p.1, finished p.2)) =
      (l.foldl (fun acc x => dset acc x.offset x) acc).map fun p => (p.1, finished p.2) := by
    intro l
    induction l with
    | nil => intro acc; rfl
    | cons x t ih =>
      intro acc
      rw [List.map_cons, List.foldl_cons, List.foldl_cons, ← ih]
      congr 1
      show dset (acc.map fun p => (p.1, finished p.2)) x.offset (finished x) = _
      induction acc with
      | nil => rfl
      | cons p s ihs =>
        obtain ⟨k, v⟩ := p
        by_cases hk : k = x.offset
        · simp [dset, hk]
        · simp only [List.map_cons, dset, hk, if_false, ihs]
  exact congrArg (fun l => (l, Except.ok ())) (hf r.dies [])

theorem foldl_kept (ks : List KeptDie) (acc : Dict Nat KeptDie) (h1 : (ks.map (·.offset)).Pairwise (· < ·)) (h2 : ∀ p ∈ acc, ∀ k ∈ ks, p.1 < k.offset) :
    ks.foldl (fun acc x => dset acc x.offset x) acc = acc ++ ks.map fun k => (k.offset, k) := by
  induction ks generalizing acc with
  | nil => simp
  | cons k t ih =>
    rw [List.map_cons, List.pairwise_cons] at h1
    rw [List.foldl_cons, dset_new _ _ _ (fun p hp => Nat.ne_of_lt (h2 p hp k (by simp))), ih _ h1.2, List.map_cons, List.append_assoc]
    · rfl
    · intro p hp q hq
      rcases List.mem_append.mp hp with hp | hp
      · exact h2 p hp q (List.mem_cons_of_mem _ hq)
      · rw [List.mem_singleton.mp hp]
        exact h1.1 _ (List.mem_map_of_mem hq)

/-- **C109** With an exception it holds what is left behind, each entry at its offset. -/
theorem C109_raised {V : DieEnv} {cu : CU} {x : Err} (h : getDIEs V cu = .error x) :
    ∃ ks, Stopped V cu.dieOff none 0 ks x ∧ walkDIEs V cu = (ks.map fun k => (k.offset, k), .error x) := by
  have hg : getDie V cu.dieOff none 0 = .error x := by
    unfold getDIEs at h
    cases hg : getDie V cu.dieOff none 0 with
    | ok r => rw [hg] at h; cases h
    | error y => rw [hg] at h; cases h; rfl
  have hw := walkDie_of V cu.dieOff 0 none
  unfold WalkedDie at hw
  rw [hg] at hw
  obtain ⟨ks, h1, h2⟩ := hw
  refine ⟨ks, h2, ?_⟩
  unfold walkDIEs
  rw [h1]
  have := foldl_kept ks [] h2.ascending.2 (by simp)
  simp only [this, List.nil_append]
  rfl

/-! ## Its entries -/

/-- **C109** Entries left behind have wanted tags and are at increasing offsets. -/
theorem C109_order {V : DieEnv} {off level : Nat} {parent : Option Nat} {ks : List KeptDie} {x : Err} (h : Stopped V off parent level ks x) :
    (∀ k ∈ ks, off ≤ k.offset ∧ wanted V.filter k.tag = true) ∧ (ks.map (·.offset)).Pairwise (· < ·) := by
  refine ⟨fun k hk => ⟨h.ascending.1 k hk, ?_⟩, h.ascending.2⟩
  induction h with
  | code => cases hk
  | table => cases hk
  | missing => cases hk
  | other => obtain ⟨rfl, h⟩ := mem_opened hk; exact h
  | attr => obtain ⟨rfl, h⟩ := mem_opened hk; exact h
  | child _ _ _ _ _ hs _ ih =>
    rcases List.mem_append.mp hk with hk | hk
    · obtain ⟨rfl, h⟩ := mem_opened hk; exact h
    · rcases List.mem_append.mp hk with hk | hk
      · obtain ⟨d, hd, rfl⟩ := List.mem_map.mp hk
        exact hs.wanted d hd
      · exact ih hk

/-- **C109** An entry with a size is complete: it is what reading at its offset gives. -/
theorem C109_finished {V : DieEnv} {off level : Nat} {parent : Option Nat} {ks : List KeptDie} {x : Err} (h : Stopped V off parent level ks x)
    {k : KeptDie} (hk : k ∈ ks) {n : Nat} (hn : k.size = some n) :
    ∃ r d rest, getDie V k.offset k.parent k.level = .ok r ∧ r.dies = d :: rest ∧ k = finished d ∧ r.next = k.offset + n := by
  induction h with
  | code => cases hk
  | table => cases hk
  | missing => cases hk
  | other => rw [(mem_opened hk).1] at hn; cases hn
  | attr => rw [(mem_opened hk).1] at hn; cases hn
  | child _ _ _ _ _ hs _ ih =>
    rcases List.mem_append.mp hk with hk | hk
    · rw [(mem_opened hk).1] at hn; cases hn
    · rcases List.mem_append.mp hk with hk | hk
      · obtain ⟨d, hd, rfl⟩ := List.mem_map.mp hk
        obtain ⟨r, rest, h1, h2, h3⟩ := hs.well.2.2 d hd
        cases hn
        exact ⟨r, d, rest, h1, h2, rfl, h3⟩
      · exact ih hk

/-- **C109** The entries without a size are those that were being read, each the parent of the next one, from the first entry on. -/
theorem C109_open {V : DieEnv} {off level : Nat} {parent : Option Nat} {ks : List KeptDie} {x : Err} (h : Stopped V off parent level ks x) :
    ∃ c, Nested c ∧ (∀ k ∈ c, k.size = none) ∧ (∀ k ∈ c.head?, k.offset = off ∧ k.parent = parent ∧ k.level = level) ∧
      ks.filter (·.size.isNone) = c.filter fun k => wanted V.filter k.tag := by
  have one : ∀ (k : KeptDie), k.size = none → (opened V.filter k).filter (·.size.isNone) = [k].filter fun k => wanted V.filter k.tag := by
    intro k hk
    unfold opened
    cases hw : wanted V.filter k.tag <;> simp [hw, hk]
  induction h with
  | code => exact ⟨[], trivial, by simp, by simp, rfl⟩
  | table => exact ⟨[], trivial, by simp, by simp, rfl⟩
  | missing => exact ⟨[], trivial, by simp, by simp, rfl⟩
  | other => exact ⟨[_], trivial, by simp, by simp, one _ rfl⟩
  | attr => exact ⟨[_], trivial, by simp, by simp, one _ rfl⟩
  | @child off level code o1 o2 o3 parent e attrs ds ks x _ _ _ _ _ _ _ ih =>
    obtain ⟨c, h1, h2, h3, h4⟩ := ih
    refine ⟨⟨off, parent, level, code, e.tag, none, attrs⟩ :: c, ?_, ?_, by simp, ?_⟩
    · cases c with
      | nil => trivial
      | cons y t => exact ⟨(h3 y (by simp)).2.1, (h3 y (by simp)).2.2, h1⟩
    · intro k hk
      rcases List.mem_cons.mp hk with hk | hk
      · rw [hk]
      · exact h2 k hk
    · have hd : (ds.map finished).filter (·.size.isNone) = [] := by
        rw [List.filter_eq_nil_iff]
        intro k hk
        obtain ⟨d, _, rfl⟩ := List.mem_map.mp hk
        simp [finished]
      rw [List.filter_append, List.filter_append, hd, h4, one _ rfl, List.nil_append]
      exact (List.filter_append (p := fun k : KeptDie => wanted V.filter k.tag) [_] c).symm

/-! ## The object -/

theorem stopped_no_table {V : DieEnv} {off level : Nat} {parent : Option Nat} {ks : List KeptDie} {x y : Err} (ht : V.tab = .error y)
    (h : Stopped V off parent level ks x) : ks = [] ∧ ∀ V' : DieEnv, V'.d = V.d → V'.tab = .ok [] → ∃ z, Stopped V' off parent level [] z := by
  cases h with
  | code hu => exact ⟨rfl, fun V' hd _ => ⟨_, .code (hd ▸ hu)⟩⟩
  | table hu hc => exact ⟨rfl, fun V' hd h' => ⟨_, .missing (hd ▸ hu) hc h' (by simp only [List.length_nil]; omega)⟩⟩
  | missing _ _ h => rw [ht] at h; cases h
  | other _ _ h => rw [ht] at h; cases h
  | attr _ _ h => obtain ⟨_, h, _⟩ := abbrevOf_ok h; rw [ht] at h; cases h
  | child _ _ h => obtain ⟨_, h, _⟩ := abbrevOf_ok h; rw [ht] at h; cases h

/-- The abbreviations reading the entries of a unit uses: those kept, those of the file, or none. -/
def tableUsed (e : ElfFile) (cu : CU) (o : ElfObj) : Except Err (List AbbrevEntry) :=
  if usesAbbrevs e.unitData cu then (accAbbrevs e cu o).1 else .ok []

/-- **C109** (violated) After an exception that left entries behind, every other `get_DIEs` of the unit gives these, whatever
the filter is, without an exception.  If nothing was left behind and the abbreviations could be read it raises again. -/
theorem C109_again_partial (e : ElfFile) (cu : CU) (f : Option (List Nat)) (o : ElfObj) {x : Err} (h0 : o.dies cu = [])
    (h : (accDIEs e (keptLeft e) cu f o).1 = .error x) :
    ∃ ks, Stopped ⟨formEnv e cu, e.unitData, tableUsed e cu o, f⟩ cu.dieOff none 0 ks x ∧
      (ks ≠ [] → ∀ f', (accDIEs e (keptLeft e) cu f' (accDIEs e (keptLeft e) cu f o).2).1 = .ok (ks.map fun k => (k.offset, k.die))) ∧
      (ks = [] → ∀ l, tableUsed e cu o = .ok l → (accDIEs e (keptLeft e) cu f (accDIEs e (keptLeft e) cu f o).2).1 = .error x) := by
  have hu : (if usesAbbrevs e.unitData cu then accAbbrevs e cu o else (.ok [], o)).1 = tableUsed e cu o := by
    unfold tableUsed; split <;> rfl
  have hagain : ∀ l, tableUsed e cu o = .ok l → ∀ o', o'.abbr = (if usesAbbrevs e.unitData cu then accAbbrevs e cu o else (.ok [], o)).2.abbr →
      (if usesAbbrevs e.unitData cu then accAbbrevs e cu o' else (.ok [], o')).1 = .ok l := by
    intro l hl o' ho
    unfold tableUsed at hl
    split at hl
    · rename_i hus
      rw [if_pos hus] at ho ⊢
      unfold accAbbrevs at hl ho ⊢
      rw [ho]
      cases hc : o.abbr cu with
      | some l' => rw [hc] at hl; cases hl; simp only [hc]
      | none =>
        rw [hc] at hl
        cases he : e.abbrevs cu with
        | error y => rw [he] at hl; cases hl
        | ok l' => rw [he] at hl; cases hl; simp
    · rename_i hus
      rw [if_neg hus]
      exact hl
  have hd : (if usesAbbrevs e.unitData cu then accAbbrevs e cu o else (.ok [], o)).2.dies cu = [] := by
    split
    · unfold accAbbrevs
      cases o.abbr cu with
      | some l' => exact h0
      | none => cases e.abbrevs cu <;> exact h0
    · exact h0
  have hacc : accDIEs e (keptLeft e) cu f o = (.error x,
      { (if usesAbbrevs e.unitData cu then accAbbrevs e cu o else (.ok [], o)).2 with dies := fun u => if u = cu then keptLeft e cu f ((tableUsed e cu o).toOption.getD []) else (if usesAbbrevs e.unitData cu then accAbbrevs e cu o else (.ok [], o)).2.dies u })
      ∧ getDIEs ⟨formEnv e cu, e.unitData, tableUsed e cu o, f⟩ cu = .error x := by
    unfold accDIEs at h ⊢
    rw [if_neg (fun hn => hn h0)] at h ⊢
    simp only [hu] at h ⊢
    cases hg : getDIEs ⟨formEnv e cu, e.unitData, tableUsed e cu o, f⟩ cu with
    | ok ds => rw [hg] at h; cases h
    | error y => rw [hg] at h; cases h; exact ⟨rfl, rfl⟩
  obtain ⟨ha, hg⟩ := hacc
  obtain ⟨ks, h1, h2⟩ := C109_raised hg
  have hkept : keptLeft e cu f ((tableUsed e cu o).toOption.getD []) = ks.map fun k => (k.offset, k.die) := by
    unfold keptLeft
    cases ht : tableUsed e cu o with
    | ok l =>
      rw [ht] at h2
      show (walkDIEs ⟨formEnv e cu, e.unitData, .ok l, f⟩ cu).1.map _ = _
      rw [h2]
      simp
    | error y =>
      obtain ⟨hks, h3⟩ := stopped_no_table ht h1
      obtain ⟨z, hz⟩ := h3 ⟨formEnv e cu, e.unitData, .ok [], f⟩ rfl rfl
      show (walkDIEs ⟨formEnv e cu, e.unitData, .ok [], f⟩ cu).1.map _ = _
      have := (C109_left _ _ _ _ _ _).mpr hz
      unfold walkDIEs
      rw [this, hks]
      rfl
  refine ⟨ks, h1, ?_, ?_⟩
  · intro hne f'
    rw [ha, hkept]
    unfold accDIEs
    rw [if_pos]
    · simp
    · simp [hne]
  · intro hks l hl
    obtain ⟨o', ho, k1, k2⟩ : ∃ o', (accDIEs e (keptLeft e) cu f o).2 = o' ∧ o'.dies cu = [] ∧
        o'.abbr = (if usesAbbrevs e.unitData cu then accAbbrevs e cu o else (.ok [], o)).2.abbr :=
      ⟨_, rfl, by rw [ha, hkept, hks]; simp, by rw [ha]⟩
    rw [ho]
    unfold accDIEs
    rw [if_neg (fun hn => hn k1)]
    simp only
    rw [hl] at hg
    rw [hagain l hl o' k2, hg]

/-! ## Witness -/

def exCutNames : Bytes := 0 :: ((str ".debug_info").map (fun c => UInt8.ofNat c.toNat) ++ 0 :: ((str ".debug_abbrev").map (fun c => UInt8.ofNat c.toNat) ++ [0]))

def exCutInfo : Bytes := List.replicate 11 0 ++ [1, 65, 0, 2, 5]

/-- A file whose unit ends in the location of the variable. -/
def exCutUnit : ElfFile :=
  ⟨exCutNames ++ exCutInfo ++ exAbbrevBytes, .little, .c32, { exEhdr with shstrndx := 0 },
    [⟨0, 3, 0, 0, 0, 27, 0, 0, 1, 0⟩, ⟨1, 1, 0, 0, 27, 16, 0, 0, 1, 0⟩, ⟨13, 1, 0, 0, 43, 18, 0, 0, 1, 0⟩]⟩

/-- The unit, which is being read, and the variable. -/
def exCutKept : List KeptDie :=
  [⟨11, none, 0, 1, 0x11, none, [(3, ⟨3, 8, 12, .bytes [65], 2⟩)]⟩,
   ⟨14, some 11, 1, 2, 0x34, some 7, [(2, ⟨2, 0x18, 15, .bytes [], 6⟩), (0x1C, ⟨0x1C, 0x21, 21, .num 5, 0⟩)]⟩]

theorem exCut_stopped : Stopped ⟨formEnv exCutUnit exCu, exCutUnit.unitData, tableUsed exCutUnit exCu {}, none⟩ 11 none 0 exCutKept .indexError := by
  have hi : exCutUnit.unitData = exCutInfo := unitData_ok (by decide +kernel)
  have ht : tableUsed exCutUnit exCu {} = .ok exAbbrevs := by
    have h1 : usesAbbrevs exCutInfo exCu = true := by decide +kernel
    have h2 : exCutUnit.abbrevs exCu = abbrevTable .little exAbbrevBytes 0 := by decide +kernel
    unfold tableUsed accAbbrevs
    rw [hi, if_pos h1, h2, show abbrevTable .little exAbbrevBytes 0 = .ok exAbbrevs from C66_abbrevs exAbbrevs_enc exAbbrevs_ok.2.2.1]
  rw [hi, ht]
  have hk : getDie ⟨formEnv exCutUnit exCu, exCutInfo, .ok exAbbrevs, none⟩ 14 (some 11) 1 =
      .ok ⟨2, 21, [⟨14, some 11, 1, 2, 0x34, 7, [(2, ⟨2, 0x18, 15, .bytes [], 6⟩), (0x1C, ⟨0x1C, 0x21, 21, .num 5, 0⟩)]⟩]⟩ := by
    have h1 : getUleb128 exCutInfo 14 = .ok (2, 15) := by decide +kernel
    have h2 : dieAttrs exUnitEnv exCutInfo exAbbrevs[1].attrs 15 [] =
      .ok ([(2, ⟨2, 0x18, 15, .bytes [], 6⟩), (0x1C, ⟨0x1C, 0x21, 21, .num 5, 0⟩)], 21) := by decide +kernel
    exact getDie_leaf (e := exAbbrevs[1]) h1 (by decide) (by decide +kernel) h2 rfl
  exact .child (o1 := 12) (o2 := 14) (o3 := 21) (e := exAbbrevs[0]) (by decide +kernel) (by decide) (by decide +kernel) (by decide +kernel) (by decide)
    (.cons hk (by decide) .nil) (.code (by decide +kernel))

/-- **C109** (violated) There is a file and a unit whose entries raise once, and are then given without what could not be read. -/
theorem C109_raises_once : ∃ e cu ds, (accDIEs e (keptLeft e) cu none {}).1 = .error .indexError ∧ ds.length = 2 ∧
    ∀ f, (accDIEs e (keptLeft e) cu f (accDIEs e (keptLeft e) cu none {}).2).1 = .ok ds := by
  have hs := exCut_stopped
  have hr : (accDIEs exCutUnit (keptLeft exCutUnit) exCu none {}).1 = .error .indexError := by
    have hg : getDIEs ⟨formEnv exCutUnit exCu, exCutUnit.unitData, tableUsed exCutUnit exCu {}, none⟩ exCu = .error .indexError := by
      unfold getDIEs
      rw [show getDie _ exCu.dieOff none 0 = _ from hs.raises]
      rfl
    unfold accDIEs
    rw [if_neg (by simp)]
    have hu : (if usesAbbrevs exCutUnit.unitData exCu then accAbbrevs exCutUnit exCu {} else (.ok [], {})).1 = tableUsed exCutUnit exCu {} := by
      unfold tableUsed; split <;> rfl
    simp only [hu]
    rw [hg]
  obtain ⟨ks, h1, h2, _⟩ := C109_again_partial exCutUnit exCu none {} rfl hr
  have := ((C109_left _ _ _ _ _ _).mpr h1).symm.trans ((C109_left _ _ _ _ _ _).mpr hs)
  cases this
  exact ⟨exCutUnit, exCu, _, hr, by decide, h2 (by decide)⟩

example : exCutKept.filter (·.size.isNone) = exCutKept.take 1 ∧ ∀ k ∈ exCutKept.drop 1, ∃ r d rest,
    getDie ⟨formEnv exCutUnit exCu, exCutUnit.unitData, tableUsed exCutUnit exCu {}, none⟩ k.offset k.parent k.level = .ok r ∧ r.dies = d :: rest ∧
      k = finished d ∧ r.next = k.offset + 7 :=
  ⟨by decide, fun k hk => C109_finished exCut_stopped (List.mem_of_mem_drop hk) (by
    have : k = exCutKept[1] := by simpa [exCutKept] using hk
    rw [this]; rfl)⟩

end EspSize
