import Verif.Spec.KeptDies
import Verif.Props.DwarfDies
namespace EspSize

theorem walkAttrs_stop {E : FormEnv} {d : Bytes} {l : List AbbrevAttr} {off : Nat} {acc : Dict Nat DAttr} {x : Err}
    (h : (walkAttrs E d l off acc).2 = .error x) :
    ∃ as a rest o2, l = as ++ a :: rest ∧ (∀ b ∈ as, b.attr ≠ 0) ∧ a.attr ≠ 0 ∧
      dieAttrs E d as off acc = .ok ((walkAttrs E d l off acc).1, o2) ∧ dattrAt E a d o2 = .error x := by
  induction l generalizing off acc with
  | nil => cases h
  | cons a t ih =>
    rw [walkAttrs.eq_def] at h ⊢
    simp only at h ⊢
    by_cases ha : a.attr = 0
    · rw [if_pos ha] at h; cases h
    · rw [if_neg ha] at h ⊢
      cases hx : dattrAt E a d off with
      | error y =>
        rw [hx] at h
        cases h
        exact ⟨[], a, t, off, rfl, by simp, ha, rfl, hx⟩
      | ok y =>
        rw [hx] at h
        obtain ⟨as, b, rest, o2, h1, h2, h3, h4, h5⟩ := ih h
        refine ⟨a :: as, b, rest, o2, by rw [h1]; rfl, ?_, h3, ?_, h5⟩
        · intro c hc
          rcases List.mem_cons.mp hc with hc | hc
          · exact hc ▸ ha
          · exact h2 c hc
        · unfold dieAttrs
          rw [if_neg ha, hx]
          exact h4

/-- What is claimed of an entry. -/
def WalkedDie (V : DieEnv) (off : Nat) (parent : Option Nat) (level : Nat) : Prop :=
  match getDie V off parent level with
  | .ok r => walkDie V off parent level = (r.dies.map finished, .ok (r.code, r.next))
  | .error x => ∃ ks, walkDie V off parent level = (ks, .error x) ∧ Stopped V off parent level ks x

/-- What is claimed of a chain of children. -/
def WalkedKids (V : DieEnv) (off parent level : Nat) : Prop :=
  match getKids V off parent level with
  | .ok r => walkKids V off parent level = (r.1.map finished, .ok r.2)
  | .error x => ∃ ds o ks, walkKids V off parent level = (ds.map finished ++ ks, .error x) ∧ Siblings V parent level off o ds ∧
      Stopped V o (some parent) level ks x

theorem map_ite_one {p : Prop} [Decidable p] (x : Die) : (if p then [x] else []).map finished = if p then [finished x] else [] := by
  split <;> rfl

theorem walked (V : DieEnv) (n : Nat) : ∀ off, V.d.length - off < n →
    (∀ parent level, WalkedDie V off parent level) ∧ (∀ parent level, WalkedKids V off parent level) := by
  induction n with
  | zero => intro off h; omega
  | succ n ih =>
    intro off hn
    have hdie : ∀ parent level, WalkedDie V off parent level := by
      intro parent level
      unfold WalkedDie
      rw [getDie.eq_def, walkDie.eq_def]
      cases hu : getUleb128 V.d off with
      | error x => exact ⟨[], by simp only, .code hu⟩
      | ok q =>
        obtain ⟨code, o1⟩ := q
        have hb := getUleb128_bound hu
        simp only at hb ⊢
        by_cases hc : code = 0
        · simp only [hc, if_true, map_ite_one]
          rfl
        · simp only [hc, if_false]
          unfold abbrevOf
          cases ht : V.tab with
          | error x => exact ⟨[], rfl, .table hu hc ht⟩
          | ok t =>
            simp only
            cases hg : t[code - 1]? with
            | none =>
              refine ⟨[], rfl, .missing hu hc ht ?_⟩
              have := List.getElem?_eq_none_iff.mp hg
              omega
            | some e =>
              simp only
              by_cases hec : e.code = code
              · have hec' : ¬ code ≠ e.code := fun h => h hec.symm
                have hab : abbrevOf V code = .ok e := by
                  unfold abbrevOf
                  rw [ht]
                  simp only [hg, hec, if_true]
                simp only [hec, if_true, ne_eq, not_true, if_false]
                have hw := walkAttrs_eq V.E V.d e.attrs o1 []
                cases hD : dieAttrs V.E V.d e.attrs o1 [] with
                | error x =>
                  cases h2 : (walkAttrs V.E V.d e.attrs o1 []).2 with
                  | ok o2 => rw [hD, h2] at hw; cases hw
                  | error y =>
                    rw [hD, h2] at hw
                    cases hw
                    obtain ⟨as, a, rest, o2, k1, k2, k3, k4, k5⟩ := walkAttrs_stop h2
                    simp only
                    exact ⟨_, rfl, .attr hu hc hab k1 k2 k3 k4 k5⟩
                | ok q =>
                  obtain ⟨attrs, o2⟩ := q
                  have hb2 := dieAttrs_bound hD
                  cases h2 : (walkAttrs V.E V.d e.attrs o1 []).2 with
                  | error y => rw [hD, h2] at hw; cases hw
                  | ok o =>
                    rw [hD, h2] at hw
                    have hw1 : attrs = (walkAttrs V.E V.d e.attrs o1 []).1 ∧ o2 = o := by
                      injection hw with hw
                      injection hw with hw hw'
                      exact ⟨hw, hw'⟩
                    obtain ⟨hw1, rfl⟩ := hw1
                    simp only at hb2 ⊢
                    rw [← hw1]
                    by_cases hch : e.children = 0
                    · simp only [hch, if_true, map_ite_one]
                      rfl
                    · simp only [hch, if_false]
                      have hk := (ih o2 (by omega)).2 off (level + 1)
                      unfold WalkedKids at hk
                      cases hgk : getKids V o2 off (level + 1) with
                      | error x =>
                        rw [hgk] at hk
                        obtain ⟨ds, o, ks, h1, h3, h4⟩ := hk
                        simp only
                        rw [h1]
                        exact ⟨_, rfl, .child hu hc hab hD hch h3 h4⟩
                      | ok q =>
                        rw [hgk] at hk
                        simp only at hk ⊢
                        rw [hk]
                        simp only [List.map_append, map_ite_one]
                        rfl
              · have hec' : code ≠ e.code := fun h => hec h.symm
                simp only [hec, hec', if_true, ne_eq, not_false_eq_true, if_false]
                exact ⟨_, rfl, .other hu hc ht hg hec⟩
    refine ⟨hdie, ?_⟩
    intro parent level
    have hd := hdie (some parent) level
    unfold WalkedDie at hd
    unfold WalkedKids
    rw [getKids.eq_def, walkKids.eq_def]
    cases hg : getDie V off (some parent) level with
    | error x =>
      rw [hg] at hd
      obtain ⟨ks, h1, h2⟩ := hd
      simp only [h1]
      exact ⟨[], off, ks, rfl, .nil, h2⟩
    | ok r =>
      rw [hg] at hd
      simp only at hd
      simp only [hd]
      by_cases hc : r.code = 0
      · simp only [hc, if_true]
      · have hadv := C66_dead_branch V off level _ r hg
        simp only [hc, if_false, hadv, and_self, dite_true]
        have hk := (ih r.next (by omega)).2 parent level
        unfold WalkedKids at hk
        cases hgk : getKids V r.next parent level with
        | error x =>
          rw [hgk] at hk
          obtain ⟨ds, o, ks, h1, h2, h3⟩ := hk
          simp only
          rw [h1]
          exact ⟨r.dies ++ ds, o, ks, by simp, .cons hg hc h2, h3⟩
        | ok q =>
          rw [hgk] at hk
          simp only at hk ⊢
          rw [hk]
          simp

/-! ## Entries read to their end -/

/-- The entries between two offsets, in increasing order. -/
def UpIn (off next : Nat) (l : List Nat) : Prop := (∀ x ∈ l, off ≤ x ∧ x < next) ∧ l.Pairwise (· < ·)

theorem UpIn.nil (off next : Nat) : UpIn off next [] := ⟨by simp, List.Pairwise.nil⟩

theorem UpIn.append {a b c : Nat} {l m : List Nat} (h1 : UpIn a b l) (h2 : UpIn b c m) (hab : a ≤ b) (hbc : b ≤ c) : UpIn a c (l ++ m) := by
  refine ⟨?_, List.pairwise_append.mpr ⟨h1.2, h2.2, ?_⟩⟩
  · intro x hx
    rcases List.mem_append.mp hx with hx | hx
    · have := h1.1 x hx; omega
    · have := h2.1 x hx; omega
  · intro x hx y hy
    have := h1.1 x hx
    have := h2.1 y hy
    omega

theorem UpIn.cons {a b c : Nat} {m : List Nat} (h2 : UpIn b c m) (hab : a < b) (hbc : b ≤ c) : UpIn a c (a :: m) :=
  UpIn.append (l := [a]) ⟨by simp; omega, List.pairwise_singleton _ _⟩ h2 (by omega) hbc

theorem UpIn.ite {p : Bool} {a c : Nat} {x : Die} {m : List Die} (h : UpIn a c (x.offset :: m.map (·.offset))) :
    UpIn a c (((if p then [x] else []) ++ m).map (·.offset)) := by
  cases p with
  | true => exact h
  | false => exact ⟨fun y hy => h.1 y (List.mem_cons_of_mem _ hy), h.2.tail⟩

/-- What is claimed of an entry that was read: its entries are in order, and each is what reading at its place gives. -/
def ReadWell (V : DieEnv) (off next : Nat) (ds : List Die) : Prop :=
  UpIn off next (ds.map (·.offset)) ∧
    ∀ x ∈ ds, ∃ r rest, getDie V x.offset x.parent x.level = .ok r ∧ r.dies = x :: rest ∧ r.next = x.offset + x.size

theorem ReadWell.append {V : DieEnv} {a b c : Nat} {l m : List Die} (h1 : ReadWell V a b l) (h2 : ReadWell V b c m) (hab : a ≤ b) (hbc : b ≤ c) :
    ReadWell V a c (l ++ m) := by
  refine ⟨by rw [List.map_append]; exact h1.1.append h2.1 hab hbc, ?_⟩
  intro x hx
  rcases List.mem_append.mp hx with hx | hx
  · exact h1.2 x hx
  · exact h2.2 x hx

theorem getDie_well (V : DieEnv) (n : Nat) : ∀ off, V.d.length - off < n →
    (∀ parent level r, getDie V off parent level = .ok r → ReadWell V off r.next r.dies) ∧
    (∀ parent level r, getKids V off parent level = .ok r → ReadWell V off r.2 r.1) := by
  induction n with
  | zero => intro off h; omega
  | succ n ih =>
    intro off hn
    have hdie : ∀ parent level r, getDie V off parent level = .ok r → ReadWell V off r.next r.dies := by
      intro parent level r h
      have hadv := C66_dead_branch V off level parent r h
      have h' := h
      rw [getDie.eq_def] at h
      split at h
      · cases h
      · rename_i c o1 hu
        have hb := getUleb128_bound hu
        simp only at hb
        have one : ∀ (x : Die) (m : List Die) (p : Bool), r.dies = (if p then [x] else []) ++ m → x.offset = off → x.parent = parent →
            x.level = level → x.offset + x.size = r.next → (∃ o, o ≤ r.next ∧ off < o ∧ ReadWell V o r.next m) → ReadWell V off r.next r.dies := by
          intro x m p e5 e1 e2 e3 e4 ⟨o, ho, ho', hm⟩
          rw [e5]
          refine ⟨UpIn.ite (by rw [e1]; exact hm.1.cons ho' ho), ?_⟩
          intro y hy
          rcases List.mem_append.mp hy with hy | hy
          · cases p with
            | false => cases hy
            | true =>
              simp only [if_true, List.mem_singleton] at hy
              rw [hy, e1, e2, e3]
              exact ⟨r, m, h', e5, by rw [← e4, e1]⟩
          · exact hm.2 y hy
        split at h
        · rename_i hc
          injection h with h
          have hz := congrArg DieRes.dies h
          have hnx : _ = r.next := congrArg DieRes.next h
          simp only at hnx
          exact one _ [] _ (hz.symm.trans (List.append_nil _).symm) rfl rfl rfl (by simp only; omega)
            ⟨r.next, Nat.le_refl _, hadv.1, UpIn.nil _ _, by simp⟩
        · split at h
          · cases h
          · split at h
            · cases h
            · rename_i a o2 ha
              have hb2 := dieAttrs_bound ha
              simp only at hb2
              split at h
              · injection h with h
                have hz := congrArg DieRes.dies h
                have hnx : _ = r.next := congrArg DieRes.next h
                simp only at hnx
                exact one _ [] _ (hz.symm.trans (List.append_nil _).symm) rfl rfl rfl (by simp only; omega)
                  ⟨r.next, Nat.le_refl _, hadv.1, UpIn.nil _ _, by simp⟩
              · split at h
                · cases h
                · rename_i ds o3 hkids
                  have hk := (ih o2 (by omega)).2 _ _ _ hkids
                  have hle := (getDie_advances V _ o2 (Nat.le_refl _)).2 _ _ _ hkids
                  injection h with h
                  have hnx : r.next = o3 := by rw [← h]
                  refine one _ ds _ (congrArg DieRes.dies h).symm rfl rfl rfl (by simp only at hle ⊢; omega) ⟨o2, ?_, ?_, ?_⟩
                  · rw [hnx]; exact hle
                  · omega
                  · rw [hnx]; exact hk
    refine ⟨hdie, ?_⟩
    intro parent level r h
    rw [getKids.eq_def] at h
    split at h
    · cases h
    · rename_i q hq
      have hw := hdie _ _ _ hq
      have hadv := C66_dead_branch V off level _ q hq
      split at h
      · cases h; exact hw
      · split at h
        · cases h
        · rename_i ds o hkids
          have hk := (ih q.next (by omega)).2 _ _ _ hkids
          have hle := (getDie_advances V _ q.next (Nat.le_refl _)).2 _ _ _ hkids
          cases h
          exact hw.append hk (by omega) hle

theorem read_well {V : DieEnv} {off level : Nat} {parent : Option Nat} {r : DieRes} (h : getDie V off parent level = .ok r) : ReadWell V off r.next r.dies :=
  (getDie_well V _ off (Nat.lt_succ_self _)).1 _ _ _ h

theorem Siblings.well {V : DieEnv} {parent level off o : Nat} {ds : List Die} (h : Siblings V parent level off o ds) : off ≤ o ∧ ReadWell V off o ds := by
  induction h with
  | nil => exact ⟨Nat.le_refl _, UpIn.nil _ _, by simp⟩
  | cons h1 _ _ ih =>
    have := C66_dead_branch _ _ _ _ _ h1
    exact ⟨by omega, (read_well h1).append ih.2 (by omega) ih.1⟩

/-! ## Entries left behind -/

theorem mem_opened {f : Option (List Nat)} {x y : KeptDie} (h : y ∈ opened f x) : y = x ∧ wanted f x.tag = true := by
  unfold opened at h
  split at h
  · rename_i hw; exact ⟨List.mem_singleton.mp h, hw⟩
  · cases h

theorem wanted_of_getDie (V : DieEnv) (n : Nat) : ∀ off, V.d.length - off < n →
    (∀ parent level r, getDie V off parent level = .ok r → ∀ x ∈ r.dies, wanted V.filter x.tag = true) ∧
    (∀ parent level r, getKids V off parent level = .ok r → ∀ x ∈ r.1, wanted V.filter x.tag = true) := by
  induction n with
  | zero => intro off h; omega
  | succ n ih =>
    intro off hn
    have one : ∀ (tag : Nat) (x : Die), x.tag = tag → ∀ y ∈ (if wanted V.filter tag then [x] else []), wanted V.filter y.tag = true := by
      intro tag x hx y hy
      split at hy
      · rename_i hw; rw [List.mem_singleton.mp hy, hx]; exact hw
      · cases hy
    have hdie : ∀ parent level r, getDie V off parent level = .ok r → ∀ x ∈ r.dies, wanted V.filter x.tag = true := by
      intro parent level r h
      rw [getDie.eq_def] at h
      split at h
      · cases h
      · rename_i c o1 hu
        have hb := getUleb128_bound hu
        simp only at hb
        split at h
        · cases h; exact one _ _ rfl
        · split at h
          · cases h
          · split at h
            · cases h
            · rename_i a o2 ha
              have hb2 := dieAttrs_bound ha
              simp only at hb2
              split at h
              · cases h; exact one _ _ rfl
              · split at h
                · cases h
                · rename_i ds o3 hkids
                  have hk := (ih o2 (by omega)).2 _ _ _ hkids
                  cases h
                  intro x hx
                  rcases List.mem_append.mp hx with hx | hx
                  · refine one _ _ ?_ x hx; rfl
                  · exact hk x hx
    refine ⟨hdie, ?_⟩
    intro parent level r h
    rw [getKids.eq_def] at h
    split at h
    · cases h
    · rename_i q hq
      have hw := hdie _ _ _ hq
      have hadv := C66_dead_branch V off level _ q hq
      split at h
      · cases h; exact hw
      · split at h
        · cases h
        · rename_i ds o hkids
          have hk := (ih q.next (by omega)).2 _ _ _ hkids
          cases h
          intro x hx
          rcases List.mem_append.mp hx with hx | hx
          · exact hw x hx
          · exact hk x hx

theorem Siblings.wanted {V : DieEnv} {parent level off o : Nat} {ds : List Die} (h : Siblings V parent level off o ds) :
    ∀ x ∈ ds, EspSize.wanted V.filter x.tag = true := by
  induction h with
  | nil => intro x hx; cases hx
  | cons h1 _ _ ih =>
    intro x hx
    rcases List.mem_append.mp hx with hx | hx
    · exact (wanted_of_getDie _ _ _ (Nat.lt_succ_self _)).1 _ _ _ h1 x hx
    · exact ih x hx

/-- Offsets of what is left: increasing, from the offset of the entry on. -/
theorem Stopped.ascending {V : DieEnv} {off level : Nat} {parent : Option Nat} {ks : List KeptDie} {x : Err} (h : Stopped V off parent level ks x) :
    (∀ k ∈ ks, off ≤ k.offset) ∧ (ks.map (·.offset)).Pairwise (· < ·) := by
  have one : ∀ off f (y : KeptDie), y.offset = off → (∀ k ∈ opened f y, off ≤ k.offset) ∧ ((opened f y).map (·.offset)).Pairwise (· < ·) := by
    intro off f y hy
    unfold opened
    split
    · exact ⟨by simp [hy], List.pairwise_singleton _ _⟩
    · exact ⟨by simp, List.Pairwise.nil⟩
  induction h with
  | code => exact ⟨by simp, List.Pairwise.nil⟩
  | table => exact ⟨by simp, List.Pairwise.nil⟩
  | missing => exact ⟨by simp, List.Pairwise.nil⟩
  | other => exact one _ _ _ rfl
  | attr => exact one _ _ _ rfl
  | @child off level code o1 o2 o3 parent e attrs ds ks x hu _ _ ha _ hs _ ih =>
    obtain ⟨i1, i2⟩ := ih
    have hb := getUleb128_bound hu
    have hb2 := dieAttrs_bound ha
    obtain ⟨hle, hw⟩ := hs.well
    simp only at hb hb2
    have hfin : ∀ ds : List Die, (ds.map finished).map (·.offset) = ds.map (·.offset) := by intro ds; simp [finished, Function.comp_def]
    have hd : ∀ d ∈ ds.map finished, o2 ≤ d.offset ∧ d.offset < o3 := fun d hd => hw.1.1 d.offset (by rw [← hfin]; exact List.mem_map_of_mem hd)
    have h0 := one off V.filter ⟨off, parent, level, code, e.tag, none, attrs⟩ rfl
    refine ⟨?_, ?_⟩
    · intro k hk
      rcases List.mem_append.mp hk with hk | hk
      · exact h0.1 k hk
      · rcases List.mem_append.mp hk with hk | hk
        · have := hd k hk; omega
        · have := i1 k hk; omega
    · rw [List.map_append, List.map_append, hfin]
      refine List.pairwise_append.mpr ⟨h0.2, List.pairwise_append.mpr ⟨hw.1.2, i2, ?_⟩, ?_⟩
      · intro a ha b hb'
        have := hw.1.1 a ha
        obtain ⟨k, hk, rfl⟩ := List.mem_map.mp hb'
        have := i1 k hk
        omega
      · intro a ha b hb'
        obtain ⟨k, hk, rfl⟩ := List.mem_map.mp ha
        rw [(mem_opened hk).1]
        rcases List.mem_append.mp hb' with hb' | hb'
        · have := hw.1.1 b hb'; simp only; omega
        · obtain ⟨q, hq, rfl⟩ := List.mem_map.mp hb'
          have := i1 q hq
          simp only
          omega

end EspSize
