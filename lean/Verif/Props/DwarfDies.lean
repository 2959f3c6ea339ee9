import Verif.Props.DwarfForms
import Verif.Props.DwarfUnits
import Verif.Props.Table
/-! # C66: the tree of debugging entries -/
namespace EspSize

/-! ### Abbreviations -/

theorem abbrevAttrAt_enc {x : AbbrevAttr} {bs d : Bytes} {off : Nat} (h : AbbrevAttrEnc x bs) (hat : At d off bs) :
    abbrevAttrAt d off = .ok (x, off + bs.length) := by
  unfold abbrevAttrAt
  cases h with
  | plain ha hf hne =>
    have h1 := hat.left.uleb ha
    have h2 := hat.right.uleb hf
    have : ¬ _ = formImplicitConst := hne
    simp only [bind, Except.bind, h1, h2, this, if_false, List.length_append, Nat.add_assoc]
  | const ha hf hv =>
    rename_i v ab fb vb
    obtain ⟨n, hu, hz⟩ := hv.uleb
    have h1 := hat.left.left.uleb ha
    have h2 := hat.left.right.uleb hf
    have h3 := hat.right.uleb hu
    have hn : n = v := by
      rcases hz with hz | hz
      · exact (Int.ofNat_inj.mp hz.2).symm
      · omega
    simp only [List.length_append, ← Nat.add_assoc] at h3
    simp only [bind, Except.bind, h1, h2, formImplicitConst, if_true, h3, List.length_append, hn, ← Nat.add_assoc]

theorem AbbrevAttrEnc.pos {x : AbbrevAttr} {bs : Bytes} (h : AbbrevAttrEnc x bs) : 0 < bs.length := by
  cases h with
  | plain ha => have := ha.length_pos; simp; omega
  | const ha => have := ha.length_pos; simp; omega

theorem abbrevAttrs_enc {l : List AbbrevAttr} {bs d : Bytes} {off : Nat} (h : AbbrevAttrsEnc l bs) (hat : At d off bs) :
    abbrevAttrs d off = .ok (l, off + bs.length) := by
  induction h generalizing off with
  | done ha =>
    unfold abbrevAttrs
    have h1 := abbrevAttrAt_enc ha hat
    split
    · rename_i x hx; rw [h1] at hx; cases hx
    · rename_i a o hx
      rw [h1] at hx
      cases hx
      simp
  | cons hne ha h ih =>
    unfold abbrevAttrs
    have h1 := abbrevAttrAt_enc ha hat.left
    have h2 := ih hat.right
    split
    · rename_i x hx; rw [h1] at hx; cases hx
    · rename_i a o hx
      rw [h1] at hx
      cases hx
      simp only [hne, if_false, bind, Except.bind, h2, List.length_append, Nat.add_assoc]

theorem abbrevEntryAt_enc {o : Order} {e : AbbrevEntry} {bs d : Bytes} {off : Nat} (h : AbbrevEntryEnc o e bs) (hat : At d off bs) :
    abbrevEntryAt o d off = .ok (e, off + bs.length) := by
  cases h with
  | mk hc hne ht hch ha =>
    have h1 := hat.left.left.left.uleb hc
    have h2 := hat.left.left.right.uleb ht
    have h3 := hat.left.right.getUint (by simpa using hch)
    have h4 := abbrevAttrs_enc ha hat.right
    simp only [List.length_append, length_intBytes, ← Nat.add_assoc] at h1 h2 h3 h4
    unfold abbrevEntryAt
    simp only [bind, Except.bind, h1, h2, h3, h4, List.length_append, length_intBytes, ← Nat.add_assoc]

/-- **C66** the abbreviation declarations of a unit are found as encoded. -/
theorem C66_abbrevs {o : Order} {l : List AbbrevEntry} {bs d : Bytes} {off : Nat} (h : AbbrevsEnc o l bs) (hat : At d off bs) :
    abbrevTable o d off = .ok l := by
  induction h generalizing off with
  | done hz =>
    unfold abbrevTable
    simp only [bind, Except.bind, hat.uleb hz, if_true]
  | cons he h ih =>
    have h1 := abbrevEntryAt_enc he hat.left
    have h2 := ih hat.right
    rename_i e l a b
    obtain ⟨cb, rest, hb, hc, hne⟩ : ∃ cb rest, a = cb ++ rest ∧ Uleb e.code cb ∧ e.code ≠ 0 := by
      cases he with
      | mk hc hne ht hch ha =>
        rename_i cb tb ab
        exact ⟨cb, tb ++ intBytes o 1 e.children ++ ab, by simp only [List.append_assoc], hc, hne⟩
    have h0 : At d off (cb ++ rest) := by rw [← hb]; exact hat.left
    have h3 := h0.left.uleb hc
    unfold abbrevTable
    simp only [bind, Except.bind, h3, hne, if_false]
    split
    · rename_i x hx; rw [h1] at hx; cases hx
    · rename_i e' next hx
      rw [h1] at hx
      cases hx
      simp only [h2]

/-! ### Attributes of an entry -/

/-- The same attribute; for a value of one of three forms what is read for it (`ValueRead`). -/
structure AttrAlike (x y : DAttr) : Prop where
  attr : x.attr = y.attr
  form : x.form = y.form
  offset : x.offset = y.offset
  size : x.size = y.size
  read : ValueRead y.form y.size y.value x.value

theorem AttrAlike.value {x y : DAttr} (h : AttrAlike x y) (hf : y.form ∉ valueLost) : x.value = y.value := h.read.same hf

/-- The same entry, except for such values. -/
structure DieAlike (x y : Die) : Prop where
  offset : x.offset = y.offset
  parent : x.parent = y.parent
  level : x.level = y.level
  code : x.code = y.code
  tag : x.tag = y.tag
  size : x.size = y.size
  attrs : All2 (fun p q => p.1 = q.1 ∧ AttrAlike p.2 q.2) x.attrs y.attrs

theorem all2_dset {α β : Type} {R : α → β → Prop} {a : Dict Nat α} {b : Dict Nat β} (h : All2 (fun p q => p.1 = q.1 ∧ R p.2 q.2) a b)
    (k : Nat) {x : α} {y : β} (hxy : R x y) : All2 (fun p q => p.1 = q.1 ∧ R p.2 q.2) (dset a k x) (dset b k y) := by
  induction a generalizing b with
  | nil =>
    cases b with
    | nil => exact ⟨⟨rfl, hxy⟩, trivial⟩
    | cons _ _ => exact h.elim
  | cons p s ih =>
    cases b with
    | nil => exact h.elim
    | cons q t =>
      obtain ⟨pk, pv⟩ := p
      obtain ⟨qk, qv⟩ := q
      obtain ⟨⟨hk, hv⟩, ht⟩ := h
      simp only at hk hv
      subst hk
      simp only [dset]
      split
      · exact ⟨⟨rfl, hxy⟩, ht⟩
      · exact ⟨⟨rfl, hv⟩, ih ht⟩

theorem dieAttrs_enc {E : FormEnv} {version : Nat} {l : List AbbrevAttr} {off : Nat} {bs d : Bytes} {as : List DAttr}
    (h : AttrsEnc E version l off bs as) (hs : ∀ a ∈ l, a.attr ≠ 0 → a.form = 0x21 ∨ Supported E version a.form) (hat : At d off bs)
    {acc acc' : Dict Nat DAttr} (hacc : All2 (fun p q => p.1 = q.1 ∧ AttrAlike p.2 q.2) acc acc') :
    ∃ r, dieAttrs E d l off acc = .ok (r, off + bs.length) ∧
      All2 (fun p q => p.1 = q.1 ∧ AttrAlike p.2 q.2) r (as.foldl (fun acc x => dset acc x.attr x) acc') := by
  induction h generalizing acc acc' with
  | done h0 =>
    unfold dieAttrs
    simp only [h0, if_true]
    exact ⟨acc, rfl, hacc⟩
  | implicit h0 hf hv h ih =>
    rename_i a t off v bs l
    unfold dieAttrs
    obtain ⟨attr, form, value⟩ := a
    simp only at h0 hf hv
    subst hf hv
    simp only [h0, if_false, bind, Except.bind, dattrAt, C50_implicit, Nat.sub_self, Nat.add_zero, List.foldl_cons]
    exact ih (fun a ha => hs a (List.mem_cons_of_mem _ ha)) hat (all2_dset hacc attr ⟨rfl, rfl, rfl, rfl, .refl _ (by simp [valueLost])⟩)
  | cons h0 hf h ih =>
    rename_i a t off v b bs l
    have hsup : Supported E version a.form := by
      rcases hs a (by simp) h0 with h21 | h
      · rw [h21] at hf
        exfalso
        cases hf <;> simp_all [fixedForms]
      · exact h
    obtain ⟨v', hv, hval⟩ := C50_form_partial E version a v b d off hf hsup hat.left
    unfold dieAttrs
    simp only [h0, if_false, bind, Except.bind, dattrAt, hv, Nat.add_sub_cancel_left, List.foldl_cons]
    have := ih (fun a ha => hs a (List.mem_cons_of_mem _ ha)) hat.right
      (all2_dset hacc a.attr (x := ⟨a.attr, a.form, off, v', b.length⟩) (y := ⟨a.attr, a.form, off, v, b.length⟩) ⟨rfl, rfl, rfl, rfl, hval⟩)
    rw [List.length_append, ← Nat.add_assoc]
    exact this

/-! ### Entries -/

/-- What parsing is given: the unit parameters, the declarations of the codes, supported forms. -/
structure Env (V : DieEnv) (version : Nat) (abbrevs : Nat → Option AbbrevEntry) : Prop where
  codes : ∀ code e, abbrevs code = some e → abbrevOf V code = .ok e
  forms : ∀ code e, abbrevs code = some e → ∀ a ∈ e.attrs, a.attr ≠ 0 → a.form = 0x21 ∨ Supported V.E version a.form

/-- The entries with a wanted tag. -/
def selected (filter : Option (List Nat)) (ds : List Die) : List Die :=
  match filter with
  | none => ds
  | some l => ds.filter fun x => l.contains x.tag

theorem selected_append (f : Option (List Nat)) (a b : List Die) : selected f (a ++ b) = selected f a ++ selected f b := by
  cases f <;> simp [selected]

theorem selected_cons (f : Option (List Nat)) (x : Die) (l : List Die) : selected f (x :: l) = selected f [x] ++ selected f l :=
  selected_append f [x] l

theorem selected_one (f : Option (List Nat)) (x : Die) : selected f [x] = if wanted f x.tag then [x] else [] := by
  cases f with
  | none => simp [selected, wanted]
  | some l => cases h : l.contains x.tag <;> simp only [selected, wanted, h, List.filter_cons, List.filter_nil] <;> rfl

theorem all2_one (f : Option (List Nat)) {x y : Die} (h : DieAlike x y) : All2 DieAlike (if wanted f x.tag then [x] else []) (selected f [y]) := by
  rw [selected_one, ← h.tag]
  split
  · exact ⟨h, trivial⟩
  · exact trivial

theorem DieEnc.pos {E : FormEnv} {version : Nat} {abbrevs : Nat → Option AbbrevEntry} {off level : Nat} {parent : Option Nat} {bs : Bytes} {ds : List Die}
    (h : DieEnc E version abbrevs off parent level bs ds) : 0 < bs.length := by
  cases h with
  | leaf hc => have := hc.length_pos; simp; omega
  | node hc => have := hc.length_pos; simp; omega

/-- What is claimed of an entry and of a chain of children. -/
def DieRead (V : DieEnv) (off : Nat) (parent : Option Nat) (level : Nat) (bs : Bytes) (ds : List Die) : Prop :=
  At V.d off bs → ∃ r, getDie V off parent level = .ok r ∧ r.code ≠ 0 ∧ r.next = off + bs.length ∧ All2 DieAlike r.dies (selected V.filter ds)

def KidsRead (V : DieEnv) (off parent level : Nat) (bs : Bytes) (ds : List Die) : Prop :=
  At V.d off bs → ∃ ds', getKids V off parent level = .ok (ds', off + bs.length) ∧ All2 DieAlike ds' (selected V.filter ds)

theorem getDie_enc {V : DieEnv} {version : Nat} {abbrevs : Nat → Option AbbrevEntry} (hV : Env V version abbrevs) {off level : Nat}
    {parent : Option Nat} {bs : Bytes} {ds : List Die} (h : DieEnc V.E version abbrevs off parent level bs ds) : DieRead V off parent level bs ds := by
  refine DieEnc.rec (motive_1 := fun off parent level bs ds _ => DieRead V off parent level bs ds)
    (motive_2 := fun off parent level bs ds _ => KidsRead V off parent level bs ds) ?leaf ?node ?null ?cons h
  case leaf =>
    intro off level code parent cb ab e as hc hne hab ha hch hat
    have h1 := hat.left.uleb hc
    have h2 := hV.codes _ _ hab
    obtain ⟨dict, h3, h4⟩ := dieAttrs_enc ha (hV.forms _ _ hab) hat.right (acc := []) (acc' := []) trivial
    unfold getDie
    split
    · rename_i x hx; rw [h1] at hx; cases hx
    · rename_i c o1 hx
      rw [h1] at hx
      cases hx
      simp only [hne, if_false, h2]
      split
      · rename_i x hx; rw [h3] at hx; cases hx
      · rename_i at' o2 hx
        rw [h3] at hx
        cases hx
        simp only [hch, if_true]
        have hl : off + cb.length + ab.length = off + (cb ++ ab).length := by simp [Nat.add_assoc]
        refine ⟨_, rfl, hne, hl, ?_⟩
        exact all2_one V.filter (x := ⟨off, parent, level, code, e.tag, _, dict⟩) ⟨rfl, rfl, rfl, rfl, rfl, by simp only [hl]; omega, h4⟩
  case node =>
    intro off level code parent cb ab kb e as ds hc hne hab ha hch hk ih hat
    have h1 := hat.left.left.uleb hc
    have h2 := hV.codes _ _ hab
    obtain ⟨dict, h3, h4⟩ := dieAttrs_enc ha (hV.forms _ _ hab) hat.left.right (acc := []) (acc' := []) trivial
    obtain ⟨ds', h5, h6⟩ := ih hat.right
    have hl2 : off + (cb ++ ab).length = off + cb.length + ab.length := by simp [Nat.add_assoc]
    rw [hl2] at h5
    unfold getDie
    split
    · rename_i x hx; rw [h1] at hx; cases hx
    · rename_i c o1 hx
      rw [h1] at hx
      cases hx
      simp only [hne, if_false, h2]
      split
      · rename_i x hx; rw [h3] at hx; cases hx
      · rename_i at' o2 hx
        rw [h3] at hx
        cases hx
        simp only [hch, if_false, h5]
        have hl : off + cb.length + ab.length + kb.length = off + (cb ++ ab ++ kb).length := by simp [Nat.add_assoc]
        refine ⟨_, rfl, hne, hl, ?_⟩
        rw [selected_cons]
        refine All2.append ?_ h6
        exact all2_one V.filter (x := ⟨off, parent, level, code, e.tag, _, dict⟩) ⟨rfl, rfl, rfl, rfl, rfl, by simp only [hl]; omega, h4⟩
  case null =>
    intro off parent level bs hz hat
    have h1 := hat.uleb hz
    have hg : getDie V off (some parent) level =
        .ok ⟨0, off + bs.length, if wanted V.filter 0 then [⟨off, some parent, level, 0, 0, off + bs.length - off, []⟩] else []⟩ := by
      unfold getDie
      split
      · rename_i x hx; rw [h1] at hx; cases hx
      · rename_i c o1 hx
        rw [h1] at hx
        cases hx
        simp
    unfold getKids
    simp only [hg, if_true]
    refine ⟨_, rfl, ?_⟩
    exact all2_one V.filter (x := ⟨off, some parent, level, 0, 0, _, []⟩) ⟨rfl, rfl, rfl, rfl, rfl, by simp only; omega, trivial⟩
  case cons =>
    intro off parent level b kb ds1 ds2 hd hk ih1 ih2 hat
    have hpos := hd.pos
    obtain ⟨r, h1, h2, h3, h4⟩ := ih1 hat.left
    obtain ⟨ds', h5, h6⟩ := ih2 hat.right
    have hle := hat.left.le
    unfold getKids
    simp only [h1, h2, if_false]
    rw [dif_pos ⟨by omega, by omega⟩, h3]
    simp only [h5, List.length_append, Nat.add_assoc]
    refine ⟨_, rfl, ?_⟩
    rw [selected_append]
    exact All2.append h4 h6

/-! ### The dictionary of entries -/

/-- The entries of a tree are at increasing offsets within its bytes. -/
def Ascending (off len : Nat) (ds : List Die) : Prop :=
  (∀ x ∈ ds, off ≤ x.offset ∧ x.offset < off + len) ∧ ds.Pairwise (fun x y => x.offset < y.offset)

theorem Ascending.append {off m n : Nat} {a b : List Die} (ha : Ascending off m a) (hb : Ascending (off + m) n b) : Ascending off (m + n) (a ++ b) := by
  refine ⟨?_, List.pairwise_append.mpr ⟨ha.2, hb.2, ?_⟩⟩
  · intro x hx
    rcases List.mem_append.mp hx with hx | hx
    · have := ha.1 x hx; omega
    · have := hb.1 x hx; omega
  · intro x hx y hy
    have := ha.1 x hx
    have := hb.1 y hy
    omega

theorem ascending_one {off len : Nat} {x : Die} (h : x.offset = off) (hl : 0 < len) : Ascending off len [x] := by
  refine ⟨?_, List.pairwise_singleton _ _⟩
  intro y hy
  simp only [List.mem_singleton] at hy
  subst hy
  omega

theorem dieEnc_ascending {E : FormEnv} {version : Nat} {abbrevs : Nat → Option AbbrevEntry} {off level : Nat} {parent : Option Nat} {bs : Bytes}
    {ds : List Die} (h : DieEnc E version abbrevs off parent level bs ds) : Ascending off bs.length ds := by
  refine DieEnc.rec (motive_1 := fun off _ _ bs ds _ => Ascending off bs.length ds) (motive_2 := fun off _ _ bs ds _ => Ascending off bs.length ds)
    ?leaf ?node ?null ?cons h
  case leaf =>
    intro off level code parent cb ab e as hc hne hab ha hch
    exact ascending_one rfl (by have := hc.length_pos; simp; omega)
  case node =>
    intro off level code parent cb ab kb e as ds hc hne hab ha hch hk ih
    have hp : 0 < (cb ++ ab).length := by have := hc.length_pos; simp; omega
    have h1 : Ascending off (cb ++ ab).length [(⟨off, parent, level, code, e.tag, (cb ++ ab ++ kb).length, as.foldl (fun acc x => dset acc x.attr x) []⟩ : Die)] :=
      ascending_one rfl hp
    have := h1.append ih
    rw [← List.length_append] at this
    exact this
  case null =>
    intro off parent level zb hz
    exact ascending_one rfl hz.length_pos
  case cons =>
    intro off parent level b kb ds1 ds2 hd hk ih1 ih2
    rw [List.length_append]
    exact ih1.append ih2

theorem dset_new {α : Type} (d : Dict Nat α) (k : Nat) (v : α) (h : ∀ p ∈ d, p.1 ≠ k) : dset d k v = d ++ [(k, v)] := by
  induction d with
  | nil => rfl
  | cons p t ih =>
    obtain ⟨pk, pv⟩ := p
    have h1 : pk ≠ k := h (pk, pv) (by simp)
    simp only [dset, h1, if_false, List.cons_append]
    rw [ih fun q hq => h q (List.mem_cons_of_mem _ hq)]

theorem foldl_dset (ds : List Die) (acc : Dict Nat Die) (h1 : ds.Pairwise (fun x y => x.offset < y.offset)) (h2 : ∀ p ∈ acc, ∀ x ∈ ds, p.1 < x.offset) :
    ds.foldl (fun acc x => dset acc x.offset x) acc = acc ++ ds.map fun x => (x.offset, x) := by
  induction ds generalizing acc with
  | nil => simp
  | cons x t ih =>
    simp only [List.foldl_cons, List.map_cons]
    rw [List.pairwise_cons] at h1
    rw [dset_new acc x.offset x (fun p hp => by have := h2 p hp x (by simp); omega), ih _ h1.2]
    · simp
    · intro p hp y hy
      rcases List.mem_append.mp hp with hp | hp
      · exact h2 p hp y (List.mem_cons_of_mem _ hy)
      · simp only [List.mem_singleton] at hp
        subst hp
        exact h1.1 y hy

theorem selected_sublist (f : Option (List Nat)) (ds : List Die) : (selected f ds).Sublist ds := by
  cases f with
  | none => exact List.Sublist.refl _
  | some l => exact List.filter_sublist

theorem all2_offsets {a b : List Die} (h : All2 DieAlike a b) : a.map (·.offset) = b.map (·.offset) := by
  induction a generalizing b with
  | nil => cases b with
    | nil => rfl
    | cons _ _ => exact h.elim
  | cons x t ih => cases b with
    | nil => exact h.elim
    | cons y s => simp only [List.map_cons, h.1.offset, ih h.2]

/-- The declarations are numbered 1, 2, 3, ... -/
def Sequential (l : List AbbrevEntry) : Prop := ∀ i e, l[i]? = some e → e.code = i + 1

theorem sequential_lookup {l : List AbbrevEntry} (h : Sequential l) {code : Nat} {e : AbbrevEntry} (hf : l.find? (fun x => x.code == code) = some e) :
    ∃ i, l[i]? = some e ∧ code = i + 1 ∧ e.code = code := by
  have hm := List.mem_of_find?_eq_some hf
  have hc : e.code = code := by simpa using List.find?_some hf
  obtain ⟨i, hi⟩ := List.mem_iff_getElem?.mp hm
  exact ⟨i, hi, by rw [← hc]; exact h i e hi, hc⟩

/-- **C66** if the declarations of a unit are numbered sequentially and use supported forms, parsing a tree of entries of
any shape and depth gives exactly its entries, or those with a wanted tag, by their offsets: tags, parents, levels,
sizes, attributes with their values (except for three forms, see C50). -/
theorem C66_entries_partial (o : Order) (E : FormEnv) (version : Nat) (l : List AbbrevEntry) (abbrevBytes dAbbrev info bs : Bytes) (cu : CU)
    (filter : Option (List Nat)) (ds : List Die) (habb : AbbrevsEnc o l abbrevBytes) (hat1 : At dAbbrev cu.abbrevOff abbrevBytes)
    (hseq : Sequential l) (hsup : ∀ e ∈ l, ∀ a ∈ e.attrs, a.attr ≠ 0 → a.form = 0x21 ∨ Supported E version a.form)
    (hdie : DieEnc E version (fun code => l.find? fun x => x.code == code) cu.dieOff none 0 bs ds) (hat2 : At info cu.dieOff bs) :
    ∃ dict, getDIEs ⟨E, info, abbrevTable o dAbbrev cu.abbrevOff, filter⟩ cu = .ok dict ∧
      All2 (fun p x => p.1 = x.offset ∧ DieAlike p.2 x) dict (selected filter ds) := by
  have ht := C66_abbrevs habb hat1
  have hV : Env ⟨E, info, abbrevTable o dAbbrev cu.abbrevOff, filter⟩ version (fun code => l.find? fun x => x.code == code) := by
    constructor
    · intro code e he
      obtain ⟨i, h1, h2, h3⟩ := sequential_lookup hseq he
      subst h2
      simp [abbrevOf, ht, h1, h3]
    · intro code e he a ha
      exact hsup e (List.mem_of_find?_eq_some he) a ha
  obtain ⟨r, h1, -, -, h2⟩ := getDie_enc hV hdie hat2
  have hasc := (dieEnc_ascending hdie).2.sublist (selected_sublist filter ds)
  have hasc' : r.dies.Pairwise (fun x y => x.offset < y.offset) := by
    have e := all2_offsets h2
    have := (List.pairwise_map (f := fun (x : Die) => x.offset) (R := fun a b => a < b)).mpr hasc
    rw [← e] at this
    exact List.pairwise_map.mp this
  unfold getDIEs
  simp only [bind, Except.bind, h1]
  refine ⟨_, rfl, ?_⟩
  rw [foldl_dset _ _ hasc' (by simp)]
  simp only [List.nil_append]
  generalize r.dies = a at h2
  generalize selected filter ds = b at h2
  clear hasc hasc' h1
  induction a generalizing b with
  | nil => cases b with
    | nil => trivial
    | cons _ _ => exact h2.elim
  | cons x t ih => cases b with
    | nil => exact h2.elim
    | cons y s => exact ⟨⟨h2.1.offset, h2.1⟩, ih s h2.2⟩

/-! ### Termination -/

/-- An entry has at least one byte: the loop over the children advances, the last branch of `getKids` is never reached. -/
theorem getDie_advances (V : DieEnv) (k : Nat) :
    ∀ off, V.d.length - off ≤ k →
      (∀ parent level r, getDie V off parent level = .ok r → off < r.next ∧ off < V.d.length) ∧
      (∀ parent level r, getKids V off parent level = .ok r → off ≤ r.2) := by
  induction k with
  | zero =>
    intro off hk
    have h1 : ∀ parent level r, getDie V off parent level = .ok r → off < r.next ∧ off < V.d.length := by
      intro parent level r h
      unfold getDie at h
      split at h
      · cases h
      · rename_i c o1 hu
        have := getUleb128_bound hu
        simp only at this
        omega
    refine ⟨h1, ?_⟩
    intro parent level r h
    unfold getKids at h
    split at h
    · cases h
    · rename_i q hq
      have := h1 _ _ _ hq
      omega
  | succ k ih =>
    intro off hk
    have h1 : ∀ parent level r, getDie V off parent level = .ok r → off < r.next ∧ off < V.d.length := by
      intro parent level r h
      unfold getDie at h
      split at h
      · cases h
      · rename_i c o1 hu
        have hb := getUleb128_bound hu
        simp only at hb
        split at h
        · cases h; simp only; omega
        · split at h
          · cases h
          · split at h
            · cases h
            · rename_i a o2 ha
              have hb2 := dieAttrs_bound ha
              simp only at hb2
              split at h
              · cases h; simp only; omega
              · split at h
                · cases h
                · rename_i ds o3 hkids
                  have := (ih o2 (by omega)).2 _ _ _ hkids
                  cases h
                  simp only at this ⊢
                  omega
    refine ⟨h1, ?_⟩
    intro parent level r h
    unfold getKids at h
    split at h
    · cases h
    · rename_i q hq
      have hb := h1 _ _ _ hq
      split at h
      · cases h; simp only; omega
      · split at h
        · cases h
        · rename_i ds o hkids
          have := (ih q.next (by omega)).2 _ _ _ hkids
          cases h
          simp only at this ⊢
          omega

/-- **C66** whatever the data hold, parsing a unit ends, and the loop over the children never stops for another reason
than an exception or a null entry. -/
theorem C66_dead_branch (V : DieEnv) (off level : Nat) (parent : Option Nat) (r : DieRes) (h : getDie V off parent level = .ok r) :
    off < r.next ∧ off < V.d.length :=
  (getDie_advances V _ off (Nat.le_refl _)).1 _ _ _ h

/-! ### A unit, and what is not supported -/

/-- Declarations: a unit with a name and children, a variable with a location, a constant. -/
def exAbbrevs : List AbbrevEntry :=
  [⟨1, 0x11, 1, [⟨3, 8, none⟩, ⟨0, 0, none⟩]⟩, ⟨2, 0x34, 0, [⟨2, 0x18, none⟩, ⟨0x1C, 0x21, some 5⟩, ⟨0, 0, none⟩]⟩]

def exAbbrevBytes : Bytes := [1, 0x11, 1, 3, 8, 0, 0, 2, 0x34, 0, 2, 0x18, 0x1C, 0x21, 5, 0, 0, 0]

theorem uleb_small (b : UInt8) (h : b.toNat < 128) : Uleb b.toNat [b] := .last h

theorem exAbbrevs_enc : AbbrevsEnc .little exAbbrevs exAbbrevBytes := by
  have e0 : AbbrevAttrEnc ⟨0, 0, none⟩ [0, 0] := .plain (ab := [0]) (fb := [0]) (uleb_small 0 (by decide)) (uleb_small 0 (by decide)) (by decide)
  have a1 : AbbrevAttrsEnc [⟨3, 8, none⟩, ⟨0, 0, none⟩] [3, 8, 0, 0] :=
    .cons (a := [3, 8]) (by decide) (.plain (ab := [3]) (fb := [8]) (uleb_small 3 (by decide)) (uleb_small 8 (by decide)) (by decide)) (.done e0)
  have a2 : AbbrevAttrsEnc [⟨2, 0x18, none⟩, ⟨0x1C, 0x21, some 5⟩, ⟨0, 0, none⟩] [2, 0x18, 0x1C, 0x21, 5, 0, 0] :=
    .cons (a := [2, 0x18]) (by decide) (.plain (ab := [2]) (fb := [0x18]) (uleb_small 2 (by decide)) (uleb_small 0x18 (by decide)) (by decide))
      (.cons (a := [0x1C, 0x21, 5]) (by decide) (.const (ab := [0x1C]) (fb := [0x21]) (vb := [5]) (uleb_small 0x1C (by decide)) (uleb_small 0x21 (by decide))
        (.pos (b := 5) (by decide))) (.done e0))
  have n1 : AbbrevEntryEnc .little ⟨1, 0x11, 1, [⟨3, 8, none⟩, ⟨0, 0, none⟩]⟩ [1, 0x11, 1, 3, 8, 0, 0] :=
    .mk (cb := [1]) (tb := [0x11]) (uleb_small 1 (by decide)) (by decide) (uleb_small 0x11 (by decide)) (by decide) a1
  have n2 : AbbrevEntryEnc .little ⟨2, 0x34, 0, [⟨2, 0x18, none⟩, ⟨0x1C, 0x21, some 5⟩, ⟨0, 0, none⟩]⟩ [2, 0x34, 0, 2, 0x18, 0x1C, 0x21, 5, 0, 0] :=
    .mk (cb := [2]) (tb := [0x34]) (uleb_small 2 (by decide)) (by decide) (uleb_small 0x34 (by decide)) (by decide) a2
  exact .cons (a := [1, 0x11, 1, 3, 8, 0, 0]) n1 (.cons (a := [2, 0x34, 0, 2, 0x18, 0x1C, 0x21, 5, 0, 0]) n2 (.done (uleb_small 0 (by decide))))

/-- The unit named "A" with the variable at 16. -/
def exDies : List Die :=
  [⟨11, none, 0, 1, 0x11, 11, [(3, ⟨3, 8, 12, .bytes [65], 2⟩)]⟩,
   ⟨14, some 11, 1, 2, 0x34, 7, [(2, ⟨2, 0x18, 15, .bytes [3, 16, 0, 0, 0], 6⟩), (0x1C, ⟨0x1C, 0x21, 21, .num 5, 0⟩)]⟩,
   ⟨21, some 11, 1, 0, 0, 1, []⟩]

def exDieBytes : Bytes := [1, 65, 0, 2, 5, 3, 16, 0, 0, 0, 0]

def exUnitEnv : FormEnv := { order := .little, addrSize := 4, offSize := 4, cuOffset := 0 }

theorem exDies_enc : DieEnc exUnitEnv 4 (fun code => exAbbrevs.find? fun x => x.code == code) 11 none 0 exDieBytes exDies := by
  refine .node (code := 1) (e := exAbbrevs[0]) (cb := [1]) (ab := [65, 0]) (kb := [2, 5, 3, 16, 0, 0, 0, 0]) (as := [⟨3, 8, 12, .bytes [65], 2⟩]) (uleb_small 1 (by decide)) (by decide) rfl ?_ (by decide) ?_
  · exact .cons (b := [65, 0]) (by decide) (.string (s := [65]) (by decide)) (.done rfl rfl)
  · refine .cons (b := [2, 5, 3, 16, 0, 0, 0]) (kb := [0]) (ds := [_]) ?_ (.null (uleb_small 0 (by decide)))
    refine .leaf (code := 2) (e := exAbbrevs[1]) (cb := [2]) (ab := [5, 3, 16, 0, 0, 0]) (as := [⟨2, 0x18, 15, .bytes [3, 16, 0, 0, 0], 6⟩, ⟨0x1C, 0x21, 21, .num 5, 0⟩]) (uleb_small 2 (by decide)) (by decide) rfl ?_
      (by decide)
    exact .cons (b := [5, 3, 16, 0, 0, 0]) (by decide) (.ublock (lb := [5]) (data := [3, 16, 0, 0, 0]) (by decide) (uleb_small 5 (by decide)))
      (.implicit (by decide) rfl rfl (.done rfl rfl))

def exCu : CU := { offset := 0, lenBytes := 4, length := 18, version := 4, unitType := none, addrSize := 4, abbrevOff := 0, offSize := 4, dieOff := 11 }

/-- The hypotheses of `C66_entries_partial` are met by this unit. -/
theorem exAbbrevs_ok : Sequential exAbbrevs ∧ (∀ e ∈ exAbbrevs, ∀ a ∈ e.attrs, a.attr ≠ 0 → a.form = 0x21 ∨ Supported exUnitEnv 4 a.form) ∧
    At exAbbrevBytes exCu.abbrevOff exAbbrevBytes ∧ At (List.replicate 11 0 ++ exDieBytes) exCu.dieOff exDieBytes := by
  refine ⟨?_, ?_, At.self _, ⟨List.replicate 11 0, [], by simp, rfl⟩⟩
  · intro i e h
    match i, h with
    | 0, h => cases h; rfl
    | 1, h => cases h; rfl
    | n + 2, h => cases h
  · intro e he a ha hne
    simp only [exAbbrevs, List.mem_cons, List.not_mem_nil, or_false] at he
    rcases he with rfl | rfl <;> simp only [List.mem_cons, List.not_mem_nil, or_false] at ha
    · rcases ha with rfl | rfl
      · exact Or.inr ⟨by decide, by decide⟩
      · exact absurd rfl hne
    · rcases ha with rfl | rfl | rfl
      · exact Or.inr ⟨by decide, by decide⟩
      · exact Or.inl rfl
      · exact absurd rfl hne

example : selected (some [0x34]) exDies = (exDies.drop 1).take 1 := by decide

/-- **C66** (violated) declarations may have any distinct codes: a single declaration with code 2 gives an `IndexError`,
two declarations 2 and 1 an `AssertionError`. -/
theorem C66_codes :
    AbbrevsEnc .little [⟨2, 0x11, 0, [⟨0, 0, none⟩]⟩] [2, 0x11, 0, 0, 0, 0] ∧
    getDIEs ⟨exUnitEnv, [2], abbrevTable .little [2, 0x11, 0, 0, 0, 0] 0, none⟩ { exCu with dieOff := 0 } = .error .indexError ∧
    getDIEs ⟨exUnitEnv, [1], abbrevTable .little [2, 0x11, 0, 0, 0, 1, 0x34, 0, 0, 0, 0] 0, none⟩ { exCu with dieOff := 0 } = .error .assertion := by
  have t1 : abbrevTable .little [2, 0x11, 0, 0, 0, 0] 0 = .ok [⟨2, 0x11, 0, [⟨0, 0, none⟩]⟩] := by decide +kernel
  have t2 : abbrevTable .little [2, 0x11, 0, 0, 0, 1, 0x34, 0, 0, 0, 0] 0 = .ok [⟨2, 0x11, 0, [⟨0, 0, none⟩]⟩, ⟨1, 0x34, 0, [⟨0, 0, none⟩]⟩] := by decide +kernel
  have u1 : getUleb128 [2] 0 = .ok (2, 1) := by decide
  have u2 : getUleb128 [1] 0 = .ok (1, 1) := by decide
  refine ⟨?_, ?_, ?_⟩
  rotate_left
  · rw [t1]
    unfold getDIEs getDie
    simp only [bind, Except.bind]
    split
    · rename_i x hx
      split at hx
      · rename_i y hy; rw [u1] at hy; cases hy
      · rename_i c o hy
        rw [u1] at hy
        cases hy
        simp only [abbrevOf] at hx
        cases hx
        rfl
    · rename_i x hx
      split at hx
      · cases hx
      · rename_i c o hy
        rw [u1] at hy
        cases hy
        cases hx
  · rw [t2]
    unfold getDIEs getDie
    simp only [bind, Except.bind]
    split
    · rename_i x hx
      split at hx
      · rename_i y hy; rw [u2] at hy; cases hy
      · rename_i c o hy
        rw [u2] at hy
        cases hy
        cases hx
        rfl
    · rename_i x hx
      split at hx
      · cases hx
      · rename_i c o hy
        rw [u2] at hy
        cases hy
        cases hx
  have e0 : AbbrevAttrEnc ⟨0, 0, none⟩ [0, 0] := .plain (ab := [0]) (fb := [0]) (uleb_small 0 (by decide)) (uleb_small 0 (by decide)) (by decide)
  exact .cons (a := [2, 0x11, 0, 0, 0]) (.mk (cb := [2]) (tb := [0x11]) (uleb_small 2 (by decide)) (by decide) (uleb_small 0x11 (by decide)) (by decide) (.done e0))
    (.done (uleb_small 0 (by decide)))

/-- **C66** (violated) a negative constant of a declaration, -1, is read as 127. -/
theorem C66_implicit_negative : Sleb (-1) [0x7F] ∧ abbrevAttrAt [0x1C, 0x21, 0x7F] 0 = .ok (⟨0x1C, 0x21, some 127⟩, 3) :=
  ⟨.neg (b := 0x7F) (by decide) (by decide), by decide⟩

end EspSize
