import Verif.Spec.DwarfNames
import Verif.Props.DwarfEval
import Verif.Props.ElfView
/-!
# From the bytes of an ELF file to the compilation units of its symbols
-/
namespace EspSize

/-! ### Sections by name -/

theorem lookup_named {e : ElfFile} {secs : List (Str × RawShdr)} {name : Str} (hn : ∀ p ∈ secs, e.shdrName p.2 = .ok p.1)
    {p : List (Str × RawShdr)} {s : RawShdr} {q : List (Str × RawShdr)} (h1 : secs = p ++ (name, s) :: q) (h2 : ∀ x ∈ p, x.1 ≠ name) :
    e.lookupShdr name (secs.map (·.2)) = .ok (some s) := by
  subst h1
  induction p with
  | nil =>
    have := hn (name, s) (by simp)
    simp only [List.nil_append, List.map_cons, ElfFile.lookupShdr, this, bind, Except.bind, if_true]
  | cons x p ih =>
    have h3 := hn x (by simp)
    simp only [List.cons_append, List.map_cons, ElfFile.lookupShdr, h3, bind, Except.bind]
    rw [if_neg (h2 x (by simp))]
    exact ih (fun y hy => h2 y (by simp [hy])) (fun y hy => hn y (List.mem_cons_of_mem _ hy))

theorem lookup_absent {e : ElfFile} {secs : List (Str × RawShdr)} {name : Str} (hn : ∀ p ∈ secs, e.shdrName p.2 = .ok p.1)
    (h : ∀ x ∈ secs, x.1 ≠ name) : e.lookupShdr name (secs.map (·.2)) = .ok none := by
  induction secs with
  | nil => rfl
  | cons x p ih =>
    have h3 := hn x (by simp)
    simp only [List.map_cons, ElfFile.lookupShdr, h3, bind, Except.bind]
    rw [if_neg (h x (by simp))]
    exact ih (fun y hy => hn y (by simp [hy])) (fun y hy => h y (by simp [hy]))

/-- What is known of an open file. -/
structure Opened (e : ElfFile) (secs : List (Str × RawShdr)) (file : Bytes) : Prop where
  file : e.file = file
  shdrs : e.shdrs = secs.map (·.2)
  names : ∀ p ∈ secs, e.shdrName p.2 = .ok p.1

theorem Opened.named {e : ElfFile} {secs : List (Str × RawShdr)} {file : Bytes} (he : Opened e secs file) {name : Str} {d : Bytes}
    (h : SectionNamed secs file name d) : ∃ s, e.lookupShdr name e.shdrs = .ok (some s) ∧ e.data s = .ok d := by
  obtain ⟨p, s, q, h1, h2, h3⟩ := h
  refine ⟨s, ?_, data_of (by rw [he.file]; exact h3)⟩
  rw [he.shdrs]
  exact lookup_named he.names h1 h2

/-! ### Attributes that are alike -/

theorem dget_alike {a b : Dict Nat DAttr} (h : All2 (fun p q => p.1 = q.1 ∧ AttrAlike p.2 q.2) a b) (k : Nat) :
    (dget a k = none ∧ dget b k = none) ∨ ∃ x y, dget a k = some x ∧ dget b k = some y ∧ AttrAlike x y := by
  induction a generalizing b with
  | nil =>
    cases b with
    | nil => exact .inl ⟨rfl, rfl⟩
    | cons _ _ => exact h.elim
  | cons p s ih =>
    cases b with
    | nil => exact h.elim
    | cons q t =>
      obtain ⟨⟨hk, hv⟩, ht⟩ := h
      rw [dget_cons, dget_cons, ← hk]
      split
      · exact .inr ⟨_, _, rfl, rfl, hv⟩
      · exact ih ht

theorem alike_none {x y : Die} (h : DieAlike x y) {k : Nat} (hy : dget y.attrs k = none) : dget x.attrs k = none := by
  rcases dget_alike h.attrs k with ⟨h1, _⟩ | ⟨_, _, _, h2, _⟩
  · exact h1
  · rw [hy] at h2; cases h2

theorem alike_some {x y : Die} (h : DieAlike x y) {k : Nat} {b : DAttr} (hy : dget y.attrs k = some b) :
    ∃ a, dget x.attrs k = some a ∧ AttrAlike a b := by
  rcases dget_alike h.attrs k with ⟨_, h1⟩ | ⟨a, b', h1, h2, h3⟩
  · rw [hy] at h1; cases h1
  · rw [hy] at h2; cases h2; exact ⟨a, h1, h3⟩

/-! ### Addresses of entries -/

theorem expr_other {o : Order} {n : Nat} {op : UInt8} {t : Bytes} (h : op ≠ 3) : exprLoop o n (op :: t) 0 [] = none := by
  unfold exprLoop
  rw [dif_pos (by simp)]
  simp [h]

theorem expr_then {o : Order} {n a : Nat} {op : UInt8} {t : Bytes} (ha : a < 256 ^ n) (h : op ≠ 3) :
    exprLoop o n (3 :: intBytes o n a ++ op :: t) 0 [] = none := by
  have hat : At (3 :: intBytes o n a ++ op :: t) 1 (intBytes o n a) := ⟨[3], op :: t, by simp, rfl⟩
  have hu := hat.getUint ha
  unfold exprLoop
  rw [dif_pos (by simp)]
  simp only [List.cons_append, List.getElem?_cons_zero, if_true, Nat.zero_add]
  unfold exprLoop
  have hl : (3 :: (intBytes o n a ++ op :: t)).length = n + 2 + t.length := by simp; omega
  rw [dif_pos (by rw [hl]; omega)]
  have hg : (3 :: (intBytes o n a ++ op :: t))[1 + n]? = some op := by
    rw [Nat.add_comm, List.getElem?_cons_succ, List.getElem?_append_right (by simp)]
    simp
  rw [hg, if_neg (by simpa using h)]

/-- The address found of an entry is the one it has. -/
theorem plain_addr {e : ElfFile} {o : Order} {x y : Die} {cu : CU} (ho : e.order = o) (h : DieAlike x y) (hp : PlainEntry o e.addrSize y) :
    ∃ r, e.dieAddr (x, cu) = .ok r ∧ ∀ a : Nat, r = some (a : Int) ↔ EntryAt o e.addrSize y a := by
  have hinj : ∀ {a b : Nat}, a < 256 ^ e.addrSize → b < 256 ^ e.addrSize → intBytes o e.addrSize a = intBytes o e.addrSize b → a = b := by
    intro a b ha hb hab
    have h1 := (At.self (intBytes o e.addrSize a)).getUint ha
    have h2 := (At.self (intBytes o e.addrSize b)).getUint hb
    rw [hab, h2] at h1
    exact (Prod.mk.inj h1).1.symm
  by_cases h1 : y.tag = 0x2E
  · have hx : x.tag = 0x2E := h.tag.trans h1
    cases hg : dget y.attrs 0x11 with
    | none =>
      refine ⟨none, by simp [ElfFile.dieAddr, hx, alike_none h hg], fun a => ⟨fun h => (nomatch h), fun h => ?_⟩⟩
      cases h with
      | func b _ hb => rw [hg] at hb; cases hb
      | var b hb => rw [h1] at hb; cases hb
    | some b =>
      obtain ⟨b', hb', hal⟩ := alike_some h hg
      obtain ⟨hf, a, ha⟩ := hp.func h1 b hg
      have hv : b'.value = .num a := (hal.value (by rw [hf]; decide)).trans ha
      refine ⟨some a, by simp [ElfFile.dieAddr, hx, hb', hv, AVal.toInt, bind, Except.bind], fun a' => ⟨fun h => ?_, fun h => ?_⟩⟩
      · injection h with h
        have : a = a' := by omega
        subst this
        exact .func b h1 hg ha
      · cases h with
        | func c _ hc hc' =>
          rw [hg] at hc; cases hc
          rw [ha] at hc'; injection hc' with hc'; rw [hc']
        | var c hc => rw [h1] at hc; cases hc
  · by_cases h2 : y.tag = 0x34
    · have hx : x.tag = 0x34 := h.tag.trans h2
      have nofunc : ∀ a, EntryAt o e.addrSize y a → ∃ b, dget y.attrs 2 = some b ∧ b.form = 0x18 ∧ a < 256 ^ e.addrSize ∧
          b.value = .bytes (3 :: intBytes o e.addrSize a) := by
        intro a h
        cases h with
        | func b hb => exact absurd hb h1
        | var b _ hb h3 h4 h5 => exact ⟨b, hb, h3, h4, h5⟩
      cases hg : dget y.attrs 2 with
      | none =>
        refine ⟨none, by simp [ElfFile.dieAddr, hx, alike_none h hg], fun a => ⟨fun h => (nomatch h), fun h => ?_⟩⟩
        obtain ⟨b, hb, _⟩ := nofunc a h
        rw [hg] at hb; cases hb
      | some b =>
        obtain ⟨b', hb', hal⟩ := alike_some h hg
        have hform := hal.form
        rcases hp.var h2 b hg with hf | ⟨hf, bs, hv, hc⟩
        · have hev : e.evalAttr b'.form b'.value = .ok .none_ := by
            rw [← hform] at hf
            simp only [List.mem_cons, List.not_mem_nil, or_false, not_or] at hf
            simp [ElfFile.evalAttr, hf]
          refine ⟨none, by simp [ElfFile.dieAddr, hx, hb', bind, Except.bind, hev], fun a => ⟨fun h => (nomatch h), fun h => ?_⟩⟩
          obtain ⟨c, hc, hc', _⟩ := nofunc a h
          rw [hg] at hc; cases hc
          rw [hc'] at hf; simp at hf
        · have hv' : b'.value = .bytes bs := (hal.value (by rw [hf]; decide)).trans hv
          rw [hf] at hform
          have hnone : exprLoop e.order e.addrSize bs 0 [] = none → (∀ a, bs ≠ 3 :: intBytes o e.addrSize a) →
              ∃ r, e.dieAddr (x, cu) = .ok r ∧ ∀ a : Nat, r = some (a : Int) ↔ EntryAt o e.addrSize y a := by
            intro hl hne
            refine ⟨none, by simp [ElfFile.dieAddr, hx, hb', bind, Except.bind, hform, hv', ElfFile.evalAttr, hl], fun a => ⟨fun h => (nomatch h), fun h => ?_⟩⟩
            obtain ⟨c, hc, _, _, hc'⟩ := nofunc a h
            rw [hg] at hc; cases hc
            rw [hv] at hc'
            injection hc' with hc'
            exact absurd hc' (hne a)
          rcases hc with ⟨op, t, rfl, hop⟩ | ⟨a, t, ha, rfl, rfl | ⟨op, t', rfl, hop⟩⟩
          · exact hnone (expr_other hop) (fun a h => hop (List.cons.inj h).1)
          · rw [List.append_nil] at hv hv'
            have hev := C51_address e a ha
            rw [ho] at hev
            refine ⟨some a, by simp [ElfFile.dieAddr, hx, hb', bind, Except.bind, hform, hv', hev], fun a' => ⟨fun h => ?_, fun h => ?_⟩⟩
            · injection h with h
              have : a = a' := by omega
              subst this
              exact .var b h2 hg hf ha hv
            · obtain ⟨c, hc, _, hlt, hc'⟩ := nofunc a' h
              rw [hg] at hc; cases hc
              rw [hv] at hc'
              injection hc' with hc'
              rw [hinj ha hlt (List.cons.inj hc').2]
          · refine hnone (by rw [ho]; exact expr_then ha hop) (fun a' h => ?_)
            have := congrArg List.length h
            simp at this
    · have hx1 : x.tag ≠ 0x2E := by rw [h.tag]; exact h1
      have hx2 : x.tag ≠ 0x34 := by rw [h.tag]; exact h2
      refine ⟨none, by simp [ElfFile.dieAddr, hx1, hx2], fun a => ⟨fun h => (nomatch h), fun h => ?_⟩⟩
      cases h with
      | func _ h => exact absurd h h1
      | var _ h => exact absurd h h2

/-! ### Names -/

theorem text_of {e : ElfFile} {secs : List (Str × RawShdr)} {file : Bytes} (he : Opened e secs file) {a b : DAttr} {nm : Str}
    (hal : AttrAlike a b) (h : AttrText secs file b nm) : e.evalAttr a.form a.value = .ok (.str nm) := by
  cases h with
  | inline hf hv =>
    rw [hal.value (by rw [hf]; decide), hv, hal.form, hf]
    exact C51_string e nm
  | strp pre post hf hv hs hz =>
    rw [hal.value (by rw [hf]; decide), hv, hal.form, hf]
    obtain ⟨s, h1, h2⟩ := he.named hs
    exact C51_strp e _ _ (.inl ⟨rfl, rfl⟩) s h1 nm pre post h2 (fun b hb h0 => hz (h0 ▸ hb))
  | line pre post hf hv hs hz =>
    rw [hal.value (by rw [hf]; decide), hv, hal.form, hf]
    obtain ⟨s, h1, h2⟩ := he.named hs
    exact C51_strp e _ _ (.inr ⟨rfl, rfl⟩) s h1 nm pre post h2 (fun b hb h0 => hz (h0 ▸ hb))

/-! ### Entries with their units -/

/-- An entry found: it is alike, and belongs to the unit with these entries. -/
structure Found (p : Nat × (Die × CU)) (y : List Die × Die) : Prop where
  key : p.1 = y.2.offset
  alike : DieAlike p.2.1 y.2
  unit : ∃ hd t, y.1 = hd :: t ∧ hd.offset = p.2.2.dieOff

theorem dieEnc_head {E : FormEnv} {version : Nat} {abbrevs : Nat → Option AbbrevEntry} {off level : Nat} {parent : Option Nat} {bs : Bytes}
    {ds : List Die} (h : DieEnc E version abbrevs off parent level bs ds) : ∃ hd t, ds = hd :: t ∧ hd.offset = off := by
  cases h with
  | leaf => exact ⟨_, _, rfl, rfl⟩
  | node => exact ⟨_, _, rfl, rfl⟩

theorem unitEntries_of {o : Order} {ab : Bytes} {off : Nat} {us : List (Unit × List Die)} (h : UnitsDies o ab off us) :
    All2 (fun x (y : List Die × Die) => x.1 = y.2 ∧ ∃ hd t, y.1 = hd :: t ∧ hd.offset = x.2.dieOff) (unitEntries o off us) (entriesOf (us.map (·.2))) := by
  induction h with
  | nil => trivial
  | cons h1 h2 ih =>
    rename_i off u ds t
    obtain ⟨l, ab', bs, pad, e1, e2, e3, e4, e5, e6⟩ := h1.entries
    obtain ⟨hd, tl, hh, ho⟩ := dieEnc_head e6
    have hf : (ds.filter fun x => [0x11, 0x2E, 0x34].contains x.tag) = ds.filter fun x => decide (x.tag = 0x11 ∨ x.tag = 0x2E ∨ x.tag = 0x34) := by
      apply List.filter_congr
      intro x _
      rw [Bool.eq_iff_iff, decide_eq_true_iff]
      simp
    unfold unitEntries
    rw [hf]
    show All2 _ _ ((ds.filter fun x => decide (x.tag = 0x11 ∨ x.tag = 0x2E ∨ x.tag = 0x34)).map (fun x => (ds, x)) ++ entriesOf (t.map (·.2)))
    refine All2.append ?_ ih
    generalize ds.filter (fun x => decide (x.tag = 0x11 ∨ x.tag = 0x2E ∨ x.tag = 0x34)) = l'
    induction l' with
    | nil => trivial
    | cons z l' ih' => exact ⟨⟨rfl, hd, tl, hh, by rw [ho, C49_first_entry_partial o u off h1.full]⟩, ih'⟩

theorem units_ascending {o : Order} {ab : Bytes} {off : Nat} {us : List (Unit × List Die)} (h : UnitsDies o ab off us) :
    (∀ x ∈ entriesOf (us.map (·.2)), off ≤ x.2.offset) ∧ (entriesOf (us.map (·.2))).Pairwise fun x y => x.2.offset < y.2.offset := by
  induction h with
  | nil => exact ⟨by simp [entriesOf], .nil⟩
  | cons h1 h2 ih =>
    rename_i off u ds t
    obtain ⟨l, ab', bs, pad, e1, e2, e3, e4, e5, e6⟩ := h1.entries
    have hasc := dieEnc_ascending e6
    have hsplit : entriesOf (((u, ds) :: t).map (·.2)) =
        (ds.filter fun x => decide (x.tag = 0x11 ∨ x.tag = 0x2E ∨ x.tag = 0x34)).map (fun x => (ds, x)) ++ entriesOf (t.map (·.2)) := rfl
    have hlen : u.headerSize + bs.length ≤ (u.content o).length := by
      unfold Unit.content Unit.headerSize
      rw [e5]
      split
      · rename_i h5
        have := h1.full h5
        simp only [List.mem_cons, List.not_mem_nil, or_false, not_or] at this
        simp [this]
        omega
      · simp; omega
    have hin : ∀ x ∈ (ds.filter fun x => decide (x.tag = 0x11 ∨ x.tag = 0x2E ∨ x.tag = 0x34)).map (fun x => (ds, x)),
        off ≤ x.2.offset ∧ x.2.offset < off + (u.bytes o).length := by
      intro x hx
      obtain ⟨y, hy, rfl⟩ := List.mem_map.mp hx
      have := hasc.1 y (List.mem_filter.mp hy).1
      rw [Unit.length_bytes]
      dsimp only
      omega
    rw [hsplit]
    refine ⟨fun x hx => ?_, List.pairwise_append.mpr ⟨?_, ih.2, fun x hx y hy => ?_⟩⟩
    · rcases List.mem_append.mp hx with hx | hx
      · exact (hin x hx).1
      · have := ih.1 x hx; omega
    · exact List.pairwise_map.mpr (hasc.2.sublist List.filter_sublist)
    · have := (hin x hx).2
      have := ih.1 y hy
      omega

theorem All2.trans' {α β γ : Type} {R : α → β → Prop} {S : β → γ → Prop} {T : α → γ → Prop} (hT : ∀ x y z, R x y → S y z → T x z)
    {a : List α} {b : List β} {c : List γ} (h : All2 R a b) (h' : All2 S b c) : All2 T a c := by
  induction a generalizing b c with
  | nil => cases b with
    | nil => cases c with
      | nil => trivial
      | cons _ _ => exact h'.elim
    | cons _ _ => exact h.elim
  | cons x s ih => cases b with
    | nil => exact h.elim
    | cons y t => cases c with
      | nil => exact h'.elim
      | cons z u => exact ⟨hT _ _ _ h.1 h'.1, ih h.2 h'.2⟩

theorem All2.split {α β : Type} {R : α → β → Prop} {a : List α} {b : List β} (h : All2 R a b) {p : List α} {x : α} {q : List α}
    (he : a = p ++ x :: q) : ∃ p' y q', b = p' ++ y :: q' ∧ R x y ∧ All2 R q q' := by
  subst he
  induction p generalizing b with
  | nil => cases b with
    | nil => exact h.elim
    | cons y t => exact ⟨[], y, t, rfl, h.1, h.2⟩
  | cons z p ih => cases b with
    | nil => exact h.elim
    | cons y t =>
      obtain ⟨p', y', q', h1, h2, h3⟩ := ih h.2
      exact ⟨y :: p', y', q', by rw [h1]; rfl, h2, h3⟩

theorem All2.mem_left {α β : Type} {R : α → β → Prop} {a : List α} {b : List β} (h : All2 R a b) {x : α} (hx : x ∈ a) :
    ∃ y ∈ b, R x y := by
  obtain ⟨p, q, rfl⟩ := List.append_of_mem hx
  obtain ⟨p', y, q', h1, h2, _⟩ := h.split rfl
  exact ⟨y, by rw [h1]; simp, h2⟩

/-- The entry at an offset. -/
theorem found_get {dies : Dict Nat (Die × CU)} {es : List (List Die × Die)} (h : All2 Found dies es)
    (hp : es.Pairwise fun x y => x.2.offset < y.2.offset) {y : List Die × Die} (hy : y ∈ es) :
    ∃ x, dget dies y.2.offset = some x ∧ Found (y.2.offset, x) y := by
  induction dies generalizing es with
  | nil => cases es with
    | nil => cases hy
    | cons _ _ => exact h.elim
  | cons p t ih => cases es with
    | nil => exact h.elim
    | cons z es =>
      rw [List.pairwise_cons] at hp
      rw [dget_cons]
      rcases List.mem_cons.mp hy with rfl | hy
      · rw [if_pos h.1.key]
        refine ⟨p.2, rfl, ?_⟩
        have := h.1
        rw [← this.key]
        exact this
      · have := hp.1 y hy
        rw [if_neg (by rw [h.1.key]; omega)]
        exact ih h.2 hp.2 hy

theorem name_of {e : ElfFile} {secs : List (Str × RawShdr)} {file : Bytes} (he : Opened e secs file) {us : List (List Die)}
    {dies : Dict Nat (Die × CU)} (h : All2 Found dies (entriesOf us)) (hp : (entriesOf us).Pairwise fun x y => x.2.offset < y.2.offset)
    {p : Nat × (Die × CU)} {x : List Die × Die} (hx : x ∈ entriesOf us) (hf : Found p x) {nm : Str} (hn : EntryNamed secs file us x nm) :
    e.cuNameOf dies p.2 = .ok nm := by
  obtain ⟨ds, hu, hd, t, at', h1, h2, h3, h4⟩ := hn
  -- the head of the unit of an entry is an entry
  have hmem : ∀ y ∈ entriesOf us, y.1 = hd :: t → (hd :: t, hd) ∈ entriesOf us := by
    intro y hy hyt
    unfold entriesOf at hy ⊢
    obtain ⟨l, hl, hy⟩ := List.mem_flatMap.mp hy
    obtain ⟨z, _, rfl⟩ := List.mem_map.mp hy
    dsimp only at hyt
    subst hyt
    refine List.mem_flatMap.mpr ⟨_, hl, List.mem_map.mpr ⟨hd, List.mem_filter.mpr ⟨by simp, by simp [h2]⟩, rfl⟩⟩
  have hhead : ∀ (q : Nat × (Die × CU)) (y : List Die × Die), y ∈ entriesOf us → Found q y → y.1 = hd :: t →
      ∃ c a, dget dies q.2.2.dieOff = some c ∧ dget c.1.attrs 3 = some a ∧ e.evalAttr a.form a.value = .ok (.str nm) := by
    intro q y hy hq hyt
    obtain ⟨hd', t', g1, g2⟩ := hq.unit
    rw [hyt] at g1
    cases g1
    obtain ⟨c, hc1, hc2⟩ := found_get h hp (hmem y hy hyt)
    dsimp only at hc1 hc2
    rw [g2] at hc1
    obtain ⟨a, ha, hal⟩ := alike_some hc2.alike h3
    exact ⟨c, a, hc1, ha, text_of he hal h4⟩
  cases hu with
  | own h0 =>
    obtain ⟨c, a, k1, k2, k3⟩ := hhead p x hx hf h1
    exact C67_unit_name e dies p.2 p.2 c a nm (.inl ⟨alike_none hf.alike h0, rfl⟩) k1 k2 k3
  | origin ao y h0 hform hv hy =>
    obtain ⟨z, hz, hfz⟩ := found_get h hp hy
    obtain ⟨c, a, k1, k2, k3⟩ := hhead (y.2.offset, z) y hy hfz h1
    obtain ⟨ao', hao, hal⟩ := alike_some hf.alike h0
    have hv' : ao'.value = .num y.2.offset :=
      (hal.value (by simp only [List.mem_cons, List.not_mem_nil, or_false] at hform; rcases hform with h | h | h | h | h | h <;> rw [h] <;> decide)).trans hv
    exact C67_unit_name e dies p.2 z c a nm (.inr ⟨ao', _, hao, hv', hz⟩) k1 k2 k3

/-! ### The loop succeeds -/

theorem nameStep_total {e : ElfFile} {dies : Dict Nat (Die × CU)} {m : Dict Nat (RawSym × Option Str)} {x : Die × CU} {r : Option Int}
    (h1 : e.dieAddr x = .ok r) (h2 : ∀ a : Nat, r = some (a : Int) → a ∈ dkeys m → ∃ nm, e.cuNameOf dies x = .ok nm) :
    ∃ m', e.nameStep dies m x = .ok m' := by
  unfold ElfFile.nameStep
  simp only [h1, bind, Except.bind]
  cases r with
  | none => exact ⟨_, rfl⟩
  | some a =>
    simp only
    split
    · exact ⟨_, rfl⟩
    · rename_i hneg
      split
      · exact ⟨_, rfl⟩
      · rename_i s hs
        obtain ⟨nm, hnm⟩ := h2 a.toNat (by rw [Int.toNat_of_nonneg (by omega)]) (by rw [← dget_isSome, hs]; rfl)
        rw [hnm]
        exact ⟨_, rfl⟩

theorem names_total {e : ElfFile} {dies : Dict Nat (Die × CU)} (l : List (Nat × (Die × CU))) (m0 : Dict Nat (RawSym × Option Str))
    (h : ∀ p ∈ l, ∃ r, e.dieAddr p.2 = .ok r ∧ ∀ a : Nat, r = some (a : Int) → a ∈ dkeys m0 → ∃ nm, e.cuNameOf dies p.2 = .ok nm) :
    ∃ m, l.foldlM (fun acc p => e.nameStep dies acc p.2) m0 = .ok m := by
  induction l generalizing m0 with
  | nil => exact ⟨m0, rfl⟩
  | cons p t ih =>
    obtain ⟨r, h1, h2⟩ := h p (by simp)
    obtain ⟨m1, hm1⟩ := nameStep_total (dies := dies) (m := m0) h1 h2
    have hk := (nameStep_ok hm1).1
    obtain ⟨m, hm⟩ := ih m1 (by rw [hk]; exact fun q hq => h q (by simp [hq]))
    exact ⟨m, by rw [List.foldlM_cons, hm1]; exact hm⟩

/-! ### The whole file -/

theorem candidate_iff (s : RawSym) : Named s ↔ Candidate s := by
  unfold Named Candidate
  rw [sym_type]
  constructor
  · rintro ⟨h1, h2, h3⟩; exact ⟨h1, h2.symm, h3⟩
  · rintro ⟨h1, h2, h3⟩; exact ⟨h1, h2.symm, h3⟩

theorem entries_found {e : ElfFile} {secs : List (Str × RawShdr)} {file : Bytes} (he : Opened e secs file)
    {us : List (Unit × List Die)} {dAbbrev : Bytes}
    (hinfo : (us = [] ∧ ∀ p ∈ secs, p.1 ≠ str ".debug_info") ∨
      (SectionNamed secs file (str ".debug_info") (us.flatMap fun p => p.1.bytes e.order) ∧
        SectionNamed secs file (str ".debug_abbrev") dAbbrev)) (h : UnitsDies e.order dAbbrev 0 us) :
    ∃ info cus dies, e.infoData = .ok info ∧ e.cus = .ok cus ∧ e.allDies info cus [] = .ok dies ∧ All2 Found dies (entriesOf (us.map (·.2))) := by
  rcases hinfo with ⟨rfl, hno⟩ | ⟨h1, h2⟩
  · have hi : e.infoData = .ok [] := by
      unfold ElfFile.infoData
      rw [he.shdrs, lookup_absent he.names hno]
      rfl
    refine ⟨[], [], [], hi, ?_, rfl, trivial⟩
    unfold ElfFile.cus
    rw [hi]
    show cusFrom e.order [] 0 = .ok []
    unfold cusFrom
    simp
  · obtain ⟨s1, g1, g2⟩ := he.named h1
    have hi : e.infoData = .ok (us.flatMap fun p => p.1.bytes e.order) := by
      unfold ElfFile.infoData
      rw [g1]
      exact g2
    obtain ⟨cus, dies, k1, k2, k3⟩ := C67_entries_partial e dAbbrev (he.named h2) us h hi
    refine ⟨_, cus, dies, hi, k1, k2, ?_⟩
    refine All2.trans' (fun x y z hxy hyz => ?_) k3 (unitEntries_of h)
    refine ⟨by rw [hxy.1, hyz.1], by rw [← hyz.1]; exact hxy.2.1, ?_⟩
    rw [hxy.2.2]
    exact hyz.2

theorem dget_mapKeys {α β : Type} (f : Nat × α → β) (d : Dict Nat α) (a : Nat) :
    dget (d.map fun p => ((p.1 : Int), f p)) (a : Int) = (dget d a).map fun v => f (a, v) := by
  induction d with
  | nil => rfl
  | cons p t ih =>
    rw [List.map_cons, dget_cons, dget_cons]
    by_cases h : p.1 = a
    · subst h; simp
    · rw [if_neg (by omega), if_neg h, ih]

/-- The size of an address in a file. -/
def addressSize : ElfClass → Nat
  | .c32 => 4
  | .c64 => 8

/-- **C88** the compilation units of the symbols of an ELF file, from its bytes: there is a value for exactly the addresses of
functions and objects with a size, that of the last such symbol; with the name of the unit of the last function or variable at
this address, if there is one. -/
theorem C88_units_partial (long : Nat) (o : Order) (c : ElfClass) (h : Ehdr) (secs : List (Str × RawShdr))
    (syms : RawShdr → List (Str × RawSym)) (file : Bytes) (hn : ElfNamed o c h secs syms file) (hp : PhdrsReadable c h file)
    (hlong : long = 4 ∨ long = 8) (hlen : nativeSize long (ehdrFmt c) ≤ file.length) (us : List (Unit × List Die)) (dAbbrev : Bytes)
    (hinfo : (us = [] ∧ ∀ p ∈ secs, p.1 ≠ str ".debug_info") ∨
      (SectionNamed secs file (str ".debug_info") (us.flatMap fun p => p.1.bytes o) ∧
        SectionNamed secs file (str ".debug_abbrev") dAbbrev)) (hus : UnitsDies o dAbbrev 0 us)
    (hplain : ∀ x ∈ entriesOf (us.map (·.2)), PlainEntry o (addressSize c) x.2)
    (hnames : ∀ x ∈ entriesOf (us.map (·.2)), ∀ a, EntryAt o (addressSize c) x.2 a →
      (∃ y ∈ allSyms secs syms, Candidate y.2 ∧ y.2.value = a) → ∃ nm, EntryNamed secs file (us.map (·.2)) x nm) :
    ∃ v cu, elfView long file = .ok v ∧ v.cuSyms = .ok cu ∧
      (∀ k, dhas cu k = true ↔ ∃ y ∈ allSyms secs syms, Candidate y.2 ∧ (y.2.value : Int) = k) ∧
      ∀ (a : Nat) s, dget cu (a : Int) = some s →
        (∃ p y r, allSyms secs syms = p ++ y :: r ∧ Candidate y.2 ∧ y.2.value = a ∧ (∀ t ∈ r, Candidate t.2 → t.2.value ≠ a) ∧
          s.name = y.1 ∧ s.value = y.2.value ∧ s.size = y.2.size) ∧
        (((∀ x ∈ entriesOf (us.map (·.2)), ¬ EntryAt o (addressSize c) x.2 a) ∧ s.cuName = none) ∨
          ∃ p x r nm, entriesOf (us.map (·.2)) = p ++ x :: r ∧ EntryAt o (addressSize c) x.2 a ∧
            (∀ t ∈ r, ¬ EntryAt o (addressSize c) t.2 a) ∧ EntryNamed secs file (us.map (·.2)) x nm ∧ s.cuName = some nm) := by
  obtain ⟨e, h1, e1, e2, e3, e4, e5, e6, e7⟩ := named_elf long o c h secs syms file hn hp hlong hlen
  have he : Opened e secs file := ⟨e1, e4, e5⟩
  have hsz : e.addrSize = addressSize c := by unfold ElfFile.addrSize addressSize; rw [e3]; cases c <;> rfl
  rw [← e2] at hinfo hus
  obtain ⟨info, cus, dies, i1, i2, i3, hf⟩ := entries_found he hinfo hus
  have hasc := (units_ascending hus).2
  generalize hes : entriesOf (us.map (·.2)) = es at hplain hnames hf hasc ⊢
  generalize hys : allSyms secs syms = ys at e6 e7 hnames ⊢
  rw [← hsz] at hplain hnames ⊢
  -- keys of the symbols considered
  have hkeys : ∀ a, a ∈ dkeys (symsByAddr (ys.map (·.2))) ↔ ∃ y ∈ ys, Candidate y.2 ∧ y.2.value = a := by
    intro a
    rw [symsByAddr_eq]
    have : ∀ (l : List RawSym) (acc : Dict Nat (RawSym × Option Str)), a ∈ dkeys (l.foldl (fun acc s => dset acc s.value (s, none)) acc) ↔
        a ∈ dkeys acc ∨ ∃ s ∈ l, s.value = a := by
      intro l
      induction l with
      | nil => intro acc; simp
      | cons s t ih =>
        intro acc
        rw [List.foldl_cons, ih, mem_dkeys_dset]
        constructor
        · rintro ((h | h) | ⟨s', hs', h⟩)
          all_goals first
            | exact .inl h
            | exact .inr ⟨s, by simp, h.symm⟩
            | exact .inr ⟨s', by simp [hs'], h⟩
        · rintro (h | ⟨s', hs', h⟩)
          · exact .inl (by first | exact .inl h | exact .inr h)
          · rcases List.mem_cons.mp hs' with rfl | hs'
            · exact .inl (by first | exact .inl h.symm | exact .inr h.symm)
            · exact .inr ⟨s', hs', h⟩
    rw [this]
    simp only [dkeys_nil, List.not_mem_nil, false_or]
    constructor
    · rintro ⟨s, hs, hv⟩
      obtain ⟨hs, hc⟩ := List.mem_filter.mp hs
      obtain ⟨y, hy, rfl⟩ := List.mem_map.mp hs
      exact ⟨y, hy, (candidate_iff _).mp (by simpa using hc), hv⟩
    · rintro ⟨y, hy, hc, hv⟩
      exact ⟨y.2, List.mem_filter.mpr ⟨List.mem_map_of_mem hy, by simpa using (candidate_iff _).mpr hc⟩, hv⟩
  -- addresses
  have haddr : ∀ p ∈ dies, ∃ x ∈ es, Found p x ∧ ∃ r, e.dieAddr p.2 = .ok r ∧ ∀ a : Nat, r = some (a : Int) ↔ EntryAt o e.addrSize x.2 a := by
    intro p hp'
    obtain ⟨x, hx, hfx⟩ := hf.mem_left hp'
    exact ⟨x, hx, hfx, plain_addr (cu := p.2.2) e2 hfx.alike (hplain x hx)⟩
  have hpx : ∀ p x, Found p x → x ∈ es → ∀ a : Nat, e.dieAddr p.2 = .ok (some (a : Int)) ↔ EntryAt o e.addrSize x.2 a := by
    intro p x hfx hx a
    obtain ⟨r, hr, hra⟩ := plain_addr (cu := p.2.2) e2 hfx.alike (hplain x hx)
    rw [← hra a, show e.dieAddr p.2 = .ok r from hr]
    constructor
    · intro h; injection h
    · intro h; rw [h]
  subst hes
  obtain ⟨m, hm⟩ := names_total (e := e) (dies := dies) dies (symsByAddr (ys.map (·.2))) (by
    intro p hp'
    obtain ⟨x, hx, hfx, r, hr, hra⟩ := haddr p hp'
    refine ⟨r, hr, fun a ha hk => ?_⟩
    obtain ⟨nm, hnm⟩ := hnames x hx a ((hra a).mp ha) ((hkeys a).mp hk)
    exact ⟨nm, name_of he hf hasc hx hfx hnm⟩)
  have hadd : e.addCus = .ok m := by
    unfold ElfFile.addCus
    simp only [i1, i2, i3, e6, hm, bind, Except.bind]
  obtain ⟨k1, k2⟩ := names_fold dies hm
  -- the names of the symbols
  have hnd : KeysNodup m := by
    unfold KeysNodup
    rw [k1, symsByAddr_eq]
    have : ∀ (l : List RawSym) (acc : Dict Nat (RawSym × Option Str)), KeysNodup acc →
        KeysNodup (l.foldl (fun acc s => dset acc s.value (s, none)) acc) := by
      intro l
      induction l with
      | nil => intro acc h; exact h
      | cons s t ih => intro acc h; exact ih _ (h.dset _ _)
    exact this _ _ KeysNodup.nil
  have hsym : ∀ a s n, dget m a = some (s, n) → ∃ p y r, ys = p ++ y :: r ∧ Candidate y.2 ∧ y.2.value = a ∧
      (∀ t ∈ r, Candidate t.2 → t.2.value ≠ a) ∧ s = y.2 ∧ e.symName s = .ok y.1 := by
    intro a s n hg
    obtain ⟨n0, hg0, _⟩ := k2 a s n hg
    obtain ⟨_, p, r, g1, g2, g3, g4⟩ := (C67_symbols _ a s n0).mp hg0
    obtain ⟨p', r', rfl, rfl, g5⟩ := List.map_eq_append_iff.mp g1
    obtain ⟨y, r'', rfl, rfl, rfl⟩ := List.map_eq_cons_iff.mp g5
    refine ⟨p', y, r'', rfl, (candidate_iff _).mp g2, g3, fun t ht hc => ?_, rfl, e7 y (by simp)⟩
    exact g4 t.2 (List.mem_map_of_mem ht) ((candidate_iff _).mpr hc)
  let nameOf : RawSym → Str := fun s => match e.symName s with | .ok n => n | .error _ => []
  let val : Nat × (RawSym × Option Str) → CuSym := fun q =>
    { name := nameOf q.2.1, value := q.2.1.value, size := q.2.1.size, cuName := q.2.2 }
  have hcu : e.cuSyms = .ok (m.map fun q => ((q.1 : Int), val q)) := by
    unfold ElfFile.cuSyms
    simp only [hadd, bind, Except.bind]
    have := mapM_ok_map (f := e.cuView) (k := id) (g := fun q => ((q.1 : Int), val q)) (l := m) (by
      intro q hq
      obtain ⟨p, y, r, _, _, _, _, _, g⟩ := hsym q.1 q.2.1 q.2.2 (dget_of_mem hnd hq)
      simp only [id, ElfFile.cuView, g, bind, Except.bind, val, nameOf])
    rwa [List.map_id] at this
  refine ⟨{ shdrs := secs.map viewSec, syms := ys.map viewSym, cuSyms := e.cuSyms }, _, ?_, hcu, ?_, ?_⟩
  · unfold elfView
    rw [h1]
    exact view_named e4 e5 e6 e7
  · intro k
    rw [dhas_iff]
    have hk : dkeys (m.map fun q => ((q.1 : Int), val q)) = (dkeys m).map fun a : Nat => (a : Int) := by
      simp [dkeys]
    rw [hk, k1, List.mem_map]
    constructor
    · rintro ⟨a, ha, rfl⟩
      obtain ⟨y, hy, hc, hv⟩ := (hkeys a).mp ha
      exact ⟨y, hy, hc, by rw [hv]⟩
    · rintro ⟨y, hy, hc, rfl⟩
      exact ⟨y.2.value, (hkeys _).mpr ⟨y, hy, hc, rfl⟩, rfl⟩
  · intro a s hs
    rw [dget_mapKeys] at hs
    cases hg : dget m a with
    | none => rw [hg] at hs; cases hs
    | some q =>
      rw [hg] at hs
      obtain ⟨q1, q2⟩ := q
      cases hs
      obtain ⟨p, y, r, g1, g2, g3, g4, g5, g6⟩ := hsym a q1 q2 hg
      refine ⟨⟨p, y, r, g1, g2, g3, g4, ?_, ?_, ?_⟩, ?_⟩
      · simp only [val, nameOf, g6]
      · simp only [val, g5]
      · simp only [val, g5]
      obtain ⟨n0, hg0, hc⟩ := k2 a q1 q2 hg
      have hn0 := ((C67_symbols _ a q1 n0).mp hg0).1
      rcases hc with ⟨hall, rfl⟩ | ⟨x, ⟨q, k, r', l1, l2, l3⟩, nm, l4, rfl⟩
      · refine .inl ⟨fun x hx hat => ?_, hn0⟩
        obtain ⟨d, hd, hfd⟩ := hf.mem_right hx
        exact hall d hd ((hpx d x hfd hx a).mpr hat)
      · obtain ⟨p', z, t, s1, s2, s3⟩ := hf.split l1
        have hz : z ∈ entriesOf (us.map (·.2)) := by rw [s1]; simp
        have hat := (hpx _ z s2 hz a).mp l2
        obtain ⟨nm', hnm'⟩ := hnames z hz a hat ((hkeys a).mp (by rw [← k1, ← dget_isSome, hg]; rfl))
        have := name_of he hf hasc hz s2 hnm'
        rw [show e.cuNameOf dies x = .ok nm from l4] at this
        cases this
        refine .inr ⟨p', z, t, nm, s1, hat, fun w hw hat' => ?_, hnm', rfl⟩
        obtain ⟨d, hd, hfd⟩ := s3.mem_right hw
        exact l3 d hd ((hpx d w hfd (by rw [s1]; simp [hw]) a).mpr hat')

/-! ### Example -/

/-- The strings `.symtab`, `.strtab`, `.debug_info`, `.debug_abbrev` and `v`. -/
def exDwarfStrings : Bytes :=
  [0, 46, 115, 121, 109, 116, 97, 98, 0, 46, 115, 116, 114, 116, 97, 98, 0, 46, 100, 101, 98, 117, 103, 95, 105, 110, 102, 111, 0, 46, 100, 101, 98, 117, 103, 95, 97, 98, 98, 114, 101, 118, 0, 118, 0]

def exDwarfSecs : List (Str × RawShdr) :=
  [([], ⟨0, 0, 0, 0, 0, 0, 0, 0, 0, 0⟩), (str ".symtab", ⟨1, 2, 0, 0, 252, 16, 2, 0, 4, 16⟩),
   (str ".strtab", ⟨9, 3, 0, 0, 268, 45, 0, 0, 1, 0⟩), (str ".debug_info", ⟨17, 1, 0, 0, 313, 22, 0, 0, 1, 0⟩),
   (str ".debug_abbrev", ⟨29, 1, 0, 0, 335, 18, 0, 0, 1, 0⟩)]

def exDwarfSyms (_ : RawShdr) : List (Str × RawSym) := [(str "v", ⟨2, 43, 16, 4, 0x11, 0, 1⟩)]

def exDwarfHdr : Ehdr := { exEhdr with shnum := 5, shstrndx := 2 }

def exUnit : Unit := ⟨false, 4, 0, 4, 0, exDieBytes⟩

def exDwarfRest : Bytes :=
  fieldBytes .little (symFields .c32 ⟨2, 43, 16, 4, 0x11, 0, 1⟩) ++ exDwarfStrings ++ exUnit.bytes .little ++ exAbbrevBytes

def exDwarfFile : Bytes :=
  exDwarfHdr.ident ++ fieldBytes .little (ehdrFields .c32 exDwarfHdr) ++
    (exDwarfSecs.flatMap fun p => fieldBytes .little (shdrFields .c32 p.2)) ++ exDwarfRest

theorem exDwarfNamed : ElfNamed .little .c32 exDwarfHdr exDwarfSecs exDwarfSyms exDwarfFile := by
  have hstr : ∀ (i : Nat) (name : Str), exDwarfStrings.take i ++ name.utf8Encode.data.toList ++ 0 :: exDwarfStrings.drop (i + name.utf8Encode.data.toList.length + 1) = exDwarfStrings →
      (exDwarfStrings.take i).length = i → (0 : UInt8) ∉ name.utf8Encode.data.toList → StringIn exDwarfFile exDwarfSecs[2].2 i name := by
    intro i name h1 h2 h3
    refine ⟨exDwarfStrings.take i, exDwarfStrings.drop (i + name.utf8Encode.data.toList.length + 1), ?_, h2, h3⟩
    rw [h1]
    exact sectionBytes_slice (by decide +kernel) (by decide +kernel) (by decide +kernel)
  refine ⟨⟨⟨_, rfl, rfl⟩, ⟨(exDwarfSecs.flatMap fun p => fieldBytes .little (shdrFields .c32 p.2)) ++ exDwarfRest, ?_⟩, ?_, rfl, by decide,
    fun _ => ⟨exDwarfHdr.ident ++ fieldBytes .little (ehdrFields .c32 exDwarfHdr), exDwarfRest, ?_, by decide +kernel⟩, ?_⟩, ⟨_, rfl, ?_⟩, ?_⟩
  · simp only [exDwarfFile, List.append_assoc]
  · unfold Fits; decide +kernel
  · simp only [exDwarfFile, List.append_assoc, List.flatMap_map]
  · unfold Fits; decide +kernel
  · intro p hp
    simp only [exDwarfSecs, List.mem_cons, List.not_mem_nil, or_false] at hp
    rcases hp with rfl | rfl | rfl | rfl | rfl <;> exact hstr _ _ (by decide +kernel) (by decide +kernel) (by decide +kernel)
  · intro p hp ht
    simp only [exDwarfSecs, List.mem_cons, List.not_mem_nil, or_false] at hp
    rcases hp with rfl | rfl | rfl | rfl | rfl
    · exact absurd ht (by decide)
    · refine ⟨sectionBytes_slice (by decide +kernel) (by decide +kernel) (by decide +kernel), _, rfl, ?_⟩
      intro y hy
      simp only [exDwarfSyms, List.mem_cons, List.not_mem_nil, or_false] at hy
      subst hy
      exact ⟨rfl, by unfold Fits; decide +kernel, hstr _ _ (by decide +kernel) (by decide +kernel) (by decide +kernel)⟩
    · exact absurd ht (by decide)
    · exact absurd ht (by decide)
    · exact absurd ht (by decide)

theorem exUnits_dies : UnitsDies .little exAbbrevBytes 0 [(exUnit, exDies)] := by
  refine .cons ⟨{ version := by decide, type := by decide, addr := by decide, abbrevs := by decide, length := by decide }, by decide, ?_⟩ .nil
  exact ⟨exAbbrevs, exAbbrevBytes, exDieBytes, [], exAbbrevs_enc, exAbbrevs_ok.2.2.1, exAbbrevs_ok.1, exAbbrevs_ok.2.1, by simp [exUnit], exDies_enc⟩

theorem exEntries_of : entriesOf ([(exUnit, exDies)].map (·.2)) = [(exDies, exDies[0]), (exDies, exDies[1])] := by decide +kernel

/-- The hypotheses of `C88_units_partial` are met: the object `v` at 16 belongs to the unit "A". -/
theorem exDwarf_view : ∃ v cu s, elfView 8 exDwarfFile = .ok v ∧ v.cuSyms = .ok cu ∧ dget cu 16 = some s ∧ s.cuName = some (str "A") := by
  obtain ⟨v, cu, h1, h2, h3, h4⟩ := C88_units_partial 8 .little .c32 exDwarfHdr exDwarfSecs exDwarfSyms exDwarfFile exDwarfNamed (.inl rfl)
    (.inr rfl) (by decide +kernel) [(exUnit, exDies)] exAbbrevBytes
    (.inr ⟨⟨exDwarfSecs.take 3, _, exDwarfSecs.drop 4, rfl, by decide +kernel, sectionBytes_slice (by decide +kernel) (by decide +kernel) (by decide +kernel)⟩,
      ⟨exDwarfSecs.take 4, _, [], rfl, by decide +kernel, sectionBytes_slice (by decide +kernel) (by decide +kernel) (by decide +kernel)⟩⟩)
    exUnits_dies
    (by
      rw [exEntries_of]
      intro x hx
      simp only [List.mem_cons, List.not_mem_nil, or_false] at hx
      rcases hx with rfl | rfl
      · exact ⟨fun h => absurd h (by decide), fun h => absurd h (by decide)⟩
      · refine ⟨fun h => absurd h (by decide), fun _ at' h => ?_⟩
        have : at' = ⟨2, 0x18, 15, .bytes [3, 16, 0, 0, 0], 6⟩ := by
          have h' : some at' = some (⟨2, 0x18, 15, .bytes [3, 16, 0, 0, 0], 6⟩ : DAttr) := by rw [← h]; decide
          exact Option.some.inj h'
        subst this
        exact .inr ⟨rfl, _, rfl, .inr ⟨16, [], by decide, by decide, .inl rfl⟩⟩)
    (by
      rw [exEntries_of]
      intro x hx a _ _
      refine ⟨str "A", exDies, ?_, exDies[0], exDies.drop 1, ⟨3, 8, 12, .bytes [65], 2⟩, rfl, rfl, by decide, .inline rfl (by decide +kernel)⟩
      simp only [List.mem_cons, List.not_mem_nil, or_false] at hx
      rcases hx with rfl | rfl
      · exact .own (by decide)
      · exact .own (by decide))
  have hk := (h3 16).mpr ⟨(str "v", ⟨2, 43, 16, 4, 0x11, 0, 1⟩), by decide +kernel, by unfold Candidate; decide, rfl⟩
  obtain ⟨s, hs⟩ := Option.isSome_iff_exists.mp (show (dget cu 16).isSome = true from hk)
  refine ⟨v, cu, s, h1, h2, hs, ?_⟩
  rcases (h4 16 s hs).2 with ⟨h5, _⟩ | ⟨p, x, r, nm, h5, _, _, ⟨ds, h6, hd, t, at', h7, _, h8, h9⟩, h10⟩
  · refine absurd ?_ (h5 (exDies, exDies[1]) (by rw [exEntries_of]; simp))
    exact .var ⟨2, 0x18, 15, .bytes [3, 16, 0, 0, 0], 6⟩ (by decide) (by decide) rfl (by decide) (by decide)
  · have hes : ∀ y ∈ entriesOf ([(exUnit, exDies)].map (·.2)), y.1 = exDies := by
      rw [exEntries_of]
      intro y hy
      simp only [List.mem_cons, List.not_mem_nil, or_false] at hy
      rcases hy with rfl | rfl <;> rfl
    have hds : ds = exDies := by
      cases h6 with
      | own _ => exact hes x (by rw [h5]; simp)
      | origin ao y _ _ _ hy => exact hes y hy
    rw [hds] at h7
    cases h7
    have : some at' = some (⟨3, 8, 12, .bytes [65], 2⟩ : DAttr) := by rw [← h8]; decide
    cases this
    rw [h10]
    cases h9 with
    | inline _ hv =>
      have hv : (str "A").utf8Encode.data.toList = nm.utf8Encode.data.toList :=
        (show (str "A").utf8Encode.data.toList = [65] by decide +kernel).trans (AVal.bytes.inj hv)
      have h11 := decodeUtf8_enc nm
      rw [← hv, decodeUtf8_enc] at h11
      rw [Except.ok.inj h11]
    | strp _ _ h => cases h
    | line _ _ h => cases h

end EspSize
