import Verif.Proofs.ElfObj
/-! # `add_cus_to_symbols` with cached attributes -/
namespace EspSize

/-! ## What the loop assigns -/

/-- What one entry assigns: an address of a symbol and the name of a unit. -/
def asgOf (e : ElfFile) (D : Dict Nat (Die × CU)) (B : Dict Nat (RawSym × Option Str)) (x : Die × CU) : Except Err (Option (Nat × Str)) :=
  match e.dieAddr x with
  | .error r => .error r
  | .ok none => .ok none
  | .ok (some addr) =>
    if addr < 0 then .ok none
    else match dget B addr.toNat with
      | none => .ok none
      | some _ => match e.cuNameOf D x with
        | .error r => .error r
        | .ok n => .ok (some (addr.toNat, n))

def asgAll (e : ElfFile) (D : Dict Nat (Die × CU)) (B : Dict Nat (RawSym × Option Str)) : Dict Nat (Die × CU) → Except Err (List (Option (Nat × Str)))
  | [] => .ok []
  | p :: t => match asgOf e D B p.2 with
    | .error r => .error r
    | .ok a => match asgAll e D B t with
      | .error r => .error r
      | .ok l => .ok (a :: l)

def updName (N : Nat → Option Str) : Option (Nat × Str) → Nat → Option Str
  | none => N
  | some (a, n) => fun b => if b = a then some n else N b

def updNames (N : Nat → Option Str) (l : List (Option (Nat × Str))) : Nat → Option Str := l.foldl updName N

/-- The last name assigned to an address. -/
def lastName (a : Nat) : List (Option (Nat × Str)) → Option Str
  | [] => none
  | x :: t => match lastName a t with
    | some n => some n
    | none => match x with
      | some (b, n) => if a = b then some n else none
      | none => none

theorem updNames_last (l : List (Option (Nat × Str))) (N : Nat → Option Str) (a : Nat) :
    updNames N l a = match lastName a l with | some n => some n | none => N a := by
  induction l generalizing N with
  | nil => rfl
  | cons x t ih =>
    show updNames (updName N x) t a = _
    rw [ih]
    simp only [lastName]
    cases lastName a t with
    | some n => rfl
    | none =>
      cases x with
      | none => rfl
      | some p =>
        simp only [updName]
        by_cases h : a = p.1
        · simp [h]
        · simp [h]

theorem updNames_twice (l : List (Option (Nat × Str))) (N : Nat → Option Str) : updNames (updNames N l) l = updNames N l := by
  funext a
  rw [updNames_last, updNames_last]
  cases lastName a l <;> rfl

/-! ## The pure loop -/

theorem dkeys_withNames (N : Nat → Option Str) (B : Dict Nat (RawSym × Option Str)) : dkeys (withNames N B) = dkeys B := by
  induction B with
  | nil => rfl
  | cons p t ih => exact congrArg (p.1 :: ·) ih

theorem dget_withNames (N : Nat → Option Str) (B : Dict Nat (RawSym × Option Str)) (a : Nat) :
    dget (withNames N B) a = (dget B a).map fun s => (s.1, N a) := by
  induction B with
  | nil => rfl
  | cons p t ih =>
    show dget ((p.1, (p.2.1, N p.1)) :: withNames N t) a = _
    rw [dget_cons, dget_cons]
    by_cases h : p.1 = a
    · simp [h]
    · simp only [h, if_false]; exact ih

theorem dset_withNames (N : Nat → Option Str) {B : Dict Nat (RawSym × Option Str)} (hB : KeysNodup B) {a : Nat} {s : RawSym × Option Str}
    (h : dget B a = some s) (n : Str) : dset (withNames N B) a (s.1, some n) = withNames (updName N (some (a, n))) B := by
  induction B with
  | nil => cases h
  | cons p t ih =>
    rw [dget_cons] at h
    have hn := KeysNodup.cons_iff.mp hB
    show dset ((p.1, (p.2.1, N p.1)) :: withNames N t) a _ = _
    unfold dset
    by_cases hp : p.1 = a
    · rw [if_pos hp] at h
      cases h
      simp only [hp, if_true]
      show _ = (p.1, (p.2.1, updName N (some (a, n)) p.1)) :: withNames (updName N (some (a, n))) t
      have e1 : updName N (some (a, n)) p.1 = some n := by simp [updName, hp]
      have e2 : withNames (updName N (some (a, n))) t = withNames N t := by
        unfold withNames
        refine List.map_congr_left fun q hq => ?_
        have : q.1 ≠ a := fun hqa => hn.1 (by rw [hp, ← hqa]; exact List.mem_map_of_mem (f := Prod.fst) hq)
        simp [updName, this]
      rw [e1, e2, hp]
    · rw [if_neg hp] at h
      simp only [hp, if_false]
      rw [ih hn.2 h]
      show _ = (p.1, (p.2.1, updName N (some (a, n)) p.1)) :: withNames (updName N (some (a, n))) t
      have e1 : updName N (some (a, n)) p.1 = N p.1 := by simp [updName, hp]
      rw [e1]

theorem nameStep_asg (e : ElfFile) (D : Dict Nat (Die × CU)) {B : Dict Nat (RawSym × Option Str)} (hB : KeysNodup B) (N : Nat → Option Str) (x : Die × CU) :
    e.nameStep D (withNames N B) x = (asgOf e D B x).map fun a => withNames (updName N a) B := by
  unfold ElfFile.nameStep asgOf
  cases e.dieAddr x with
  | error r => rfl
  | ok o =>
    cases o with
    | none => rfl
    | some addr =>
      show (if addr < 0 then _ else _) = _
      by_cases hneg : addr < 0
      · simp only [hneg, if_true]; rfl
      · simp only [hneg, if_false, dget_withNames]
        cases hb : dget B addr.toNat with
        | none => rfl
        | some s =>
          cases hn : e.cuNameOf D x with
          | error r => rfl
          | ok n =>
            show Except.ok (dset (withNames N B) addr.toNat (s.1, some n)) = _
            rw [dset_withNames N hB hb]; rfl

theorem loop_asg (e : ElfFile) (D : Dict Nat (Die × CU)) {B : Dict Nat (RawSym × Option Str)} (hB : KeysNodup B) (L : Dict Nat (Die × CU)) (N : Nat → Option Str) :
    L.foldlM (fun acc p => e.nameStep D acc p.2) (withNames N B) = (asgAll e D B L).map fun l => withNames (updNames N l) B := by
  induction L generalizing N with
  | nil => rfl
  | cons p t ih =>
    rw [List.foldlM_cons, nameStep_asg e D hB]
    unfold asgAll
    cases asgOf e D B p.2 with
    | error r => rfl
    | ok a =>
      show List.foldlM _ (withNames (updName N a) B) t = _
      rw [ih]
      cases asgAll e D B t <;> rfl

theorem symsByAddr_nodup (syms : List RawSym) : KeysNodup (symsByAddr syms) := by
  unfold symsByAddr
  have gen : ∀ (l : List RawSym) (acc : Dict Nat (RawSym × Option Str)), KeysNodup acc →
      KeysNodup (l.foldl (fun acc s => dset acc s.value (s, none)) acc) := by
    intro l
    induction l with
    | nil => exact fun _ h => h
    | cons s t ih => exact fun acc h => ih _ (KeysNodup.dset h _ _)
  exact gen _ _ KeysNodup.nil

theorem dset_mem {κ α : Type} [DecidableEq κ] {d : Dict κ α} {k : κ} {v : α} (p : κ × α) (h : p ∈ dset d k v) : p = (k, v) ∨ p ∈ d := by
  induction d with
  | nil => exact .inl (List.mem_singleton.mp h)
  | cons q t ih =>
    unfold dset at h
    split at h
    · rcases List.mem_cons.mp h with h | h
      · rename_i hq; rw [h]; left; first | rfl | rw [hq]
      · exact .inr (List.mem_cons_of_mem _ h)
    · rcases List.mem_cons.mp h with h | h
      · exact .inr (by rw [h]; simp)
      · rcases ih h with h | h
        · exact .inl h
        · exact .inr (List.mem_cons_of_mem _ h)

theorem symsByAddr_names (syms : List RawSym) : withNames (fun _ => none) (symsByAddr syms) = symsByAddr syms := by
  have h : ∀ p ∈ symsByAddr syms, p.2.2 = none := by
    unfold symsByAddr
    have gen : ∀ (l : List RawSym) (acc : Dict Nat (RawSym × Option Str)), (∀ p ∈ acc, p.2.2 = none) →
        ∀ p ∈ l.foldl (fun acc s => dset acc s.value (s, none)) acc, p.2.2 = none := by
      intro l
      induction l with
      | nil => exact fun _ h => h
      | cons s t ih =>
        refine fun acc h => ih _ fun p hp => ?_
        have g := dset_mem p hp
        rcases g with h1 | h1
        · rw [h1]
        · exact h p h1
    exact gen _ _ (fun p hp => by cases hp)
  unfold withNames
  conv => rhs; rw [← List.map_id (symsByAddr syms)]
  refine List.map_congr_left fun p hp => ?_
  have := h p hp
  obtain ⟨k, s, n⟩ := p
  simp only at this
  rw [this]; rfl

/-! ## The loop with the caches -/

/-- The entries of a dictionary are filed under their offsets. -/
def Filed (D : Dict Nat (Die × CU)) : Prop := KeysNodup D ∧ ∀ p ∈ D, p.1 = p.2.1.offset

/-- The caches of the names of units. -/
def NamesOk (e : ElfFile) (D : Dict Nat (Die × CU)) (A : AttrId → Option EVal × Option Str) : Prop :=
  ∀ p ∈ D, ∀ a, dget p.2.1.attrs 3 = some a →
    A (p.2.2, p.2.1.offset, 3) = (none, none) ∨
    ∃ v t, A (p.2.2, p.2.1.offset, 3) = (some v, some t) ∧ (e.getAttrStr ⟨a, none, none⟩).1 = .ok t

/-- The only caches changed are those of names. -/
def SameLocs (A A' : AttrId → Option EVal × Option Str) : Prop := ∀ u d, A' (u, d, 2) = A (u, d, 2)

theorem getAttrStr_fresh {e : ElfFile} {a : DAttr} {t : Str} (h : (e.getAttrStr ⟨a, none, none⟩).1 = .ok t) :
    ∃ v, (e.getAttrStr ⟨a, none, none⟩).2 = ⟨a, some v, some t⟩ := by
  unfold ElfFile.getAttrStr ElfFile.getAttrEval at h ⊢
  simp only at h ⊢
  cases hv : e.evalAttr a.form a.value with
  | error r => rw [hv] at h; cases h
  | ok v =>
    simp only [hv] at h ⊢
    cases ht : attrText v a.value with
    | error r => rw [ht] at h; cases h
    | ok s => simp only [ht] at h ⊢; cases h; exact ⟨v, rfl⟩

theorem lookupDie_mem {D : Dict Nat (Die × CU)} {k : Int} {c : Die × CU} (h : lookupDie D k = .ok c) : ∃ q, (q, c) ∈ D := by
  unfold lookupDie at h
  split at h
  · cases h
  · split at h
    · rename_i x hx; cases h; exact ⟨_, mem_of_dget hx⟩
    · cases h

theorem accCuName_spec {e : ElfFile} {D : Dict Nat (Die × CU)} (hD : Filed D) {o : ElfObj} (hA : NamesOk e D o.attrs) (x : Die × CU) :
    (accCuName e D x o).1 = e.cuNameOf D x ∧ (∀ n, e.cuNameOf D x = .ok n → NamesOk e D (accCuName e D x o).2.attrs) ∧
      SameLocs o.attrs (accCuName e D x o).2.attrs ∧ (accCuName e D x o).2.names = o.names := by
  unfold accCuName ElfFile.cuNameOf Acc.bind Acc.lift
  cases hy : originDie D x with
  | error r => exact ⟨rfl, (fun _ h => nomatch h), fun _ _ => rfl, rfl⟩
  | ok y =>
    simp only [bind, Except.bind]
    cases hc : lookupDie D y.2.dieOff with
    | error r => exact ⟨rfl, (fun _ h => nomatch h), fun _ _ => rfl, rfl⟩
    | ok c =>
      simp only
      cases ha : dget c.1.attrs 3 with
      | none => exact ⟨rfl, (fun _ h => nomatch h), fun _ _ => rfl, rfl⟩
      | some a =>
        simp only [accAttr]
        obtain ⟨q, hq⟩ := lookupDie_mem hc
        have hq' : q = c.1.offset := hD.2 _ hq
        have hloc : SameLocs o.attrs (fun i => if i = ((c.2, c.1.offset, 3) : AttrId) then
            ((e.getAttrStr ⟨a, (o.attrs (c.2, c.1.offset, 3)).1, (o.attrs (c.2, c.1.offset, 3)).2⟩).2.evaluated,
             (e.getAttrStr ⟨a, (o.attrs (c.2, c.1.offset, 3)).1, (o.attrs (c.2, c.1.offset, 3)).2⟩).2.string) else o.attrs i) := by
          intro u d
          simp only
          rw [if_neg]
          intro h
          have := congrArg (fun i : AttrId => i.2.2) h
          simp at this
        rcases hA _ hq a ha with h1 | ⟨v, t, h1, h2⟩
        · simp only at h1
          refine ⟨by rw [h1], fun n hn => ?_, hloc, trivial⟩
          obtain ⟨v, hv⟩ := getAttrStr_fresh hn
          intro p hp b hb
          simp only
          split
          · rename_i hid
            have e1 : p.2.1.offset = c.1.offset := congrArg (fun i : AttrId => i.2.1) hid
            have e2 : p = (q, c) := by
              have g1 := dget_of_mem hD.1 (k := p.1) (v := p.2) hp
              have g2 := dget_of_mem hD.1 hq
              have : p.1 = q := by rw [hD.2 p hp, e1, hq']
              rw [this, g2] at g1
              have := Option.some.inj g1
              exact Prod.ext ‹p.1 = q› this.symm
            subst e2
            simp only at hb
            rw [ha] at hb
            cases hb
            rw [h1, hv]
            exact .inr ⟨v, n, rfl, hn⟩
          · exact hA p hp b hb
        · simp only at h1
          have e3 : e.getAttrStr ⟨a, some v, some t⟩ = (.ok t, ⟨a, some v, some t⟩) := by unfold ElfFile.getAttrStr; rfl
          refine ⟨by rw [h1, e3, h2], fun n hn => ?_, hloc, trivial⟩
          intro p hp b hb
          simp only
          split
          · rename_i hid
            rw [h1, e3]
            have := hA p hp b hb
            rw [hid] at this
            rcases this with g | ⟨v', t', g1, g2⟩
            · rw [h1] at g; cases g
            · rw [h1] at g1; cases g1; exact .inr ⟨v, t, rfl, g2⟩
          · exact hA p hp b hb

/-- An entry whose location is evaluated. -/
def hasLocation (x : Die × CU) : Prop := x.1.tag = 0x34 ∧ dget x.1.attrs 2 ≠ none

theorem accAddr_spec {e : ElfFile} {x : Die × CU} {o : ElfObj} (h : hasLocation x → (o.attrs (x.2, x.1.offset, 2)).1 = none) :
    (accAddr e x o).1 = e.dieAddr x ∧ (accAddr e x o).2.names = o.names ∧
      (∀ u d k, (k = 2 → (u, d) ≠ (x.2, x.1.offset)) → (accAddr e x o).2.attrs (u, d, k) = o.attrs (u, d, k)) ∧
      (∀ r, e.dieAddr x = .ok r → hasLocation x → ((accAddr e x o).2.attrs (x.2, x.1.offset, 2)).1 ≠ none) := by
  unfold accAddr ElfFile.dieAddr
  by_cases ht : x.1.tag = 0x2E
  · have hn : ¬ hasLocation x := fun h => by have := h.1; omega
    rw [if_pos ht, if_pos ht]
    cases dget x.1.attrs 0x11 with
    | none => exact ⟨rfl, rfl, fun _ _ _ _ => rfl, fun _ _ h => absurd h hn⟩
    | some a => exact ⟨rfl, rfl, fun _ _ _ _ => rfl, fun _ _ h => absurd h hn⟩
  rw [if_neg ht, if_neg ht]
  by_cases hv : x.1.tag = 0x34
  · rw [if_pos hv, if_pos hv]
    cases ha : dget x.1.attrs 2 with
    | none => exact ⟨rfl, rfl, fun _ _ _ _ => rfl, fun _ _ h => absurd ha h.2⟩
    | some a =>
      have h0 := h ⟨hv, by rw [ha]; exact fun h => nomatch h⟩
      have he : e.getAttrEval ⟨a, none, (o.attrs (x.2, x.1.offset, 2)).2⟩ =
          match e.evalAttr a.form a.value with
          | .error r => (.error r, ⟨a, none, (o.attrs (x.2, x.1.offset, 2)).2⟩)
          | .ok v => (.ok v, ⟨a, some v, (o.attrs (x.2, x.1.offset, 2)).2⟩) := by
        unfold ElfFile.getAttrEval
        rfl
      have hother : ∀ (u : CU) (d k : Nat), (k = 2 → (u, d) ≠ (x.2, x.1.offset)) → ((u, d, k) : AttrId) ≠ (x.2, x.1.offset, 2) := by
        intro u d k hk hid
        cases hid
        exact hk rfl rfl
      simp only [Acc.bind, accAttr, h0, he]
      cases hev : e.evalAttr a.form a.value with
      | error r =>
        refine ⟨rfl, rfl, fun u d k hk => ?_, fun r h => nomatch h⟩
        simp only
        rw [if_neg (hother u d k hk)]
      | ok v =>
        cases v with
        | none_ =>
          refine ⟨rfl, rfl, fun u d k hk => ?_, fun _ _ _ => ?_⟩
          · simp only [Acc.pure]; rw [if_neg (hother u d k hk)]
          · simp [Acc.pure]
        | num n =>
          refine ⟨rfl, rfl, fun u d k hk => ?_, fun _ _ _ => ?_⟩
          · simp only [Acc.pure]; rw [if_neg (hother u d k hk)]
          · simp [Acc.pure]
        | str n =>
          refine ⟨rfl, rfl, fun u d k hk => ?_, fun r h => nomatch h⟩
          simp only [Acc.fail]; rw [if_neg (hother u d k hk)]
  · rw [if_neg hv, if_neg hv]
    exact ⟨rfl, rfl, fun _ _ _ _ => rfl, fun _ _ h => absurd h.1 hv⟩

theorem namesOk_congr {e : ElfFile} {D : Dict Nat (Die × CU)} {A A' : AttrId → Option EVal × Option Str} (h : NamesOk e D A)
    (hc : ∀ u d, A' (u, d, 3) = A (u, d, 3)) : NamesOk e D A' := by
  intro p hp a ha
  rw [hc]
  exact h p hp a ha

theorem accNameStep_spec {e : ElfFile} {D : Dict Nat (Die × CU)} (hD : Filed D) (B : Dict Nat (RawSym × Option Str)) {o : ElfObj}
    (hA : NamesOk e D o.attrs) {x : Die × CU} (h : hasLocation x → (o.attrs (x.2, x.1.offset, 2)).1 = none) :
    (accNameStep e D B x o).1 = (asgOf e D B x).map (fun _ => ()) ∧
      (∀ a, asgOf e D B x = .ok a → NamesOk e D (accNameStep e D B x o).2.attrs ∧ (accNameStep e D B x o).2.names = updName o.names a ∧
        (hasLocation x → ((accNameStep e D B x o).2.attrs (x.2, x.1.offset, 2)).1 ≠ none)) ∧
      (∀ u d, (u, d) ≠ (x.2, x.1.offset) → (accNameStep e D B x o).2.attrs (u, d, 2) = o.attrs (u, d, 2)) := by
  obtain ⟨h1, h2, h3, h4⟩ := accAddr_spec (e := e) h
  unfold accNameStep asgOf Acc.bind
  have hN : NamesOk e D (accAddr e x o).2.attrs := namesOk_congr hA (fun u d => h3 u d 3 (by omega))
  generalize hr : accAddr e x o = r at h1 h2 h3 h4 hN ⊢
  obtain ⟨r1, o1⟩ := r
  simp only at h1 h2 h3 h4 hN
  subst h1
  have h3' : ∀ u d, (u, d) ≠ (x.2, x.1.offset) → o1.attrs (u, d, 2) = o.attrs (u, d, 2) := fun u d hu => h3 u d 2 (fun _ => hu)
  cases hda : e.dieAddr x with
  | error r => exact ⟨rfl, (fun _ h => nomatch h), h3'⟩
  | ok addr =>
    have h4 := h4 addr hda
    cases addr with
    | none => exact ⟨rfl, fun a ha => by cases ha; exact ⟨hN, h2, h4⟩, h3'⟩
    | some addr =>
      simp only
      by_cases hneg : addr < 0
      · simp only [hneg, if_true]
        exact ⟨rfl, fun a ha => by cases ha; exact ⟨hN, h2, h4⟩, h3'⟩
      · simp only [hneg, if_false]
        cases hb : dget B addr.toNat with
        | none => exact ⟨rfl, fun a ha => by cases ha; exact ⟨hN, h2, h4⟩, h3'⟩
        | some s =>
          obtain ⟨g1, g2, g3, g4⟩ := accCuName_spec (e := e) hD hN x
          simp only
          generalize hr' : accCuName e D x o1 = r at g1 g2 g3 g4 ⊢
          obtain ⟨r1, o2⟩ := r
          simp only at g1 g2 g3 g4
          subst g1
          cases hn : e.cuNameOf D x with
          | error r => exact ⟨rfl, (fun _ h => nomatch h), fun u d hu => (g3 u d).trans (h3' u d hu)⟩
          | ok n =>
            refine ⟨rfl, fun a ha => ?_, fun u d hu => ?_⟩
            · cases ha
              refine ⟨g2 n hn, ?_, fun hl => ?_⟩
              · simp only [accSetName, g4, h2]; rfl
              · simp only [accSetName]; rw [g3]; exact h4 hl
            · simp only [accSetName]; rw [g3]; exact h3' u d hu

theorem accLoop_spec {e : ElfFile} {D : Dict Nat (Die × CU)} (hD : Filed D) (B : Dict Nat (RawSym × Option Str)) (L : Dict Nat (Die × CU)) (hL : Filed L)
    {o : ElfObj} (hA : NamesOk e D o.attrs) (h : ∀ p ∈ L, hasLocation p.2 → (o.attrs (p.2.2, p.2.1.offset, 2)).1 = none) :
    (accLoop e D B L o).1 = (asgAll e D B L).map (fun _ => ()) ∧
      (∀ l, asgAll e D B L = .ok l → NamesOk e D (accLoop e D B L o).2.attrs ∧ (accLoop e D B L o).2.names = updNames o.names l ∧
        (∀ p ∈ L, hasLocation p.2 → ((accLoop e D B L o).2.attrs (p.2.2, p.2.1.offset, 2)).1 ≠ none)) ∧
      (∀ u d, (∀ p ∈ L, p.2.1.offset ≠ d) → (accLoop e D B L o).2.attrs (u, d, 2) = o.attrs (u, d, 2)) := by
  induction L generalizing o with
  | nil => exact ⟨rfl, fun l hl => by cases hl; exact ⟨hA, rfl, fun p hp => by cases hp⟩, fun _ _ _ => rfl⟩
  | cons p t ih =>
    obtain ⟨h1, h2, h3⟩ := accNameStep_spec (e := e) hD B hA (h p (by simp))
    have hnot : ∀ q ∈ t, q.2.1.offset ≠ p.2.1.offset := by
      intro q hq heq
      have := (KeysNodup.cons_iff.mp hL.1).1
      apply this
      rw [hL.2 p (by simp), ← heq, ← hL.2 q (by simp [hq])]
      exact List.mem_map_of_mem (f := Prod.fst) hq
    have hLt : Filed t := ⟨(KeysNodup.cons_iff.mp hL.1).2, fun q hq => hL.2 q (by simp [hq])⟩
    unfold accLoop asgAll Acc.bind
    generalize hr : accNameStep e D B p.2 o = r at h1 h2 h3 ⊢
    obtain ⟨r1, o1⟩ := r
    simp only at h1 h2 h3
    subst h1
    cases ha : asgOf e D B p.2 with
    | error r =>
      refine ⟨rfl, (fun _ h => nomatch h), fun u d hd => ?_⟩
      exact h3 u d (fun hid => hd p (by simp) (congrArg Prod.snd hid).symm)
    | ok a =>
      obtain ⟨k1, k2, k3⟩ := h2 a ha
      have hpre : ∀ q ∈ t, hasLocation q.2 → (o1.attrs (q.2.2, q.2.1.offset, 2)).1 = none := by
        intro q hq hl
        rw [h3 _ _ (fun hid => hnot q hq (congrArg Prod.snd hid))]
        exact h q (by simp [hq]) hl
      obtain ⟨i1, i2, i3⟩ := ih hLt k1 hpre
      show (accLoop e D B t o1).1 = _ ∧ (∀ l, _ → NamesOk e D (accLoop e D B t o1).2.attrs ∧ (accLoop e D B t o1).2.names = _ ∧
        (∀ q ∈ p :: t, _ → ((accLoop e D B t o1).2.attrs _).1 ≠ none)) ∧ (∀ u d, _ → (accLoop e D B t o1).2.attrs _ = _)
      refine ⟨?_, fun l hl => ?_, fun u d hd => ?_⟩
      · rw [i1]; cases asgAll e D B t <;> rfl
      · cases hat : asgAll e D B t with
        | error r => rw [hat] at hl; cases hl
        | ok l' =>
          rw [hat] at hl
          cases hl
          obtain ⟨j1, j2, j3⟩ := i2 l' hat
          refine ⟨j1, by rw [j2, k2]; rfl, fun q hq hl => ?_⟩
          rcases List.mem_cons.mp hq with rfl | hq
          · rw [i3 _ _ (fun q' hq' => hnot q' hq')]
            exact k3 hl
          · exact j3 q hq hl
      · rw [i3 u d (fun q hq => hd q (by simp [hq])), h3 u d (fun hid => hd p (by simp) (congrArg Prod.snd hid).symm)]

/-- Once all locations are evaluated, the loop ends with `KeyError` at the first. -/
theorem accLoop_again {e : ElfFile} {D : Dict Nat (Die × CU)} (hD : Filed D) (B : Dict Nat (RawSym × Option Str)) (L : Dict Nat (Die × CU))
    {o : ElfObj} (hA : NamesOk e D o.attrs) (hev : ∀ p ∈ L, hasLocation p.2 → (o.attrs (p.2.2, p.2.1.offset, 2)).1 ≠ none)
    (hFL : Filed L) {l : List (Option (Nat × Str))} (hok : asgAll e D B L = .ok l) (hex : ∃ p ∈ L, hasLocation p.2) :
    (accLoop e D B L o).1 = .error .keyError := by
  induction L generalizing o l with
  | nil => obtain ⟨p, hp, _⟩ := hex; cases hp
  | cons p t ih =>
    unfold accLoop Acc.bind
    by_cases hl : hasLocation p.2
    · obtain ⟨ht, ha⟩ := hl
      have hne := hev p (by simp) ⟨ht, ha⟩
      obtain ⟨a, ha⟩ := Option.ne_none_iff_exists'.mp ha
      obtain ⟨v, hv⟩ := Option.ne_none_iff_exists'.mp hne
      have : accNameStep e D B p.2 o = (.error .keyError, (accNameStep e D B p.2 o).2) := by
        have h1 : (accNameStep e D B p.2 o).1 = .error .keyError := by
          unfold accNameStep accAddr Acc.bind
          rw [if_neg (by omega), if_pos ht]
          simp only [ha, accAttr, ElfFile.getAttrEval, hv]
        exact Prod.ext h1 rfl
      rw [this]
    · obtain ⟨h1, h2, h3⟩ := accNameStep_spec (e := e) hD B hA (fun h => absurd h hl)
      generalize hr : accNameStep e D B p.2 o = r at h1 h2 h3 ⊢
      obtain ⟨r1, o1⟩ := r
      simp only at h1 h2 h3
      subst h1
      unfold asgAll at hok
      cases ha : asgOf e D B p.2 with
      | error r => rw [ha] at hok; cases hok
      | ok a =>
        rw [ha] at hok
        cases hat : asgAll e D B t with
        | error r => simp only [hat] at hok; cases hok
        | ok l' =>
          have hnot : ∀ q ∈ t, q.2.1.offset ≠ p.2.1.offset := by
            intro q hq heq
            apply (KeysNodup.cons_iff.mp hFL.1).1
            rw [hFL.2 p (by simp), ← heq, ← hFL.2 q (by simp [hq])]
            exact List.mem_map_of_mem (f := Prod.fst) hq
          refine ih (h2 a ha).1 (fun q hq hql => ?_) ⟨(KeysNodup.cons_iff.mp hFL.1).2, fun q hq => hFL.2 q (by simp [hq])⟩ hat ?_
          · rw [h3 _ _ (fun hid => hnot q hq (congrArg Prod.snd hid))]
            exact hev q (by simp [hq]) hql
          · obtain ⟨q, hq, hql⟩ := hex
            rcases List.mem_cons.mp hq with rfl | hq
            · exact absurd hql hl
            · exact ⟨q, hq, hql⟩

end EspSize
