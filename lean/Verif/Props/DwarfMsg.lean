import Verif.Spec.DwarfMsg
import Verif.Props.DwarfErrors
import Verif.Props.MarkupExact
import Verif.Props.WarnText
import Verif.Props.Dump
/-! # C118: the texts about debugging information -/
namespace EspSize

/-! ### Units -/

theorem restProblem_spec (o : Order) (d : Bytes) (offset lenBytes length offSize off : Nat) :
    (cuRest o d offset lenBytes length offSize off = .error .elf ↔ ∃ p, restProblem o d offSize off = some p) ∧
    ∀ p, restProblem o d offSize off = some p ↔
      (5 < fieldAt o d off 2 ∧ p = .version (fieldAt o d off 2)) ∨
      (fieldAt o d off 2 ≤ 5 ∧ ∃ n, fieldAt o d (off + if fieldAt o d off 2 = 5 then 3 else 2 + offSize) 1 = n ∧ n ≠ 4 ∧ n ≠ 8 ∧ p = .addrSize n) := by
  unfold cuRest restProblem
  have e : ∀ k i, (getUint o d k i).1 = fieldAt o d i k := fun _ _ => rfl
  have e2 : ∀ k i, (getUint o d k i).2 = i + k := fun _ _ => rfl
  simp only [e, e2]
  by_cases h5 : fieldAt o d off 2 = 5
  · simp only [h5, if_true]
    have e3 : off + 2 + 1 = off + 3 := by omega
    rw [e3]
    by_cases h : fieldAt o d (off + 3) 1 = 4 ∨ fieldAt o d (off + 3) 1 = 8
    · simp only [h, if_true]
      refine ⟨by simp, fun p => ⟨fun hp => (by cases hp), ?_⟩⟩
      rintro (⟨h1, _⟩ | ⟨_, n, rfl, h4, h8, _⟩)
      · omega
      · omega
    · simp only [h, if_false]
      refine ⟨by simp, fun p => ⟨fun hp => ?_, ?_⟩⟩
      · cases hp
        exact .inr ⟨by omega, _, rfl, by omega, by omega, rfl⟩
      · rintro (⟨h1, _⟩ | ⟨_, n, rfl, h4, h8, rfl⟩)
        · omega
        · rfl
  · simp only [h5, if_false]
    have e3 : off + 2 + offSize = off + (2 + offSize) := by omega
    rw [e3]
    by_cases h4 : fieldAt o d off 2 ≤ 4
    · simp only [h4, if_true]
      by_cases h : fieldAt o d (off + (2 + offSize)) 1 = 4 ∨ fieldAt o d (off + (2 + offSize)) 1 = 8
      · simp only [h, if_true]
        refine ⟨by simp, fun p => ⟨fun hp => (by cases hp), ?_⟩⟩
        rintro (⟨h1, _⟩ | ⟨_, n, rfl, h4, h8, _⟩)
        · omega
        · omega
      · simp only [h, if_false]
        refine ⟨by simp, fun p => ⟨fun hp => ?_, ?_⟩⟩
        · cases hp
          exact .inr ⟨by omega, _, rfl, by omega, by omega, rfl⟩
        · rintro (⟨h1, _⟩ | ⟨_, n, rfl, h4, h8, rfl⟩)
          · omega
          · rfl
    · simp only [h4, if_false]
      refine ⟨by simp, fun p => ⟨fun hp => ?_, ?_⟩⟩
      · cases hp
        exact .inl ⟨by omega, rfl⟩
      · rintro (⟨h1, rfl⟩ | ⟨h1, _⟩)
        · rfl
        · omega

/-- **C118** the exception is about what is wrong. -/
theorem C118_unit (o : Order) (d : Bytes) (off : Nat) (p : DwarfProblem) : unitProblem o d off = some p ↔ UnitWrong o d off p := by
  have key : ∀ h k, headerAt o d off = (h, k) → (restProblem o d k h = some p ↔ UnitWrong o d off p) := by
    intro h k hh
    rw [(restProblem_spec o d 0 0 0 k h).2 p]
    constructor
    · rintro (⟨h1, rfl⟩ | ⟨h1, n, h2, h4, h8, rfl⟩)
      · exact .version _ (by rw [hh]) h1
      · refine .addrSize n (by rw [hh]; exact h1) ?_ h4 h8
        unfold addrSizeAt
        rw [hh]
        exact h2
    · intro hw
      cases hw with
      | version v h1 h2 => rw [hh] at h1; subst h1; exact .inl ⟨h2, rfl⟩
      | addrSize n h1 h2 h4 h8 =>
        unfold addrSizeAt at h2
        rw [hh] at h1 h2
        exact .inr ⟨h1, n, h2, h4, h8, rfl⟩
  unfold unitProblem
  dsimp only
  by_cases h : fieldAt o d off 4 = 0xFFFFFFFF
  · have h' : (getUint o d 4 off).1 = 0xFFFFFFFF := h
    rw [if_pos h']
    exact key (off + 12) 8 (by unfold headerAt; rw [if_pos h])
  · have h' : ¬ (getUint o d 4 off).1 = 0xFFFFFFFF := h
    rw [if_neg h']
    exact key (off + 4) 4 (by unfold headerAt; rw [if_neg h])

/-- **C118** a unit is refused exactly if its version or its address size is wrong. -/
theorem C118_unit_iff (o : Order) (d : Bytes) (off : Nat) : cuAt o d off = .error .elf ↔ ∃ p, UnitWrong o d off p := by
  simp only [← C118_unit]
  unfold cuAt unitProblem
  dsimp only
  split
  · exact (restProblem_spec _ _ _ _ _ _ _).1
  · exact (restProblem_spec _ _ _ _ _ _ _).1

/-- A unit raises nothing else. -/
theorem cuAt_elf (o : Order) (d : Bytes) (off : Nat) : Raises [.elf] (cuAt o d off) := by
  have hr : ∀ a b c e f, Raises [.elf] (cuRest o d a b c e f) := by
    intro a b c e f
    unfold cuRest
    dsimp only
    repeat' refine raises_ite ?_ ?_
    all_goals first | exact .ok | exact .error (by decide)
  unfold cuAt
  dsimp only
  exact raises_ite (hr _ _ _ _ _) (hr _ _ _ _ _)

/-- **C118** the units of a file are refused exactly if going from unit to unit one gets to a unit that is wrong, and the exception is about
this unit. -/
theorem C118_units (o : Order) (d : Bytes) (off : Nat) (p : DwarfProblem) :
    unitsProblem o d off = some p ↔ ∃ to, UnitsTo o d off to ∧ to < d.length ∧ UnitWrong o d to p := by
  have key : ∀ k off, d.length - off ≤ k → (unitsProblem o d off = some p ↔ ∃ to, UnitsTo o d off to ∧ to < d.length ∧ UnitWrong o d to p) := by
    intro k
    induction k using Nat.strongRecOn with
    | ind k ih =>
      intro off hk
      unfold unitsProblem
      by_cases h : off < d.length
      · rw [dif_pos h]
        split
        · rename_i x hc
          rw [C118_unit]
          constructor
          · exact fun hw => ⟨off, .here off, h, hw⟩
          · rintro ⟨to, ht, hl, hw⟩
            cases ht with
            | here => exact hw
            | next _ _ u _ hc' _ => rw [hc] at hc'; cases hc'
        · rename_i cu hc
          have hadv := cuAt_advances hc h
          rw [ih (d.length - (off + (cu.lenBytes + cu.length))) (by omega) _ (Nat.le_refl _)]
          constructor
          · rintro ⟨to, ht, hr⟩
            exact ⟨to, .next off to cu h hc ht, hr⟩
          · rintro ⟨to, ht, hl, hw⟩
            cases ht with
            | here =>
              have := (C118_unit_iff o d off).mpr ⟨p, hw⟩
              rw [hc] at this
              cases this
            | next _ _ u _ hc' ht =>
              rw [hc] at hc'
              cases hc'
              exact ⟨to, ht, hl, hw⟩
      · rw [dif_neg h]
        refine ⟨fun hp => (by cases hp), ?_⟩
        rintro ⟨to, ht, hl, _⟩
        cases ht with
        | here => exact absurd hl h
        | next _ _ u h' _ _ => exact absurd h' h
  exact key _ off (Nat.le_refl _)

/-- **C118** they are refused by this exception and by no other. -/
theorem C118_units_iff (o : Order) (d : Bytes) (off : Nat) :
    (cusFrom o d off = .error .elf ↔ ∃ p, unitsProblem o d off = some p) ∧ Raises [.elf] (cusFrom o d off) := by
  have key : ∀ k off, d.length - off ≤ k →
      (cusFrom o d off = .error .elf ↔ ∃ p, unitsProblem o d off = some p) ∧ Raises [.elf] (cusFrom o d off) := by
    intro k
    induction k using Nat.strongRecOn with
    | ind k ih =>
      intro off hk
      by_cases h : off < d.length
      · cases hc : cuAt o d off with
        | error x =>
          have hx : x = .elf := by simpa using cuAt_elf o d off x hc
          subst hx
          have e1 : cusFrom o d off = .error .elf := by
            unfold cusFrom
            rw [dif_pos h]
            split
            · rename_i x hx; rw [hc] at hx; cases hx; rfl
            · rename_i cu hx; rw [hc] at hx; cases hx
          have e2 : unitsProblem o d off = unitProblem o d off := by
            unfold unitsProblem
            rw [dif_pos h]
            split
            · rfl
            · rename_i cu hx; rw [hc] at hx; cases hx
          rw [e1, e2]
          refine ⟨⟨fun _ => ?_, fun _ => rfl⟩, .error (by decide)⟩
          obtain ⟨p, hp⟩ := (C118_unit_iff o d off).mp hc
          exact ⟨p, (C118_unit o d off p).mpr hp⟩
        | ok cu =>
          have hadv := cuAt_advances hc h
          have e1 : cusFrom o d off = (cusFrom o d (off + (cu.lenBytes + cu.length)) >>= fun t => .ok (cu :: t)) := by
            rw [cusFrom.eq_def o d off]
            rw [dif_pos h]
            split
            · rename_i x hx; rw [hc] at hx; cases hx
            · rename_i cu' hx; rw [hc] at hx; cases hx; rfl
          have e2 : unitsProblem o d off = unitsProblem o d (off + (cu.lenBytes + cu.length)) := by
            rw [unitsProblem.eq_def o d off]
            rw [dif_pos h]
            split
            · rename_i x hx; rw [hc] at hx; cases hx
            · rename_i cu' hx; rw [hc] at hx; cases hx; rfl
          obtain ⟨i1, i2⟩ := ih (d.length - (off + (cu.lenBytes + cu.length))) (by omega) _ (Nat.le_refl _)
          rw [e1, e2]
          refine ⟨?_, .bind i2 fun _ _ => .ok⟩
          rw [← i1]
          cases cusFrom o d (off + (cu.lenBytes + cu.length)) with
          | error x => exact ⟨fun h => by cases h; rfl, fun h => by cases h; rfl⟩
          | ok t => exact ⟨fun h => (by cases h), fun h => by cases h⟩
      · have e1 : cusFrom o d off = .ok [] := by unfold cusFrom; rw [dif_neg h]
        have e2 : unitsProblem o d off = none := by unfold unitsProblem; rw [dif_neg h]
        rw [e1, e2]
        exact ⟨by simp, .ok⟩
  exact key _ off (Nat.le_refl _)

/-! ### Forms -/

/-- **C118** an attribute is refused exactly if its form is none of those that are supported, and the exception has the form. -/
theorem C118_form (E : FormEnv) (a : AbbrevAttr) (d : Bytes) (off : Nat) :
    (attrValue E a d off = .error .elf ↔ ¬ SupportedForm a.form) ∧
    ∀ p, attrProblem E a d off = some p ↔ ¬ SupportedForm a.form ∧ p = .form a.form := by
  have h1 : attrValue E a d off = .error .elf ↔ ¬ SupportedForm a.form := by
    constructor
    · intro h hs
      obtain ⟨g1, g2, g3, g4, g5⟩ := hs
      have : Raises [.indexError, .valueError] (attrValue E a d off) := by
        have hu : ∀ i, Raises [.indexError, .valueError] (getUleb128 d i) := by
          intro i
          unfold getUleb128
          exact .bind ((ulebLoop_raises _ _ _).mono (by decide)) fun _ _ => .ok
        have hb : ∀ i, Raises [.indexError, .valueError] (byteBefore d i) := by
          intro i
          cases i with
          | zero =>
            show Raises _ (match d.getLast? with | some b => .ok b.toNat | none => .error .indexError : Except Err Nat)
            cases d.getLast? with
            | none => exact .error (by decide)
            | some b => exact .ok
          | succ i =>
            show Raises _ (byteAt d i)
            unfold byteAt
            cases d[i]? with
            | none => exact .error (by decide)
            | some b => exact .ok
        have hsl : Raises [.indexError, .valueError] (getSleb128 d off) := by
          unfold getSleb128
          refine .bind (hu _) fun _ _ => .bind (hb _) fun _ _ => ?_
          split <;> exact .ok
        have hst : Raises [.indexError, .valueError] (getString d off) := by
          unfold getString
          exact .bind ((indexNul_raises d off).mono (by decide)) fun _ _ => .ok
        unfold attrValue ulebNum
        simp only []
        have cond : ∀ {c : Prop} [Decidable c] {x y : Except Err (AVal × Nat)}, (c → Raises [.indexError, .valueError] x) →
            (¬ c → Raises [.indexError, .valueError] y) → Raises [.indexError, .valueError] (if c then x else y) := by
          intro c _ x y hx hy
          split
          · exact hx (by assumption)
          · exact hy (by assumption)
        repeat' refine cond (fun _ => ?_) (fun _ => ?_)
        all_goals first
          | exact Raises.ok
          | exact Raises.bind (hu _) fun _ _ => .ok
          | exact Raises.bind hsl fun _ _ => .ok
          | exact Raises.bind hst fun _ _ => .ok
          | (exfalso; omega)
      have := this _ h
      simp at this
    · intro hs
      unfold SupportedForm at hs
      unfold attrValue
      simp only []
      repeat rw [if_neg (by omega)]
  refine ⟨h1, fun p => ?_⟩
  unfold attrProblem
  constructor
  · intro h
    split at h
    · rename_i he
      cases h
      exact ⟨h1.mp he, rfl⟩
    · cases h
  · rintro ⟨hs, rfl⟩
    rw [h1.mpr hs]

/-! ### Expressions -/

theorem exprLoop_spec (o : Order) (n : Nat) (v : Bytes) (k : Nat) : ∀ (off : Nat) (stack : List Nat), v.length - off ≤ k → ∀ l,
    (exprLoop o n v off stack = some l ↔ ∃ l', AddrOps o n (v.drop off) l' ∧ l = stack ++ l') := by
  induction k using Nat.strongRecOn with
  | ind k ih =>
    intro off stack hk l
    rw [exprLoop.eq_def]
    by_cases h : off < v.length
    · rw [dif_pos h]
      have hd : v.drop off = v[off] :: v.drop (off + 1) := List.drop_eq_getElem_cons h
      rw [List.getElem?_eq_getElem h]
      by_cases h3 : v[off] = 3
      · rw [if_pos (by rw [h3]), ih (v.length - (off + 1 + n)) (by omega) _ _ (Nat.le_refl _) l, hd, h3]
        have hn : (getUint o v n (off + 1)).1 = fromBytes o ((v.drop (off + 1)).take n) := rfl
        rw [hn]
        have hdd : v.drop (off + 1 + n) = (v.drop (off + 1)).drop n := by rw [List.drop_drop]
        have ht : v.drop (off + 1) = (v.drop (off + 1)).take n ++ v.drop (off + 1 + n) := by
          rw [hdd, List.take_append_drop]
        constructor
        · rintro ⟨l', ha, rfl⟩
          refine ⟨_, ?_, List.append_assoc ..⟩
          have : AddrOps o n (3 :: ((v.drop (off + 1)).take n ++ v.drop (off + 1 + n))) (fromBytes o ((v.drop (off + 1)).take n) :: l') := by
            refine .op _ _ l' ?_ ha
            simp only [List.length_take, List.length_drop, List.drop_eq_nil_iff]
            omega
          rw [← ht] at this
          exact this
        · rintro ⟨l', ha, rfl⟩
          generalize hr : 3 :: v.drop (off + 1) = r at ha
          cases ha with
          | nil => cases hr
          | op a t l'' hl ha =>
            injection hr with _ hr
            have hat : (v.drop (off + 1)).take n = a ∧ v.drop (off + 1 + n) = t := by
              rw [hdd, hr]
              rcases hl with hl | ⟨hl, rfl⟩
              · rw [← hl]; simp
              · simp only [List.append_nil]
                exact ⟨List.take_of_length_le (by omega), List.drop_eq_nil_iff.mpr (by omega)⟩
            rw [hat.1, hat.2]
            exact ⟨l'', ha, by simp⟩
      · rw [if_neg (by simpa using h3), hd]
        refine ⟨fun h => (by cases h), ?_⟩
        rintro ⟨l', ha, _⟩
        generalize hr : v[off] :: v.drop (off + 1) = r at ha
        cases ha with
        | nil => cases hr
        | op a t l'' hl ha => injection hr with hr _; exact absurd hr h3
    · rw [dif_neg h, List.drop_eq_nil_iff.mpr (by omega)]
      constructor
      · intro h; cases h; exact ⟨[], .nil, by simp⟩
      · rintro ⟨l', ha, rfl⟩
        cases ha with
        | nil => simp

/-- **C118** an expression is refused exactly if it consists of addresses only, and not of one. -/
theorem C118_stack (e : ElfFile) (b : Bytes) (p : DwarfProblem) :
    (e.evalAttr 0x18 (.bytes b) = .error .elf ↔ ∃ l, AddrOps e.order e.addrSize b l ∧ l.length ≠ 1) ∧
    (stackProblem e.order e.addrSize b = some p ↔ ∃ l, AddrOps e.order e.addrSize b l ∧ l.length ≠ 1 ∧ p = .stack l) := by
  have hs := exprLoop_spec e.order e.addrSize b _ 0 [] (Nat.le_refl _)
  simp only [List.drop_zero, List.nil_append] at hs
  have he : e.evalAttr 0x18 (.bytes b) = match exprLoop e.order e.addrSize b 0 [] with
      | none => .ok .none_
      | some [x] => .ok (.num x)
      | some _ => .error .elf := by
    unfold ElfFile.evalAttr
    rw [if_neg (by decide), if_neg (by decide), if_neg (by decide), if_pos rfl]
    dsimp only
    cases exprLoop e.order e.addrSize b 0 [] with
    | none => rfl
    | some l =>
      match l with
      | [] => rfl
      | [x] => rfl
      | x :: y :: t => rfl
  rw [he]
  unfold stackProblem
  cases hx : exprLoop e.order e.addrSize b 0 [] with
  | none =>
    have : ∀ l, ¬ AddrOps e.order e.addrSize b l := fun l hl => by
      have := (hs l).mpr ⟨l, hl, rfl⟩
      rw [hx] at this
      cases this
    exact ⟨⟨fun h => (by cases h), fun ⟨l, hl, _⟩ => absurd hl (this l)⟩, fun h => (by cases h), fun ⟨l, hl, _⟩ => absurd hl (this l)⟩
  | some l =>
    obtain ⟨l', hl, rfl⟩ := (hs l).mp hx
    have hu : ∀ l', AddrOps e.order e.addrSize b l' → l' = l := fun l' hl' => by
      have := (hs l').mpr ⟨l', hl', rfl⟩
      rw [hx] at this
      exact (Option.some.inj this).symm
    dsimp only
    refine ⟨?_, ?_⟩
    · match l, hl, hu with
      | [], hl, hu => exact ⟨fun _ => ⟨_, hl, by simp⟩, fun _ => rfl⟩
      | [x], hl, hu => exact ⟨fun h => (by cases h), fun ⟨l', h1, h2⟩ => absurd (by rw [hu l' h1]; rfl) h2⟩
      | x :: y :: t, hl, hu => exact ⟨fun _ => ⟨_, hl, by simp⟩, fun _ => rfl⟩
    · constructor
      · intro h
        split at h
        · cases h
        · cases h; exact ⟨l, hl, by assumption, rfl⟩
      · rintro ⟨l', h1, h2, rfl⟩
        rw [hu l' h1] at h2 ⊢
        rw [if_neg h2]

/-! ### Texts -/

theorem natsRepr_body (l : List Nat) : Neutral (join (str ", ") (l.map fun n : Nat => intStr n)) := by
  induction l with
  | nil => intro c hc; cases hc
  | cons x t ih =>
    cases t with
    | nil => exact intStr_neutral x
    | cons y t =>
      intro c hc
      rcases List.mem_append.mp (show c ∈ (intStr x ++ str ", ") ++ join (str ", ") ((y :: t).map fun n : Nat => intStr n) from hc) with hc | hc
      · rcases List.mem_append.mp hc with hc | hc
        · exact intStr_neutral x c hc
        · exact neutral_lit (s := str ", ") (by decide) c hc
      · exact ih c hc

/-- The first character of a list of numbers. -/
theorem natsRepr_head (l : List Nat) : ∃ c t, join (str ", ") (l.map fun n : Nat => intStr n) ++ [']'] = c :: t ∧ tagStart c = false := by
  cases l with
  | nil => exact ⟨']', [], rfl, by decide⟩
  | cons x t =>
    obtain ⟨c, u, e, hc⟩ := toDigits_head x
    rw [← intStr_natCast] at e
    have ht : tagStart c = false := by
      cases h : tagStart c with
      | false => rfl
      | true =>
        exfalso
        rcases (tagStart_iff c).mp h with h | h
        · have h1 : c.toNat ≤ 57 := by
            simp only [Char.isDigit, Bool.and_eq_true, decide_eq_true_eq] at hc
            exact hc.2
          have : 'a'.toNat = 97 := rfl
          omega
        · simp only [List.mem_cons, List.not_mem_nil, or_false] at h
          rcases h with rfl | rfl | rfl <;> revert hc <;> decide
    cases t with
    | nil => exact ⟨c, u ++ [']'], by show intStr x ++ _ = _; rw [e]; rfl, ht⟩
    | cons y t =>
      refine ⟨c, (u ++ str ", ") ++ join (str ", ") ((y :: t).map fun n : Nat => intStr n) ++ [']'], ?_, ht⟩
      · show ((intStr x ++ str ", ") ++ join (str ", ") ((y :: t).map fun n : Nat => intStr n)) ++ [']'] = _
        rw [e]
        rfl

theorem formName_neutral (f : Nat) : Neutral ((dget formNames f).getD (str "unknown")) := by
  cases h : dget formNames f with
  | none => exact neutral_lit (by decide)
  | some s =>
    have hall : ∀ p ∈ formNames, p.2.all (fun c => c != '[' && c != '\\') = true := by decide +kernel
    exact neutral_lit (hall _ (mem_of_dget h))

/-- **C118** the text is shown as it is also by `log`. -/
theorem C118_shown (norm : Str → Str) (p : DwarfProblem) : renderE norm p.text = some p.text := by
  have h : NoMarkup p.text := by
    cases p with
    | version v => exact .after (neutral_lit (by decide)) (.of_noBracket fun h => (intStr_neutral _ _ h).1 rfl)
    | addrSize n => exact .after (neutral_lit (by decide)) (.of_noBracket fun h => (intStr_neutral _ _ h).1 rfl)
    | form f =>
      refine .after (a := _ ++ _ ++ _) ?_ (.of_noBracket fun h => (formName_neutral f _ h).1 rfl)
      intro c hc
      rcases List.mem_append.mp hc with hc | hc
      · rcases List.mem_append.mp hc with hc | hc
        · exact neutral_lit (s := str "unknown dwarf form ") (by decide) c hc
        · exact hexNum_neutral _ c hc
      · rw [List.mem_singleton.mp hc]; decide
    | stack l =>
      refine .after (neutral_lit (by decide)) ?_
      unfold natsRepr
      obtain ⟨c, t, e, ht⟩ := natsRepr_head l
      rw [e]
      refine .bracket ht (.of_noBracket fun h => ?_)
      rw [← e] at h
      rcases List.mem_append.mp h with h | h
      · exact (natsRepr_body l _ h).1 rfl
      · exact absurd h (by decide)
  exact (C98_verbatim_iff norm _).mpr ⟨h.tag, h.escape⟩

theorem hexDigits_inj {a b : Nat} (h : Nat.toDigits 16 a = Nat.toDigits 16 b) : a = b := by
  obtain ⟨x, _, hx, ex, ha⟩ := toDigits_hex a
  obtain ⟨y, _, hy, ey, hb⟩ := toDigits_hex b
  rw [ex, ey] at h
  have hinj : ∀ i, i < 16 → ∀ j, j < 16 → hexDigit i = hexDigit j → i = j := by decide +kernel
  have key : ∀ x y : List Nat, (∀ d ∈ x, d < 16) → (∀ d ∈ y, d < 16) → x.map hexDigit = y.map hexDigit → x = y := by
    intro x
    induction x with
    | nil =>
      intro y _ _ h
      cases y with
      | nil => rfl
      | cons j y => cases h
    | cons i x ih =>
      intro y hx hy h
      cases y with
      | nil => cases h
      | cons j y =>
        injection h with h1 h2
        rw [hinj i (hx i (by simp)) j (hy j (by simp)) h1, ih y (fun d hd => hx d (by simp [hd])) (fun d hd => hy d (by simp [hd])) h2]
  rw [ha, hb, key x y hx hy h]

theorem hexNum_nat_inj {a b : Nat} (h : hexNum (a : Int) = hexNum (b : Int)) : a = b := by
  unfold hexNum at h
  rw [if_neg (by omega), if_neg (by omega)] at h
  simp only [List.nil_append, Int.natAbs_natCast] at h
  exact hexDigits_inj (List.append_cancel_left h)

theorem hexNum_blank (n : Nat) : ' ' ∉ hexNum (n : Int) := by
  unfold hexNum
  rw [if_neg (by omega)]
  obtain ⟨x, _, hx, ex, _⟩ := toDigits_hex n
  simp only [List.nil_append, Int.natAbs_natCast, ex]
  intro h
  rcases List.mem_append.mp h with h | h
  · exact absurd h (by decide)
  · obtain ⟨i, hi, e⟩ := List.mem_map.mp h
    have : ∀ i, i < 16 → hexDigit i ≠ ' ' := by decide +kernel
    exact this i (hx i hi) e

theorem comma_intStr (n : Nat) : ',' ∉ intStr (n : Int) := fun h => by
  rcases intStr_chars n _ h with h | h
  · revert h; decide
  · revert h; decide

theorem joinNats_inj {l l' : List Nat} (h : join (str ", ") (l.map fun n : Nat => intStr n) = join (str ", ") (l'.map fun n : Nat => intStr n)) : l = l' := by
  have e1 : ∀ x : Nat, join (str ", ") ([x].map fun n : Nat => intStr n) = intStr x := fun _ => rfl
  have e2 : ∀ (x y : Nat) t, join (str ", ") ((x :: y :: t).map fun n : Nat => intStr n) =
      intStr x ++ ',' :: ' ' :: join (str ", ") ((y :: t).map fun n : Nat => intStr n) := by
    intro x y t
    show intStr x ++ str ", " ++ join (str ", ") ((y :: t).map fun n : Nat => intStr n) = _
    rw [List.append_assoc]
    rfl
  induction l generalizing l' with
  | nil =>
    match l' with
    | [] => rfl
    | [y] => exact absurd (show intStr y = [] from h.symm) (intStr_ne_nil y)
    | y :: z :: t =>
      rw [e2] at h
      have : ([] : Str).length = _ := congrArg List.length h
      simp at this
  | cons x t ih =>
    cases t with
    | nil =>
      match l' with
      | [] => exact absurd (show intStr x = [] from h) (intStr_ne_nil x)
      | [y] => rw [Int.ofNat.inj (intStr_injective (show intStr (x : Int) = intStr (y : Int) from h))]
      | y :: z :: t' =>
        rw [e1, e2] at h
        exact absurd (by rw [h]; simp) (comma_intStr x)
    | cons x' t =>
      match l' with
      | [] =>
        rw [e2] at h
        have : _ = ([] : Str).length := congrArg List.length h
        simp at this
      | [y] =>
        rw [e1, e2] at h
        exact absurd (by rw [← h]; simp) (comma_intStr y)
      | y :: z :: t' =>
        rw [e2, e2] at h
        obtain ⟨h1, h2⟩ := upto_inj (comma_intStr x) (comma_intStr y) h
        injection h2 with _ h2
        rw [Int.ofNat.inj (intStr_injective h1), ih h2]

/-- **C118** two texts are the same only if what is wrong is the same. -/
theorem C118_reads (p p' : DwarfProblem) (h : p.text = p'.text) : p = p' := by
  have hv : ∀ v : Nat, (DwarfProblem.version v).text.take 9 = str "unsupport" := fun v => List.take_append_of_le_length (l₁ := str "unsupported DWARF version ") (by decide)
  have ha : ∀ v : Nat, (DwarfProblem.addrSize v).text.take 9 = str "unknown D" := fun v => List.take_append_of_le_length (l₁ := str "unknown DWARF address size ") (by decide)
  have hs : ∀ l, (DwarfProblem.stack l).text.take 9 = str "invalid D" := fun l => List.take_append_of_le_length (l₁ := str "invalid DWARF stack ") (by decide)
  have ef : ∀ f : Nat, (DwarfProblem.form f).text = str "unknown dwarf form " ++ (hexNum f ++ ' ' :: (dget formNames f).getD (str "unknown")) := by
    intro f
    unfold DwarfProblem.text
    simp
  have hf : ∀ f : Nat, (DwarfProblem.form f).text.take 9 = str "unknown d" := fun f => by
    rw [ef]
    exact List.take_append_of_le_length (l₁ := str "unknown dwarf form ") (by decide)
  have ht := congrArg (List.take 9) h
  cases p with
  | version v =>
    cases p' with
    | version v' => rw [Int.ofNat.inj (intStr_injective (List.append_cancel_left (as := str "unsupported DWARF version ") h))]
    | addrSize n => rw [hv, ha] at ht; exact absurd ht (by decide)
    | form f => rw [hv, hf] at ht; exact absurd ht (by decide)
    | stack l => rw [hv, hs] at ht; exact absurd ht (by decide)
  | addrSize n =>
    cases p' with
    | version v => rw [hv, ha] at ht; exact absurd ht (by decide)
    | addrSize n' => rw [Int.ofNat.inj (intStr_injective (List.append_cancel_left (as := str "unknown DWARF address size ") h))]
    | form f => rw [ha, hf] at ht; exact absurd ht (by decide)
    | stack l => rw [ha, hs] at ht; exact absurd ht (by decide)
  | form f =>
    cases p' with
    | version v => rw [hv, hf] at ht; exact absurd ht (by decide)
    | addrSize n => rw [ha, hf] at ht; exact absurd ht (by decide)
    | form f' =>
      rw [ef, ef] at h
      rw [hexNum_nat_inj (upto_inj (hexNum_blank f) (hexNum_blank f') (List.append_cancel_left h)).1]
    | stack l => rw [hf, hs] at ht; exact absurd ht (by decide)
  | stack l =>
    cases p' with
    | version v => rw [hv, hs] at ht; exact absurd ht (by decide)
    | addrSize n => rw [ha, hs] at ht; exact absurd ht (by decide)
    | form f => rw [hf, hs] at ht; exact absurd ht (by decide)
    | stack l' =>
      have h2 : natsRepr l = natsRepr l' := List.append_cancel_left (as := str "invalid DWARF stack ") h
      unfold natsRepr at h2
      injection h2 with _ h2
      rw [joinNats_inj (List.append_cancel_right h2)]

/-- **C118** the names of forms are not ambiguous, and a form that is refused is called "unknown" exactly if it has no name. -/
theorem C118_names : (formNames.map Prod.fst).Nodup ∧ (formNames.map Prod.snd).Nodup ∧ (∀ f, SupportedForm f → (dget formNames f).isSome = true) ∧
    ∀ f, ¬ SupportedForm f → ((dget formNames f).isSome = true ↔ f ∈ [0, 0x16, 0x1B, 0x29, 0x2A, 0x2B, 0x2C, 0x1F01, 0x1F02, 0x1F20, 0x1F21]) := by
  refine ⟨by decide +kernel, by decide +kernel, fun f hf => ?_, fun f hf => ?_⟩
  · have : ∀ f, f ≤ 0x28 → 1 ≤ f → f ≠ 2 → (dget formNames f).isSome = true := by decide +kernel
    exact this f hf.2.1 hf.1 hf.2.2.1
  · rw [dget_isSome]
    constructor
    · intro h
      have : ∀ k ∈ dkeys formNames, (1 ≤ k ∧ k ≤ 0x28 ∧ k ≠ 2 ∧ k ≠ 0x16 ∧ k ≠ 0x1B) ∨ k ∈ [0, 0x16, 0x1B, 0x29, 0x2A, 0x2B, 0x2C, 0x1F01, 0x1F02, 0x1F20, 0x1F21] := by
        decide +kernel
      rcases this f h with h | h
      · exact absurd h hf
      · exact h
    · intro h
      have : ∀ k ∈ [0, 0x16, 0x1B, 0x29, 0x2A, 0x2B, 0x2C, 0x1F01, 0x1F02, 0x1F20, 0x1F21], k ∈ dkeys formNames := by decide +kernel
      exact this f h

/-- Code violates the property: a form that has a name in the tables of the tool, and a meaning in DWARF 5, is called unknown. -/
theorem C118_known_form (E : FormEnv) (d : Bytes) (off : Nat) : attrProblem E ⟨0x03, 0x1B, none⟩ d off = some (.form 0x1B) ∧
    (DwarfProblem.form 0x1B).text = str "unknown dwarf form 0x1b DW_FORM_addrx" :=
  ⟨((C118_form _ _ _ _).2 _).mpr ⟨fun h => h.2.2.2.2 rfl, rfl⟩, by decide +kernel⟩

/-- Code violates the property: version 0 and version 1, of which the header is not known, are read as version 2 to 4. -/
theorem C118_old_version : ∃ d u, cuAt .little d 0 = .ok u ∧ u.version = 0 :=
  ⟨[7, 0, 0, 0, 0, 0, 0, 0, 0, 0, 4], ⟨0, 4, 7, 0, none, 4, 0, 4, 11⟩, by decide +kernel, rfl⟩

/-- Code violates the property: an empty expression, by which DWARF describes an object without location, is called invalid. -/
theorem C118_empty (e : ElfFile) : stackProblem e.order e.addrSize [] = some (.stack []) ∧ (DwarfProblem.stack []).text = str "invalid DWARF stack []" :=
  ⟨((C118_stack e [] _).2).mpr ⟨[], .nil, by decide, rfl⟩, by decide +kernel⟩

example : (DwarfProblem.stack [16, 32]).text = str "invalid DWARF stack [16, 32]" := by decide +kernel
example : (DwarfProblem.version 6).text = str "unsupported DWARF version 6" := by decide +kernel
example : unitProblem .little [7, 0, 0, 0, 4, 0, 0, 0, 0, 0, 2] 0 = some (.addrSize 2) := by decide +kernel
example : unitProblem .big [0, 0, 0, 7, 0, 6, 0, 0, 0, 0, 4] 0 = some (.version 6) := by decide +kernel

end EspSize
