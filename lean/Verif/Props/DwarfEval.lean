import Verif.Props.DwarfDies
/-! # C51, C67: evaluated attributes, compilation unit names of symbols -/
namespace EspSize

/-! ### C51 evaluation -/

/-- `x` evaluated `n` times: the results, and the attribute afterwards. -/
def evalTimes (f : AttrObj → Except Err α × AttrObj) : Nat → AttrObj → List (Except Err α) × AttrObj
  | 0, x => ([], x)
  | n + 1, x => let r := f x; let t := evalTimes f n r.2; (r.1 :: t.1, t.2)

/-- **C51** (what holds) the text of an attribute, if it can be given once, is the same any number of times. -/
theorem C51_text_partial (e : ElfFile) (x : AttrObj) (s : Str) (h : (e.getAttrStr x).1 = .ok s) (n : Nat) :
    (evalTimes e.getAttrStr n x).1 = List.replicate n (.ok s) := by
  cases n with
  | zero => rfl
  | succ n =>
    have hs : (e.getAttrStr x).2.string = some s := by
      unfold ElfFile.getAttrStr at h ⊢
      cases hx : x.string with
      | some t => simp only [hx] at h ⊢; cases h; rfl
      | none =>
        simp only [hx] at h ⊢
        split at h
        · cases h
        · split at h
          · cases h
          · cases h; rfl
    have hfix' : ∀ m, ∀ y : AttrObj, y.string = some s → (evalTimes e.getAttrStr m y).1 = List.replicate m (.ok s) := by
      intro m
      induction m with
      | zero => intro y _; rfl
      | succ m ih =>
        intro y hy
        have : e.getAttrStr y = (.ok s, y) := by unfold ElfFile.getAttrStr; simp only [hy]
        simp only [evalTimes, this, ih y hy, List.replicate_succ]
    simp only [evalTimes, h, hfix' n _ hs, List.replicate_succ]

/-- **C51** (violated) the second evaluation of any attribute that can be evaluated raises a `KeyError`. -/
theorem C51_eval_twice (e : ElfFile) (x : AttrObj) (v : EVal) (h : (e.getAttrEval x).1 = .ok v) :
    (evalTimes e.getAttrEval 2 x).1 = [.ok v, .error .keyError] := by
  have h2 : (e.getAttrEval x).2.evaluated = some v := by
    unfold ElfFile.getAttrEval at h ⊢
    cases hx : x.evaluated with
    | some t => simp only [hx] at h; cases h
    | none =>
      simp only [hx] at h ⊢
      split at h
      · cases h
      · rename_i w hw; cases h; rfl
  have h3 : (e.getAttrEval (e.getAttrEval x).2).1 = .error .keyError := by
    generalize (e.getAttrEval x).2 = y at h2
    unfold ElfFile.getAttrEval
    simp only [h2]
  simp only [evalTimes, h, h3]

/-- Such attributes exist: a name. -/
example (e : ElfFile) : (e.getAttrEval ⟨⟨3, 8, 0, .bytes [65], 2⟩, none, none⟩).1 = .ok (.str (str "A")) := by
  have : decodeUtf8 [65] = .ok (str "A") := decodeUtf8_enc (str "A")
  simp [ElfFile.getAttrEval, ElfFile.evalAttr, bind, Except.bind, this]

example (e : ElfFile) : (e.getAttrStr ⟨⟨3, 8, 0, .bytes [65], 2⟩, none, none⟩).1 = .ok (str "A") := by
  have : decodeUtf8 [65] = .ok (str "A") := decodeUtf8_enc (str "A")
  simp [ElfFile.getAttrStr, ElfFile.getAttrEval, ElfFile.evalAttr, bind, Except.bind, this, attrText]

/-- The expression `DW_OP_addr a` evaluates to `a`, in either byte order, for both classes. -/
theorem C51_address (e : ElfFile) (a : Nat) (h : a < 256 ^ e.addrSize) :
    e.evalAttr 0x18 (.bytes (3 :: intBytes e.order e.addrSize a)) = .ok (.num a) := by
  have hat : At (3 :: intBytes e.order e.addrSize a) 1 (intBytes e.order e.addrSize a) := ⟨[3], [], by simp, rfl⟩
  have hu := hat.getUint h
  have hx : exprLoop e.order e.addrSize (3 :: intBytes e.order e.addrSize a) 0 [] = some [a] := by
    unfold exprLoop
    rw [dif_pos (by simp)]
    simp only [List.getElem?_cons_zero, if_true, Nat.zero_add, hu]
    unfold exprLoop
    rw [dif_neg (by simp; omega)]
    simp
  simp [ElfFile.evalAttr, hx]

/-- A text stored inline. -/
theorem C51_string (e : ElfFile) (s : Str) : e.evalAttr 0x08 (.bytes s.utf8Encode.data.toList) = .ok (.str s) := by
  simp [ElfFile.evalAttr, bind, Except.bind, decodeUtf8_enc]

/-- A text stored in `.debug_str` or `.debug_line_str`. -/
theorem C51_strp (e : ElfFile) (form : Nat) (sec : Str) (hf : form = 0x0E ∧ sec = str ".debug_str" ∨ form = 0x1F ∧ sec = str ".debug_line_str")
    (sh : RawShdr) (hsh : e.lookupShdr sec e.shdrs = .ok (some sh)) (s : Str) (pre post : Bytes)
    (hd : e.data sh = .ok (pre ++ s.utf8Encode.data.toList ++ 0 :: post)) (hz : ∀ b ∈ s.utf8Encode.data.toList, b ≠ 0) :
    e.evalAttr form (.num pre.length) = .ok (.str s) := by
  have h1 := (C48_lookup pre s.utf8Encode.data.toList post hz).1
  have h2 : e.sectionString sec (.num pre.length) = .ok (.str s) := by
    unfold ElfFile.sectionString
    simp only [bind, Except.bind, hsh, hd, AVal.toInt, Int.toNat_natCast, h1, decodeUtf8_enc]
  rcases hf with ⟨rfl, rfl⟩ | ⟨rfl, rfl⟩
  · simp [ElfFile.evalAttr, h2]
  · simp [ElfFile.evalAttr, h2]

/-- **C51** (violated) an empty location, which the standard allows for an object that was optimised away (DWARF 5
§2.6.1.1.4), raises an `Elf_Exception`. -/
theorem C51_empty_location (e : ElfFile) : e.evalAttr 0x18 (.bytes []) = .error .elf := by
  have : exprLoop e.order e.addrSize [] 0 [] = some [] := by unfold exprLoop; simp
  simp [ElfFile.evalAttr, this]

/-- An address cut short is accepted. -/
example (e : ElfFile) (h : e.order = .little) : e.evalAttr 0x18 (.bytes [3, 5]) = .ok (.num 5) := by
  have : exprLoop e.order e.addrSize [3, 5] 0 [] = some [5] := by
    unfold exprLoop
    simp only [List.length_cons, List.length_nil, List.getElem?_cons_zero, if_true]
    unfold exprLoop
    rw [h]
    cases e.cls <;> simp [ElfFile.addrSize, getUint, slice, fromBytes] <;> cases e.cls <;> simp [fromLE]
  simp [ElfFile.evalAttr, this]

/-! ### C67 names of compilation units -/

/-- A symbol that can get the name of a unit: a function or object with a size, not at an absolute address. -/
def Named (s : RawSym) : Prop := s.size ≠ 0 ∧ (s.type = 2 ∨ s.type = 1) ∧ s.shndx ≠ 0xFFF1

instance (s : RawSym) : Decidable (Named s) := inferInstanceAs (Decidable (_ ∧ _ ∧ _))

theorem symsByAddr_eq (syms : List RawSym) :
    symsByAddr syms = (syms.filter fun s => decide (Named s)).foldl (fun acc s => dset acc s.value (s, none)) [] := by
  unfold symsByAddr
  congr 2
  funext s
  rw [Bool.eq_iff_iff, decide_eq_true_iff]
  simp [Named, and_assoc]

/-- **C67** the symbol considered at an address is the last one there that is a function or object with a size and not
absolute. -/
theorem C67_symbols (syms : List RawSym) (a : Nat) (s : RawSym) (n : Option Str) :
    dget (symsByAddr syms) a = some (s, n) ↔
      n = none ∧ ∃ p r, syms = p ++ s :: r ∧ Named s ∧ s.value = a ∧ ∀ t ∈ r, Named t → t.value ≠ a := by
  rw [symsByAddr_eq]
  induction syms using snocInd with
  | nil => simp
  | snoc l x ih =>
    rw [List.filter_append, List.foldl_append]
    have split : ∀ (P : Prop), ((∃ p r, l ++ [x] = p ++ s :: r ∧ Named s ∧ s.value = a ∧ ∀ t ∈ r, Named t → t.value ≠ a) ↔ P) ↔
        (((x = s ∧ Named s ∧ s.value = a) ∨
          (∃ p r, l = p ++ s :: r ∧ Named s ∧ s.value = a ∧ ∀ t ∈ r ++ [x], Named t → t.value ≠ a)) ↔ P) := by
      intro P
      have key : (∃ p r, l ++ [x] = p ++ s :: r ∧ Named s ∧ s.value = a ∧ ∀ t ∈ r, Named t → t.value ≠ a) ↔
        ((x = s ∧ Named s ∧ s.value = a) ∨ (∃ p r, l = p ++ s :: r ∧ Named s ∧ s.value = a ∧ ∀ t ∈ r ++ [x], Named t → t.value ≠ a)) := by
        constructor
        · rintro ⟨p, r, h1, h2, h3, h4⟩
          induction r using snocInd with
          | nil =>
            have := List.append_inj' h1 rfl
            simp only [List.cons.injEq, and_true] at this
            exact Or.inl ⟨this.2, h2, h3⟩
          | snoc r y _ =>
            have h1' : l ++ [x] = (p ++ s :: r) ++ [y] := by rw [h1]; simp
            have := List.append_inj' h1' rfl
            simp only [List.cons.injEq, and_true] at this
            refine Or.inr ⟨p, r, this.1, h2, h3, ?_⟩
            rw [this.2]
            exact h4
        · rintro (⟨rfl, h2, h3⟩ | ⟨p, r, h1, h2, h3, h4⟩)
          · exact ⟨l, [], rfl, h2, h3, by simp⟩
          · exact ⟨p, r ++ [x], by rw [h1]; simp, h2, h3, h4⟩
      rw [key]
    by_cases hx : Named x
    · simp only [List.filter_cons, hx, decide_true, if_true, List.filter_nil, List.foldl_cons, List.foldl_nil]
      rw [dget_dset]
      by_cases ha : x.value = a
      · simp only [ha, if_true, Option.some.injEq, Prod.mk.injEq]
        constructor
        · rintro ⟨rfl, rfl⟩
          exact ⟨rfl, ((split True).mpr ⟨fun _ => trivial, fun _ => Or.inl ⟨rfl, hx, ha⟩⟩).mpr trivial⟩
        · rintro ⟨rfl, h⟩
          have := ((split _).mp Iff.rfl).mpr h
          rcases this with ⟨rfl, -, -⟩ | ⟨p, r, -, -, -, h4⟩
          · exact ⟨rfl, rfl⟩
          · exact absurd ha (h4 x (by simp) hx)
      · simp only [ha, if_false]
        rw [ih]
        constructor
        · rintro ⟨rfl, p, r, h1, h2, h3, h4⟩
          refine ⟨rfl, p, r ++ [x], by rw [h1]; simp, h2, h3, ?_⟩
          intro t ht hn
          rcases List.mem_append.mp ht with ht | ht
          · exact h4 t ht hn
          · simp only [List.mem_singleton] at ht; subst ht; exact ha
        · rintro ⟨rfl, h⟩
          have := ((split _).mp Iff.rfl).mpr h
          rcases this with ⟨rfl, -, h3⟩ | ⟨p, r, h1, h2, h3, h4⟩
          · exact absurd h3 ha
          · exact ⟨rfl, p, r, h1, h2, h3, fun t ht => h4 t (List.mem_append_left _ ht)⟩
    · simp only [List.filter_cons, hx, decide_false, Bool.false_eq_true, if_false, List.filter_nil, List.foldl_nil]
      rw [ih]
      constructor
      · rintro ⟨rfl, p, r, h1, h2, h3, h4⟩
        refine ⟨rfl, p, r ++ [x], by rw [h1]; simp, h2, h3, ?_⟩
        intro t ht hn
        rcases List.mem_append.mp ht with ht | ht
        · exact h4 t ht hn
        · simp only [List.mem_singleton] at ht; subst ht; exact absurd hn hx
      · rintro ⟨rfl, h⟩
        have := ((split _).mp Iff.rfl).mpr h
        rcases this with ⟨rfl, h2, -⟩ | ⟨p, r, h1, h2, h3, h4⟩
        · exact absurd h2 hx
        · exact ⟨rfl, p, r, h1, h2, h3, fun t ht => h4 t (List.mem_append_left _ ht)⟩

theorem nameStep_ok {e : ElfFile} {dies : Dict Nat (Die × CU)} {m m' : Dict Nat (RawSym × Option Str)} {x : Die × CU}
    (h : e.nameStep dies m x = .ok m') :
    dkeys m' = dkeys m ∧ ∀ a s n, dget m' a = some (s, n) → ∃ n0, dget m a = some (s, n0) ∧
      ((e.dieAddr x ≠ .ok (some (a : Int)) ∧ n = n0) ∨ (e.dieAddr x = .ok (some (a : Int)) ∧ ∃ nm, e.cuNameOf dies x = .ok nm ∧ n = some nm)) := by
  unfold ElfFile.nameStep at h
  simp only [bind, Except.bind] at h
  cases hd : e.dieAddr x with
  | error y => rw [hd] at h; cases h
  | ok o =>
    rw [hd] at h
    cases o with
    | none =>
      cases h
      exact ⟨rfl, fun a s n hg => ⟨n, hg, Or.inl ⟨by simp, rfl⟩⟩⟩
    | some addr =>
      simp only at h
      split at h
      · rename_i hneg
        cases h
        refine ⟨rfl, fun a s n hg => ⟨n, hg, Or.inl ⟨?_, rfl⟩⟩⟩
        intro he
        injection he with he
        injection he with he
        omega
      · rename_i hpos
        split at h
        · rename_i hnone
          cases h
          refine ⟨rfl, fun a s n hg => ⟨n, hg, Or.inl ⟨?_, rfl⟩⟩⟩
          intro he
          injection he with he
          injection he with he
          subst he
          rw [Int.toNat_natCast, hg] at hnone
          cases hnone
        · rename_i s0 hs0
          cases hn : e.cuNameOf dies x with
          | error y => rw [hn] at h; cases h
          | ok nm =>
            rw [hn] at h
            cases h
            have hk : addr.toNat ∈ dkeys m := by
              rw [← dget_isSome, hs0]
              rfl
            refine ⟨dkeys_dset_of_mem hk, ?_⟩
            intro a s n hg
            by_cases ha : addr.toNat = a
            · subst ha
              rw [dget_dset_self] at hg
              cases hg
              refine ⟨s0.2, by rw [hs0], Or.inr ⟨?_, nm, rfl, rfl⟩⟩
              rw [Int.toNat_of_nonneg (by omega)]
            · rw [dget_dset_ne ha] at hg
              refine ⟨n, hg, Or.inl ⟨?_, rfl⟩⟩
              intro he
              injection he with he
              injection he with he
              omega

/-- The last entry of `l` at the address `a`. -/
def LastAt (e : ElfFile) (l : List (Nat × (Die × CU))) (a : Nat) (x : Die × CU) : Prop :=
  ∃ q k r, l = q ++ (k, x) :: r ∧ e.dieAddr x = .ok (some (a : Int)) ∧ ∀ y ∈ r, e.dieAddr y.2 ≠ .ok (some (a : Int))

theorem names_fold {e : ElfFile} {dies : Dict Nat (Die × CU)} (l : List (Nat × (Die × CU))) {m0 m : Dict Nat (RawSym × Option Str)}
    (h : l.foldlM (fun acc p => e.nameStep dies acc p.2) m0 = .ok m) :
    dkeys m = dkeys m0 ∧ ∀ a s n, dget m a = some (s, n) → ∃ n0, dget m0 a = some (s, n0) ∧
      (((∀ p ∈ l, e.dieAddr p.2 ≠ .ok (some (a : Int))) ∧ n = n0) ∨ (∃ x, LastAt e l a x ∧ ∃ nm, e.cuNameOf dies x = .ok nm ∧ n = some nm)) := by
  induction l using snocInd generalizing m with
  | nil =>
    cases h
    exact ⟨rfl, fun a s n hg => ⟨n, hg, Or.inl ⟨by simp, rfl⟩⟩⟩
  | snoc l x ih =>
    rw [List.foldlM_append] at h
    simp only [bind, Except.bind] at h
    cases hm : l.foldlM (fun acc p => e.nameStep dies acc p.2) m0 with
    | error y => rw [hm] at h; cases h
    | ok m1 =>
      rw [hm] at h
      simp only [List.foldlM_cons, List.foldlM_nil, bind, Except.bind] at h
      cases hs : e.nameStep dies m1 x.2 with
      | error y => rw [hs] at h; cases h
      | ok m2 =>
        rw [hs] at h
        cases h
        obtain ⟨k1, g1⟩ := ih hm
        obtain ⟨k2, g2⟩ := nameStep_ok hs
        refine ⟨k2.trans k1, ?_⟩
        intro a s n hg
        obtain ⟨n1, hg1, hc⟩ := g2 a s n hg
        obtain ⟨n0, hg0, hc0⟩ := g1 a s n1 hg1
        refine ⟨n0, hg0, ?_⟩
        rcases hc with ⟨hne, rfl⟩ | ⟨hd, nm, hnm, rfl⟩
        · rcases hc0 with ⟨hall, rfl⟩ | ⟨y, ⟨q, k, r, h1, h2, h3⟩, hy⟩
          · refine Or.inl ⟨?_, rfl⟩
            intro p hp
            rcases List.mem_append.mp hp with hp | hp
            · exact hall p hp
            · simp only [List.mem_singleton] at hp; subst hp; exact hne
          · refine Or.inr ⟨y, ⟨q, k, r ++ [x], by rw [h1]; simp, h2, ?_⟩, hy⟩
            intro p hp
            rcases List.mem_append.mp hp with hp | hp
            · exact h3 p hp
            · simp only [List.mem_singleton] at hp; subst hp; exact hne
        · exact Or.inr ⟨x.2, ⟨l, x.1, [], rfl, hd, by simp⟩, nm, hnm, rfl⟩

/-- **C67** after `add_cus_to_symbols`, the addresses are those of the symbols considered; a symbol has the name of the
unit of the last entry (function or variable) at its address, and no name if there is no entry at its address.  Nothing else of
it changes. -/
theorem C67_names (e : ElfFile) (m : Dict Nat (RawSym × Option Str)) (h : e.addCus = .ok m) :
    ∃ dies syms, e.symbols = .ok syms ∧ (∃ cus info, e.infoData = .ok info ∧ e.cus = .ok cus ∧ e.allDies info cus [] = .ok dies) ∧
      dkeys m = dkeys (symsByAddr syms) ∧
      ∀ a s n, dget m a = some (s, n) → dget (symsByAddr syms) a = some (s, none) ∧
        (((∀ p ∈ dies, e.dieAddr p.2 ≠ .ok (some (a : Int))) ∧ n = none) ∨ (∃ x, LastAt e dies a x ∧ ∃ nm, e.cuNameOf dies x = .ok nm ∧ n = some nm)) := by
  unfold ElfFile.addCus at h
  simp only [bind, Except.bind] at h
  cases hi : e.infoData with
  | error y => rw [hi] at h; cases h
  | ok info =>
    rw [hi] at h
    simp only at h
    cases hc : e.cus with
    | error y => rw [hc] at h; cases h
    | ok cus =>
      rw [hc] at h
      simp only at h
      cases hd : e.allDies info cus [] with
      | error y => rw [hd] at h; cases h
      | ok dies =>
        rw [hd] at h
        simp only at h
        cases hs : e.symbols with
        | error y => rw [hs] at h; cases h
        | ok syms =>
          rw [hs] at h
          simp only at h
          obtain ⟨k, g⟩ := names_fold dies h
          refine ⟨dies, syms, rfl, ⟨cus, info, rfl, rfl, hd⟩, k, ?_⟩
          intro a s n hg
          obtain ⟨n0, hg0, hc⟩ := g a s n hg
          have hn := ((C67_symbols syms a s n0).mp hg0).1
          subst hn
          exact ⟨hg0, hc⟩

/-! ### The entries of a well-formed file -/

/-- The unit `u` at `off` holds the entries `ds`, declared in `dAbbrev` with sequential codes and supported forms. -/
structure UnitDies (o : Order) (dAbbrev : Bytes) (off : Nat) (u : Unit) (ds : List Die) : Prop where
  valid : u.Valid o
  full : u.version = 5 → u.unitType ∉ [2, 4, 5, 6]
  entries : ∃ l ab bs pad, AbbrevsEnc o l ab ∧ At dAbbrev u.abbrevOff ab ∧ Sequential l ∧
    (∀ e ∈ l, ∀ a ∈ e.attrs, a.attr ≠ 0 → a.form = 0x21 ∨ Supported ⟨o, u.addrSize, u.offSize, off⟩ u.version a.form) ∧
    u.body = bs ++ pad ∧
    DieEnc ⟨o, u.addrSize, u.offSize, off⟩ u.version (fun code => l.find? fun x => x.code == code) (off + u.lenSize + u.headerSize) none 0 bs ds

/-- Consecutive units with their entries. -/
inductive UnitsDies (o : Order) (dAbbrev : Bytes) : Nat → List (Unit × List Die) → Prop
  | nil {off : Nat} : UnitsDies o dAbbrev off []
  | cons {off : Nat} {u : Unit} {ds : List Die} {t : List (Unit × List Die)} : UnitDies o dAbbrev off u ds →
      UnitsDies o dAbbrev (off + (u.bytes o).length) t → UnitsDies o dAbbrev off ((u, ds) :: t)

/-- The entries of the units for units, functions and variables, each with its unit. -/
def unitEntries (o : Order) : Nat → List (Unit × List Die) → List (Die × CU)
  | _, [] => []
  | off, (u, ds) :: t => ((ds.filter fun x => [0x11, 0x2E, 0x34].contains x.tag).map fun x => (x, u.cu o off)) ++ unitEntries o (off + (u.bytes o).length) t

/-- A file with one unit. -/
example : UnitsDies .little exAbbrevBytes 0 [(⟨false, 4, 0, 4, 0, exDieBytes⟩, exDies)] := by
  refine .cons ⟨{ version := by decide, type := by decide, addr := by decide, abbrevs := by decide, length := by decide }, by decide, ?_⟩ .nil
  exact ⟨exAbbrevs, exAbbrevBytes, exDieBytes, [], exAbbrevs_enc, exAbbrevs_ok.2.2.1, exAbbrevs_ok.1, exAbbrevs_ok.2.1, by simp, exDies_enc⟩

theorem foldl_dset_pairs (cu : CU) (ds : Dict Nat Die) (acc : Dict Nat (Die × CU)) (h1 : ds.Pairwise (fun x y => x.1 < y.1))
    (h2 : ∀ p ∈ acc, ∀ x ∈ ds, p.1 < x.1) :
    ds.foldl (fun acc p => dset acc p.1 (p.2, cu)) acc = acc ++ ds.map fun p => (p.1, (p.2, cu)) := by
  induction ds generalizing acc with
  | nil => simp
  | cons x t ih =>
    simp only [List.foldl_cons, List.map_cons]
    rw [List.pairwise_cons] at h1
    rw [dset_new acc x.1 _ (fun p hp => by have := h2 p hp x (by simp); omega), ih _ h1.2]
    · simp
    · intro p hp y hy
      rcases List.mem_append.mp hp with hp | hp
      · exact h2 p hp y (List.mem_cons_of_mem _ hy)
      · simp only [List.mem_singleton] at hp
        subst hp
        exact h1.1 y hy

theorem all2_keys {dict : Dict Nat Die} {ds : List Die} (h : All2 (fun p x => p.1 = x.offset ∧ DieAlike p.2 x) dict ds) :
    dict.map (·.1) = ds.map (·.offset) := by
  induction dict generalizing ds with
  | nil => cases ds with
    | nil => rfl
    | cons _ _ => exact h.elim
  | cons p t ih => cases ds with
    | nil => exact h.elim
    | cons y s => simp only [List.map_cons, h.1.1, ih h.2]

/-- Reading the entries of a unit. -/
theorem unit_read {e : ElfFile} {dAbbrev info pre post : Bytes} {off : Nat} {u : Unit} {ds : List Die}
    (hab : ∃ sh, e.lookupShdr (str ".debug_abbrev") e.shdrs = .ok (some sh) ∧ e.data sh = .ok dAbbrev) (h1 : UnitDies e.order dAbbrev off u ds)
    (hi : info = pre ++ (u.bytes e.order ++ post)) (hp : pre.length = off) (filter : Option (List Nat)) :
    ∃ dict, getDIEs ⟨formEnv e (u.cu e.order off), info, e.abbrevs (u.cu e.order off), filter⟩ (u.cu e.order off) = .ok dict ∧
      All2 (fun p x => p.1 = x.offset ∧ DieAlike p.2 x) dict (selected filter ds) ∧
      (∀ x ∈ ds, off ≤ x.offset ∧ x.offset < off + (u.bytes e.order).length) ∧ ds.Pairwise (fun x y => x.offset < y.offset) := by
  obtain ⟨sh, hsh, hshd⟩ := hab
  obtain ⟨l, ab, bs, pad, e1, e2, e3, e4, e5, e6⟩ := h1.entries
  have hdo := C49_first_entry_partial e.order u off h1.full
  have habb : e.abbrevs (u.cu e.order off) = abbrevTable e.order dAbbrev (u.cu e.order off).abbrevOff := by
    simp only [ElfFile.abbrevs, bind, Except.bind, hsh, hshd]
  have hcontent : At info (off + u.lenSize) (u.content e.order) := by
    have hb : At info off (u.bytes e.order) := ⟨pre, post, by rw [hi]; simp, hp⟩
    unfold Unit.bytes at hb
    have := hb.right
    have hl : (if u.wide = true then intBytes e.order 4 0xFFFFFFFF ++ intBytes e.order 8 (u.content e.order).length
        else intBytes e.order 4 (u.content e.order).length).length = u.lenSize := by
      unfold Unit.lenSize
      cases u.wide <;> simp
    rw [hl] at this
    exact this
  have hhs : u.headerSize = if u.version = 5 then 4 + u.offSize else 3 + u.offSize := by
    unfold Unit.headerSize
    split
    · rename_i h5
      have := h1.full h5
      simp only [List.mem_cons, List.not_mem_nil, or_false, not_or] at this
      simp [this]
    · rfl
  have hbody : At info (u.cu e.order off).dieOff bs := by
    have hc := hcontent
    unfold Unit.content at hc
    have hr := hc.right
    rw [e5] at hr
    have hl : off + u.lenSize + (intBytes e.order 2 u.version ++
        (if u.version = 5 then intBytes e.order 1 u.unitType ++ intBytes e.order 1 u.addrSize ++ intBytes e.order u.offSize u.abbrevOff
         else intBytes e.order u.offSize u.abbrevOff ++ intBytes e.order 1 u.addrSize)).length = (u.cu e.order off).dieOff := by
      rw [hdo, hhs]
      split <;> simp <;> omega
    rw [hl] at hr
    exact hr.left
  have hlen : u.headerSize + bs.length ≤ (u.content e.order).length := by
    rw [hhs]
    unfold Unit.content
    rw [e5]
    split <;> simp <;> omega
  have hcu : formEnv e (u.cu e.order off) = ⟨e.order, u.addrSize, u.offSize, off⟩ := rfl
  rw [← hdo] at e6
  obtain ⟨dict, g1, g2⟩ := C66_entries_partial e.order ⟨e.order, u.addrSize, u.offSize, off⟩ u.version l ab dAbbrev info bs (u.cu e.order off) filter ds
    e1 e2 e3 e4 e6 hbody
  rw [← habb, ← hcu] at g1
  have hasc := dieEnc_ascending e6
  refine ⟨dict, g1, g2, fun x hx => ?_, hasc.2⟩
  have := hasc.1 x hx
  rw [Unit.length_bytes]
  rw [hdo] at this
  omega

/-- The units of a well-formed file. -/
theorem units_cus {e : ElfFile} {dAbbrev : Bytes} {us : List (Unit × List Die)} (h : UnitsDies e.order dAbbrev 0 us)
    (hinfo : e.infoData = .ok (us.flatMap fun p => p.1.bytes e.order)) : e.cus = .ok (placed e.order 0 (us.map (·.1))) := by
  have hval : ∀ off us, UnitsDies e.order dAbbrev off us → ∀ u ∈ us.map (·.1), u.Valid e.order := by
    intro off us h'
    clear h hinfo
    induction h' with
    | nil => intro u hu; cases hu
    | cons h1 h2 ih =>
      intro u hu
      simp only [List.map_cons, List.mem_cons] at hu
      rcases hu with rfl | hu
      · exact h1.valid
      · exact ih u hu
  simp only [ElfFile.cus, bind, Except.bind, hinfo]
  rw [show (us.flatMap fun p => p.1.bytes e.order) = (us.map (·.1)).flatMap (Unit.bytes e.order) by simp [List.flatMap_map]]
  exact C49_units _ _ (hval 0 us h)

/-- **C67** the entries found in a well-formed file: those of all units that are units, functions or variables, in order,
each with its unit. -/
theorem C67_entries_partial (e : ElfFile) (dAbbrev : Bytes) (hab : ∃ sh, e.lookupShdr (str ".debug_abbrev") e.shdrs = .ok (some sh) ∧ e.data sh = .ok dAbbrev)
    (us : List (Unit × List Die)) (h : UnitsDies e.order dAbbrev 0 us) :
    let info := us.flatMap fun p => p.1.bytes e.order
    e.infoData = .ok info → ∃ cus dies, e.cus = .ok cus ∧ e.allDies info cus [] = .ok dies ∧
      All2 (fun p x => p.1 = x.1.offset ∧ DieAlike p.2.1 x.1 ∧ p.2.2 = x.2) dies (unitEntries e.order 0 us) := by
  intro info hinfo
  have hfm : info = (us.map (·.1)).flatMap (Unit.bytes e.order) := by simp [info, List.flatMap_map]
  have hcus := units_cus h hinfo
  have key : ∀ (us : List (Unit × List Die)) (off : Nat) (pre : Bytes) (acc : Dict Nat (Die × CU)), UnitsDies e.order dAbbrev off us → pre.length = off →
      info = pre ++ (us.map (·.1)).flatMap (Unit.bytes e.order) → (∀ p ∈ acc, p.1 < off) →
      ∃ dies, e.allDies info (placed e.order off (us.map (·.1))) acc = .ok (acc ++ dies) ∧
        All2 (fun p x => p.1 = x.1.offset ∧ DieAlike p.2.1 x.1 ∧ p.2.2 = x.2) dies (unitEntries e.order off us) := by
    intro us
    induction us with
    | nil =>
      intro off pre acc h hp hi hacc
      exact ⟨[], by simp [placed, ElfFile.allDies], trivial⟩
    | cons p t ih =>
      intro off pre acc h hp hi hacc
      cases h with
      | cons h1 h2 =>
        rename_i u ds
        obtain ⟨dict, g1, g2, g3, g4⟩ := unit_read (info := info) hab h1 (post := (t.map (·.1)).flatMap (Unit.bytes e.order)) (by rw [hi]; simp) hp (some cuTags)
        have hkeys := all2_keys g2
        have hpair : dict.Pairwise (fun x y => x.1 < y.1) := by
          have h1 := g4.sublist (selected_sublist (some cuTags) ds)
          have h2 := (List.pairwise_map (f := fun (x : Die) => x.offset) (R := fun a b => a < b)).mpr h1
          rw [← hkeys] at h2
          exact List.pairwise_map.mp h2
        have hrange : ∀ p ∈ dict, off ≤ p.1 ∧ p.1 < off + (u.bytes e.order).length := by
          intro p hp
          have hm : p.1 ∈ dict.map (·.1) := List.mem_map_of_mem hp
          rw [hkeys] at hm
          obtain ⟨x, hx, hxe⟩ := List.mem_map.mp hm
          have := g3 x ((selected_sublist (some cuTags) ds).subset hx)
          omega
        have hfold := foldl_dset_pairs (u.cu e.order off) dict acc hpair (fun p hp x hx => by have := hacc p hp; have := hrange x hx; omega)
        have hacc' : ∀ p ∈ acc ++ dict.map (fun p => (p.1, (p.2, u.cu e.order off))), p.1 < off + (u.bytes e.order).length := by
          intro p hp
          rcases List.mem_append.mp hp with hp | hp
          · have := hacc p hp
            omega
          · obtain ⟨q, hq, rfl⟩ := List.mem_map.mp hp
            exact (hrange q hq).2
        obtain ⟨dies, f1, f2⟩ := ih (off + (u.bytes e.order).length) (pre ++ u.bytes e.order) _ h2 (by simp [hp]) (by rw [hi]; simp) hacc'
        refine ⟨dict.map (fun p => (p.1, (p.2, u.cu e.order off))) ++ dies, ?_, ?_⟩
        · simp only [List.map_cons, placed, ElfFile.allDies, bind, Except.bind, g1, hfold, f1, List.append_assoc]
        · simp only [unitEntries]
          refine All2.append ?_ f2
          exact All2.map_both g2 (fun p _ x _ hpx => ⟨hpx.1, hpx.2, rfl⟩)
  obtain ⟨dies, k1, k2⟩ := key us 0 [] [] h rfl (by rw [hfm]; simp) (by simp)
  exact ⟨_, dies, hcus, k1, k2⟩

/-- **C67** the address of a function is its `DW_AT_low_pc`, a number (1 if it is a flag that is present); that of a variable the operand of `DW_OP_addr`; other
entries have none. -/
theorem C67_address (e : ElfFile) (x : Die × CU) (at' : DAttr) :
    (∀ a : Nat, x.1.tag = 0x2E → dget x.1.attrs 0x11 = some at' → at'.value = .num a → e.dieAddr x = .ok (some (a : Int))) ∧
    (∀ a : Nat, x.1.tag = 0x34 → dget x.1.attrs 2 = some at' → at'.form = 0x18 → a < 256 ^ e.addrSize →
      at'.value = .bytes (3 :: intBytes e.order e.addrSize a) → e.dieAddr x = .ok (some (a : Int))) ∧
    (x.1.tag = 0x2E → dget x.1.attrs 0x11 = some at' → at'.value = .true_ → e.dieAddr x = .ok (some 1)) ∧
    (x.1.tag = 0x2E → dget x.1.attrs 0x11 = none → e.dieAddr x = .ok none) ∧
    (x.1.tag = 0x34 → dget x.1.attrs 2 = none → e.dieAddr x = .ok none) ∧
    (x.1.tag ≠ 0x2E → x.1.tag ≠ 0x34 → e.dieAddr x = .ok none) := by
  refine ⟨?_, ?_, ?_, ?_, ?_, ?_⟩
  · intro a ht hg hv
    simp [ElfFile.dieAddr, ht, hg, hv, AVal.toInt, bind, Except.bind]
  · intro a ht hg hf ha hv
    have := C51_address e a ha
    simp [ElfFile.dieAddr, ht, hg, hf, hv, bind, Except.bind, this]
  · intro ht hg hv
    simp [ElfFile.dieAddr, ht, hg, hv, AVal.toInt, bind, Except.bind]
  · intro ht hg; simp [ElfFile.dieAddr, ht, hg]
  · intro ht hg; simp [ElfFile.dieAddr, ht, hg]
  · intro h1 h2; simp [ElfFile.dieAddr, h1, h2]

/-- **C67** the name given is the text of `DW_AT_name` of the first entry of the unit of the entry, or of the entry that its
`DW_AT_abstract_origin` refers to. -/
theorem C67_unit_name (e : ElfFile) (dies : Dict Nat (Die × CU)) (x y c : Die × CU) (at' : DAttr) (nm : Str)
    (horigin : (dget x.1.attrs 0x31 = none ∧ y = x) ∨ (∃ ao k, dget x.1.attrs 0x31 = some ao ∧ ao.value = .num (k : Nat) ∧ dget dies k = some y))
    (hc : dget dies y.2.dieOff = some c) (ha : dget c.1.attrs 3 = some at') (ht : e.evalAttr at'.form at'.value = .ok (.str nm)) :
    e.cuNameOf dies x = .ok nm := by
  have h1 : originDie dies x = .ok y := by
    rcases horigin with ⟨h, rfl⟩ | ⟨ao, k, h, hv, hk⟩
    · simp [originDie, h]
    · have hk0 : ¬ (k : Int) < 0 := by omega
      simp [originDie, h, hv, AVal.toInt, bind, Except.bind, lookupDie, hk0, hk]
  have h2 : lookupDie dies y.2.dieOff = .ok c := by
    have hk0 : ¬ (y.2.dieOff : Int) < 0 := by omega
    simp [lookupDie, hk0, hc]
  simp [ElfFile.cuNameOf, bind, Except.bind, h1, h2, ha, ElfFile.getAttrStr, ElfFile.getAttrEval, ht, attrText]

/-- **C67** (violated) the name of a unit whose first entry is not a compile unit, for example a partial unit, is looked
for among compile units, functions and variables only: a `KeyError`. -/
theorem C67_partial_unit (e : ElfFile) (dies : Dict Nat (Die × CU)) (x : Die × CU) (h0 : dget x.1.attrs 0x31 = none) (h : dget dies x.2.dieOff = none) :
    e.cuNameOf dies x = .error .keyError := by
  have hk0 : ¬ (x.2.dieOff : Int) < 0 := by omega
  simp [ElfFile.cuNameOf, bind, Except.bind, originDie, h0, lookupDie, hk0, h]

example : cuTags.contains 0x3C = false := rfl

end EspSize
