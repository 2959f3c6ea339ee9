import Verif.Props.Lazy
/-! # C110: the exceptions of reading debugging information -/
namespace EspSize

/-- The exceptions of `add_cus_to_symbols`. -/
def dwarfErrs : List Err := [.elf, .indexError, .valueError, .unicode, .structError, .assertion, .typeError, .keyError]

theorem raises_foldlM {α β : Type} {es : List Err} {f : β → α → Except Err β} (l : List α) (h : ∀ x ∈ l, ∀ b, Raises es (f b x)) (b : β) :
    Raises es (l.foldlM f b) := only_foldlM (P := fun e => e ∈ es) l h b

theorem indexNul_raises (d : Bytes) (off : Nat) : Raises [.valueError] (indexNul d off) := by
  unfold indexNul
  split
  · exact .ok
  · exact .error (by decide)

theorem decode_raises (b : Bytes) : Raises [.unicode] (decodeUtf8 b) := by
  unfold decodeUtf8
  split
  · exact .ok
  · exact .error (by decide)

theorem getString_raises (d : Bytes) (off : Nat) : Raises dwarfErrs (getString d off) := by
  unfold getString
  exact .bind ((indexNul_raises d off).mono (by decide)) fun _ _ => .ok

theorem ulebLoop_raises (d : Bytes) (r i : Nat) : Raises [.indexError] (ulebLoop d r i) := by
  induction d generalizing r i with
  | nil => exact .error (by decide)
  | cons b t ih =>
    unfold ulebLoop
    simp only []
    split
    · exact .ok
    · exact ih _ _

theorem uleb_raises (d : Bytes) (off : Nat) : Raises dwarfErrs (getUleb128 d off) := by
  unfold getUleb128
  exact .bind ((ulebLoop_raises _ _ _).mono (by decide)) fun _ _ => .ok

theorem byteBefore_raises (d : Bytes) (off : Nat) : Raises dwarfErrs (byteBefore d off) := by
  cases off with
  | zero =>
    show Raises dwarfErrs (match d.getLast? with | some b => .ok b.toNat | none => .error .indexError : Except Err Nat)
    cases d.getLast? with
    | none => exact .error (by decide)
    | some b => exact .ok
  | succ i =>
    show Raises dwarfErrs (byteAt d i)
    unfold byteAt
    cases d[i]? with
    | none => exact .error (by decide)
    | some b => exact .ok

theorem sleb_raises (d : Bytes) (off : Nat) : Raises dwarfErrs (getSleb128 d off) := by
  unfold getSleb128
  refine .bind (uleb_raises d off) fun _ _ => .bind (byteBefore_raises d off) fun _ _ => ?_
  split <;> exact .ok

theorem lookupShdr_raises (e : ElfFile) (name : Str) (l : List RawShdr) : Raises dwarfErrs (e.lookupShdr name l) := by
  induction l with
  | nil => exact .ok
  | cons s t ih =>
    unfold ElfFile.lookupShdr
    refine .bind ((stringAt_raises e _ _).mono (by decide)) fun n _ => ?_
    split
    · exact .ok
    · exact ih

theorem data_raises (e : ElfFile) (s : RawShdr) : Raises dwarfErrs (e.data s) := (readAt_raises _ _ _).mono (by decide)

theorem infoData_raises (e : ElfFile) : Raises dwarfErrs e.infoData := by
  unfold ElfFile.infoData
  refine .bind (lookupShdr_raises e _ _) fun o _ => ?_
  cases o with
  | none => exact .ok
  | some s => exact data_raises e s

theorem cuAt_raises (o : Order) (d : Bytes) (off : Nat) : Raises dwarfErrs (cuAt o d off) := by
  have hr : ∀ a b c e f, Raises dwarfErrs (cuRest o d a b c e f) := by
    intro a b c e f
    unfold cuRest
    simp only []
    repeat' split
    all_goals first | exact .ok | exact .error (by decide)
  unfold cuAt
  simp only []
  split <;> exact hr _ _ _ _ _

theorem cusFrom_raises (o : Order) (d : Bytes) (off : Nat) : Raises dwarfErrs (cusFrom o d off) := by
  fun_induction cusFrom o d off with
  | case1 off h x hx => exact .error (cuAt_raises o d off x hx)
  | case2 off h cu hc ih => exact .bind ih fun _ _ => .ok
  | case3 off h => exact .ok

theorem abbrevAttrAt_raises (d : Bytes) (off : Nat) : Raises dwarfErrs (abbrevAttrAt d off) := by
  unfold abbrevAttrAt
  refine .bind (uleb_raises _ _) fun a _ => .bind (uleb_raises _ _) fun f _ => ?_
  split
  · exact .bind (uleb_raises _ _) fun _ _ => .ok
  · exact .ok

theorem abbrevAttrs_raises (d : Bytes) (off : Nat) : Raises dwarfErrs (abbrevAttrs d off) := by
  fun_induction abbrevAttrs d off with
  | case1 off x hx => exact .error (abbrevAttrAt_raises d off x hx)
  | case2 off a o hx h => exact .ok
  | case3 off a o hx h ih => exact .bind ih fun _ _ => .ok

theorem abbrevEntryAt_raises (o : Order) (d : Bytes) (off : Nat) : Raises dwarfErrs (abbrevEntryAt o d off) := by
  unfold abbrevEntryAt
  exact .bind (uleb_raises _ _) fun c _ => .bind (uleb_raises _ _) fun t _ => .bind (abbrevAttrs_raises _ _) fun _ _ => .ok

theorem abbrevTable_raises (o : Order) (d : Bytes) (off : Nat) : Raises dwarfErrs (abbrevTable o d off) := by
  have key : ∀ k off, d.length - off ≤ k → Raises dwarfErrs (abbrevTable o d off) := by
    intro k
    induction k with
    | zero =>
      intro off hk
      rw [abbrevTable.eq_def]
      refine .bind (uleb_raises _ _) fun c hc => ?_
      split
      · exact .ok
      · split
        · rename_i x hx
          exact .error (abbrevEntryAt_raises o d off x hx)
        · rename_i e next hx
          have := abbrevEntryAt_bound hx
          simp only at this
          omega
    | succ k ih =>
      intro off hk
      rw [abbrevTable.eq_def]
      refine .bind (uleb_raises _ _) fun c hc => ?_
      split
      · exact .ok
      · split
        · rename_i x hx
          exact .error (abbrevEntryAt_raises o d off x hx)
        · rename_i e next hx
          have := abbrevEntryAt_bound hx
          simp only at this
          exact .bind (ih next (by omega)) fun _ _ => .ok
  exact key _ off (Nat.le_refl _)

theorem abbrevs_raises (e : ElfFile) (cu : CU) : Raises dwarfErrs (e.abbrevs cu) := by
  unfold ElfFile.abbrevs
  refine .bind (lookupShdr_raises e _ _) fun o _ => ?_
  cases o with
  | none => exact .ok
  | some s => exact .bind (data_raises e s) fun d _ => abbrevTable_raises _ _ _

theorem attrValue_raises (E : FormEnv) (a : AbbrevAttr) (d : Bytes) (off : Nat) : Raises dwarfErrs (attrValue E a d off) := by
  unfold attrValue ulebNum
  simp only []
  repeat' refine raises_ite ?_ ?_
  all_goals first
    | exact .ok
    | exact .error (by decide)
    | exact .bind (uleb_raises _ _) fun _ _ => .ok
    | exact .bind (sleb_raises _ _) fun _ _ => .ok
    | exact .bind (getString_raises _ _) fun _ _ => .ok

theorem dieAttrs_raises (E : FormEnv) (d : Bytes) (l : List AbbrevAttr) (off : Nat) (acc : Dict Nat DAttr) : Raises dwarfErrs (dieAttrs E d l off acc) := by
  induction l generalizing off acc with
  | nil => exact .ok
  | cons a t ih =>
    unfold dieAttrs
    split
    · exact .ok
    · refine .bind ?_ fun x _ => ih _ _
      unfold dattrAt
      exact .bind (attrValue_raises _ _ _ _) fun _ _ => .ok

theorem abbrevOf_raises {V : DieEnv} (h : Raises dwarfErrs V.tab) (code : Nat) : Raises dwarfErrs (abbrevOf V code) := by
  unfold abbrevOf
  split
  · rename_i x hx
    exact .error (h x hx)
  · split
    · exact .error (by decide)
    · split
      · exact .ok
      · exact .error (by decide)

theorem getDie_raises {V : DieEnv} (h : Raises dwarfErrs V.tab) (off : Nat) (parent : Option Nat) (level : Nat) : Raises dwarfErrs (getDie V off parent level) := by
  have key : ∀ k off, V.d.length - off ≤ k → (∀ parent level, Raises dwarfErrs (getDie V off parent level)) ∧ ∀ parent level, Raises dwarfErrs (getKids V off parent level) := by
    intro k
    induction k using Nat.strongRecOn with
    | ind k ih =>
      intro off hk
      have h1 : ∀ parent level, Raises dwarfErrs (getDie V off parent level) := by
        intro parent level
        rw [getDie.eq_def]
        split
        · rename_i x hx
          exact .error (uleb_raises _ _ x hx)
        · rename_i code o1 hu
          have b1 := getUleb128_bound hu
          simp only at b1
          refine raises_ite .ok ?_
          split
          · rename_i x hx
            exact .error (abbrevOf_raises h code x hx)
          · split
            · rename_i x hx
              exact .error (dieAttrs_raises _ _ _ _ _ x hx)
            · rename_i attrs o2 ha
              have b2 := dieAttrs_bound ha
              simp only at b2
              refine raises_ite .ok ?_
              split
              · rename_i x hx
                exact .error ((ih (V.d.length - o2) (by omega) o2 (Nat.le_refl _)).2 _ _ x hx)
              · exact .ok
      refine ⟨h1, fun parent level => ?_⟩
      rw [getKids.eq_def]
      split
      · rename_i x hx
        exact .error (h1 _ _ x hx)
      · rename_i r hr
        refine raises_ite .ok ?_
        split
        · rename_i hlt
          split
          · rename_i x hx
            exact .error ((ih (V.d.length - r.next) (by omega) r.next (Nat.le_refl _)).2 _ _ x hx)
          · exact .ok
        · exact .error (by decide)
  exact (key _ off (Nat.le_refl _)).1 parent level

theorem getDIEs_raises {V : DieEnv} (h : Raises dwarfErrs V.tab) (cu : CU) : Raises dwarfErrs (getDIEs V cu) := by
  unfold getDIEs
  exact .bind (getDie_raises h _ _ _) fun _ _ => .ok

theorem allDies_raises (e : ElfFile) (info : Bytes) (l : List CU) (acc : Dict Nat (Die × CU)) : Raises dwarfErrs (e.allDies info l acc) := by
  induction l generalizing acc with
  | nil => exact .ok
  | cons cu t ih =>
    unfold ElfFile.allDies
    exact .bind (getDIEs_raises (abbrevs_raises e cu) cu) fun _ _ => ih _

theorem toInt_raises (v : AVal) : Raises dwarfErrs v.toInt := by
  cases v with
  | num n => exact .ok
  | true_ => exact .ok
  | bytes b => exact .error (by decide)
  | none_ => exact .error (by decide)

theorem evalAttr_raises (e : ElfFile) (form : Nat) (v : AVal) : Raises dwarfErrs (e.evalAttr form v) := by
  have hs : ∀ name, Raises dwarfErrs (e.sectionString name v) := by
    intro name
    unfold ElfFile.sectionString
    refine .bind (lookupShdr_raises e _ _) fun o _ => ?_
    cases o with
    | none => exact .ok
    | some s =>
      refine .bind (data_raises e s) fun d _ => .bind (toInt_raises v) fun i _ => .bind ?_ fun b _ => .bind ((decode_raises b).mono (by decide)) fun _ _ => .ok
      unfold lookupString
      exact .bind ((indexNul_raises _ _).mono (by decide)) fun _ _ => .ok
  unfold ElfFile.evalAttr
  refine raises_ite (hs _) (raises_ite (hs _) (raises_ite ?_ (raises_ite ?_ .ok)))
  · cases v with
    | bytes b => exact .bind ((decode_raises b).mono (by decide)) fun _ _ => .ok
    | _ => exact .error (by decide)
  · cases v with
    | bytes b =>
      simp only []
      split
      · exact .ok
      · exact .ok
      · exact .error (by decide)
    | _ => exact .error (by decide)

theorem lookupDie_raises (dies : Dict Nat (Die × CU)) (k : Int) : Raises dwarfErrs (lookupDie dies k) := by
  unfold lookupDie
  refine raises_ite (.error (by decide)) ?_
  split
  · exact .ok
  · exact .error (by decide)

theorem getAttrStr_raises (e : ElfFile) (a : DAttr) : Raises dwarfErrs (e.getAttrStr ⟨a, none, none⟩).1 := by
  unfold ElfFile.getAttrStr ElfFile.getAttrEval
  simp only []
  cases hv : e.evalAttr a.form a.value with
  | error x => exact .error (evalAttr_raises e _ _ x hv)
  | ok v =>
    simp only []
    cases ht : attrText v a.value with
    | ok s => exact .ok
    | error x =>
      refine .error ?_
      cases v with
      | none_ =>
        cases hr : a.value <;> rw [hr] at ht <;> cases ht
        decide
      | _ => cases ht

theorem cuNameOf_raises (e : ElfFile) (dies : Dict Nat (Die × CU)) (x : Die × CU) : Raises dwarfErrs (e.cuNameOf dies x) := by
  unfold ElfFile.cuNameOf
  refine .bind ?_ fun y _ => .bind (lookupDie_raises _ _) fun c _ => ?_
  · unfold originDie
    split
    · exact .ok
    · exact .bind (toInt_raises _) fun _ _ => lookupDie_raises _ _
  · split
    · exact .error (by decide)
    · exact getAttrStr_raises e _

theorem dieAddr_raises (e : ElfFile) (x : Die × CU) : Raises dwarfErrs (e.dieAddr x) := by
  unfold ElfFile.dieAddr
  refine raises_ite ?_ (raises_ite ?_ .ok)
  · split
    · exact .ok
    · exact .bind (toInt_raises _) fun _ _ => .ok
  · split
    · exact .ok
    · refine .bind (evalAttr_raises e _ _) fun v _ => ?_
      cases v with
      | none_ => exact .ok
      | num n => exact .ok
      | str s => exact .error (by decide)

/-- **C110** the exceptions of `add_cus_to_symbols`, for any bytes. -/
theorem addCus_raises (e : ElfFile) : Raises dwarfErrs e.addCus := by
  unfold ElfFile.addCus
  refine .bind (infoData_raises e) fun info _ => .bind ?_ fun cus _ => .bind (allDies_raises e info cus []) fun dies _ =>
    .bind ((symbols_raises e).mono (by decide)) fun syms _ => raises_foldlM _ (fun p _ acc => ?_) _
  · unfold ElfFile.cus
    exact .bind (infoData_raises e) fun d _ => cusFrom_raises _ _ _
  · unfold ElfFile.nameStep
    refine .bind (dieAddr_raises e p.2) fun o _ => ?_
    cases o with
    | none => exact .ok
    | some addr =>
      refine raises_ite .ok ?_
      split
      · exact .ok
      · exact .bind (cuNameOf_raises e dies p.2) fun _ _ => .ok

end EspSize
