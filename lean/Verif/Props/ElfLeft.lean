import Verif.Props.ElfObj
/-! # C96: what an `Elf` object keeps of a table that cannot be read -/
namespace EspSize

theorem recordsRead_fields (o : Order) (fmt : Str) (hpos : 0 < calcsize fmt) (rs : List (List (Nat × Nat)))
    (h : ∀ fs ∈ rs, fmtWidths fmt = fs.map Prod.fst) (rest : Bytes) (hr : rest.length < calcsize fmt) :
    recordsRead fmt (rs.flatMap (fieldBytes o) ++ rest) = rs.map fun fs => fs.map fun f => intBytes o f.1 f.2 := by
  induction rs with
  | nil =>
    unfold recordsRead
    by_cases h0 : rest = [] <;> simp [h0, hr]
  | cons fs t ih =>
    have hw := h fs (by simp)
    have hl := calcsize_fields o fmt fs hw
    rw [List.flatMap_cons, List.append_assoc]
    have hne : fieldBytes o fs ++ (t.flatMap (fieldBytes o) ++ rest) ≠ [] := by
      intro he
      have := congrArg List.length he
      simp only [List.length_append, List.length_nil] at this
      omega
    have hlen : ¬ (fieldBytes o fs ++ (t.flatMap (fieldBytes o) ++ rest)).length < calcsize fmt := by
      simp only [List.length_append]; omega
    have hdrop : (fieldBytes o fs ++ (t.flatMap (fieldBytes o) ++ rest)).drop (calcsize fmt) = t.flatMap (fieldBytes o) ++ rest := by
      rw [← hl]; simp
    unfold recordsRead
    rw [if_neg hne, if_neg hlen, if_neg (by omega), hdrop, ih fun fs hfs => h fs (List.mem_cons_of_mem _ hfs)]
    simp only [List.map_cons]
    rw [hw, chunks_fields]

theorem records_cut (o : Order) (fmt : Str) (hpos : 0 < calcsize fmt) (rs : List (List (Nat × Nat)))
    (h : ∀ fs ∈ rs, fmtWidths fmt = fs.map Prod.fst) (rest : Bytes) (hne : rest ≠ []) (hr : rest.length < calcsize fmt) :
    records fmt (rs.flatMap (fieldBytes o) ++ rest) = .error .structError := by
  induction rs with
  | nil =>
    unfold records
    simp [hne, hr]
  | cons fs t ih =>
    have hl := calcsize_fields o fmt fs (h fs (by simp))
    rw [List.flatMap_cons, List.append_assoc]
    have hne : fieldBytes o fs ++ (t.flatMap (fieldBytes o) ++ rest) ≠ [] := by
      intro he
      have := congrArg List.length he
      simp only [List.length_append, List.length_nil] at this
      omega
    have hlen : ¬ (fieldBytes o fs ++ (t.flatMap (fieldBytes o) ++ rest)).length < calcsize fmt := by
      simp only [List.length_append]; omega
    have hdrop : (fieldBytes o fs ++ (t.flatMap (fieldBytes o) ++ rest)).drop (calcsize fmt) = t.flatMap (fieldBytes o) ++ rest := by
      rw [← hl]; simp
    unfold records
    rw [if_neg hne, if_neg hlen, if_neg (by omega), hdrop, ih fun fs hfs => h fs (List.mem_cons_of_mem _ hfs)]
    rfl

theorem okPrefix_all {α β γ : Type} {f : α → Except Err β} (g : γ → α) (k : γ → β) (l : List γ) (h : ∀ x ∈ l, f (g x) = .ok (k x)) :
    okPrefix f (l.map g) = l.map k := by
  induction l with
  | nil => rfl
  | cons x t ih =>
    simp only [List.map_cons, okPrefix, h x (by simp), ih fun y hy => h y (List.mem_cons_of_mem _ hy)]

theorem tableRead_cut {e : ElfFile} {s : RawShdr} {tab : List RawSym} {rest : Bytes}
    (hd : e.data s = .ok ((tab.flatMap fun y => fieldBytes e.order (symFields e.cls y)) ++ rest))
    (hr : rest.length < calcsize (symFmt e.cls)) (ht : ∀ y ∈ tab, y.strndx = s.link ∧ Fits (symFields e.cls y)) : e.tableRead s = tab := by
  unfold ElfFile.tableRead
  rw [hd]
  have : (tab.flatMap fun y => fieldBytes e.order (symFields e.cls y)) = (tab.map (symFields e.cls)).flatMap (fieldBytes e.order) := by
    rw [List.flatMap_map]
  simp only [this]
  rw [recordsRead_fields e.order (symFmt e.cls) (by cases e.cls <;> decide) _ _ _ hr]
  · simp only [List.map_map]
    have := okPrefix_all (f := symOf e.order e.cls s.link) (fun y => (symFields e.cls y).map fun f => intBytes e.order f.1 f.2) id tab
      (fun y hy => by have := ht y hy; rw [← this.1]; exact symOf_enc _ _ _ this.2)
    rw [List.map_id] at this
    exact this
  · intro fs hfs
    obtain ⟨y, _, rfl⟩ := List.mem_map.mp hfs
    exact sym_widths _ y

/-- **C96** the symbols kept: if the tables before one are whole, and that one ends within a symbol, the first use raises
`struct.error`, and the later ones give the symbols of the tables before and the whole ones of that table, without
those of the tables behind it. -/
theorem C96_left_symbols (e : ElfFile) (before behind : List RawShdr) (s : RawShdr) (tabs : RawShdr → List RawSym) (rest : Bytes)
    (he : e.shdrs = before ++ s :: behind)
    (hb : ∀ t ∈ before, (t.type = 2 ∨ t.type = 11) → e.data t = .ok ((tabs t).flatMap fun y => fieldBytes e.order (symFields e.cls y)) ∧
      t.size = (tabs t).length * calcsize (symFmt e.cls) ∧ ∀ y ∈ tabs t, y.strndx = t.link ∧ Fits (symFields e.cls y))
    (hs : s.type = 2 ∨ s.type = 11) (hz : s.size ≠ 0)
    (hd : e.data s = .ok (((tabs s).flatMap fun y => fieldBytes e.order (symFields e.cls y)) ++ rest))
    (hy : ∀ y ∈ tabs s, y.strndx = s.link ∧ Fits (symFields e.cls y)) (hne : rest ≠ []) (hr : rest.length < calcsize (symFmt e.cls)) :
    (accSymbols e {}).1 = .error .structError ∧
    (accSymbols e (accSymbols e {}).2).1 = .ok ((before.filter fun t => t.type = 2 || t.type = 11).flatMap tabs ++ tabs s) := by
  have hfail : e.tableSymbols s = .error .structError := by
    unfold ElfFile.tableSymbols
    rw [if_pos hs, if_neg hz, hd]
    have : ((tabs s).flatMap fun y => fieldBytes e.order (symFields e.cls y)) = ((tabs s).map (symFields e.cls)).flatMap (fieldBytes e.order) := by
      rw [List.flatMap_map]
    simp only [bind, Except.bind, this]
    rw [records_cut e.order (symFmt e.cls) (by cases e.cls <;> decide) _ _ _ hne hr]
    intro fs hfs
    obtain ⟨y, _, rfl⟩ := List.mem_map.mp hfs
    exact sym_widths _ y
  have herr : e.symbols = .error .structError := by
    unfold ElfFile.symbols
    have : e.shdrs.mapM e.tableSymbols = .error .structError := by
      rw [he]
      clear he
      induction before with
      | nil => simp only [List.nil_append, List.mapM_cons, hfail]; rfl
      | cons t b ih =>
        simp only [List.cons_append, List.mapM_cons]
        rw [tableSymbols_enc (hb t (by simp)), ih fun t ht => hb t (List.mem_cons_of_mem _ ht)]
        rfl
    rw [this]
    rfl
  have hacc : accSymbols e {} = (.error .structError, { ({} : ElfObj) with syms := some (e.symbolsRead e.shdrs) }) := by
    unfold accSymbols
    rw [herr]
  rw [hacc]
  refine ⟨rfl, ?_⟩
  show Except.ok (e.symbolsRead e.shdrs) = _
  rw [he]
  congr 1
  clear he herr hacc
  induction before with
  | nil =>
    simp only [List.nil_append, ElfFile.symbolsRead, hfail, List.filter_nil, List.flatMap_nil]
    exact tableRead_cut hd hr hy
  | cons t b ih =>
    simp only [List.cons_append, ElfFile.symbolsRead]
    rw [tableSymbols_enc (hb t (by simp)), ih fun t ht => hb t (List.mem_cons_of_mem _ ht), List.filter_cons]
    simp only []
    split <;> simp

/-- **C96** the units kept: those before the first that cannot be read. -/
theorem C96_left_units (o : Order) (us : List Unit) (h : ∀ u ∈ us, u.Valid o) (rest : Bytes) {x : Err}
    (hx : cuAt o (us.flatMap (Unit.bytes o) ++ rest) (us.flatMap (Unit.bytes o)).length = .error x) :
    cusRead o (us.flatMap (Unit.bytes o) ++ rest) 0 = placed o 0 us ∧
    (rest ≠ [] → cusFrom o (us.flatMap (Unit.bytes o) ++ rest) 0 = .error x) := by
  have key : ∀ (us : List Unit) (pre : Bytes), (∀ u ∈ us, u.Valid o) →
      cuAt o (pre ++ us.flatMap (Unit.bytes o) ++ rest) (pre ++ us.flatMap (Unit.bytes o)).length = .error x →
      cusRead o (pre ++ us.flatMap (Unit.bytes o) ++ rest) pre.length = placed o pre.length us ∧
      (rest ≠ [] → cusFrom o (pre ++ us.flatMap (Unit.bytes o) ++ rest) pre.length = .error x) := by
    intro us
    induction us with
    | nil =>
      intro pre _ hx
      simp only [List.flatMap_nil, List.append_nil] at hx ⊢
      constructor
      · unfold cusRead
        split
        · split
          · rfl
          · rename_i cu hc; rw [hx] at hc; cases hc
        · rfl
      · intro hne
        have hlt : pre.length < (pre ++ rest).length := by
          have : rest.length ≠ 0 := fun h => hne (List.length_eq_zero_iff.mp h)
          simp only [List.length_append]; omega
        unfold cusFrom
        rw [dif_pos hlt]
        split
        · rename_i y hc; rw [hx] at hc; cases hc; rfl
        · rename_i cu hc; rw [hx] at hc; cases hc
    | cons u t ih =>
      intro pre hv hx
      have hat : At (pre ++ (u :: t).flatMap (Unit.bytes o) ++ rest) pre.length (u.bytes o) :=
        ⟨pre, t.flatMap (Unit.bytes o) ++ rest, by simp, rfl⟩
      have hc := cuAt_enc (hv u (by simp)) hat
      have hpos : 0 < (u.bytes o).length := by rw [Unit.length_bytes]; unfold Unit.lenSize; split <;> omega
      have hlt : pre.length < (pre ++ (u :: t).flatMap (Unit.bytes o) ++ rest).length := by
        have := hat.le; omega
      have he : pre.length + ((u.cu o pre.length).lenBytes + (u.cu o pre.length).length) = (pre ++ u.bytes o).length := by
        rw [List.length_append, Unit.length_bytes]; rfl
      have hd : pre ++ (u :: t).flatMap (Unit.bytes o) = (pre ++ u.bytes o) ++ t.flatMap (Unit.bytes o) := by simp
      have hrec := ih (pre ++ u.bytes o) (fun x hx => hv x (List.mem_cons_of_mem _ hx)) (by rw [← hd]; exact hx)
      constructor
      · unfold cusRead
        rw [dif_pos hlt]
        split
        · rename_i y hy; rw [hc] at hy; cases hy
        · rename_i cu hy
          rw [hc] at hy
          cases hy
          rw [he, hd, hrec.1]
          simp [placed]
      · intro hne
        unfold cusFrom
        rw [dif_pos hlt]
        split
        · rename_i y hy; rw [hc] at hy; cases hy
        · rename_i cu hy
          rw [hc] at hy
          cases hy
          rw [he, hd, hrec.2 hne]
          rfl
  exact key us [] h hx

/-- **C96** the abbreviations kept: those before the first that cannot be read. -/
theorem C96_left_abbrevs {o : Order} {d : Bytes} {x : Err} {l : List AbbrevEntry} {bss : List Bytes} {off : Nat}
    (h : All2 (AbbrevEntryEnc o) l bss) (hat : At d off bss.flatten) (hx : abbrevEntryAt o d (off + bss.flatten.length) = .error x) :
    abbrevsRead o d off = l := by
  induction l generalizing bss off with
  | nil =>
    cases bss with
    | cons b t => exact h.elim
    | nil =>
      simp only [List.flatten_nil, List.length_nil, Nat.add_zero] at hx
      unfold abbrevsRead
      split
      · rfl
      · split
        · rfl
        · split
          · rfl
          · rename_i e next hy; rw [hx] at hy; cases hy
  | cons e l ih =>
    cases bss with
    | nil => exact h.elim
    | cons a t =>
      simp only [List.flatten_cons] at hat hx
      have h1 := abbrevEntryAt_enc h.1 hat.left
      have h2 := ih h.2 hat.right (by rw [List.length_append, ← Nat.add_assoc] at hx; exact hx)
      obtain ⟨cb, rest, hb, hc, hne⟩ : ∃ cb rest, a = cb ++ rest ∧ Uleb e.code cb ∧ e.code ≠ 0 := by
        cases h.1 with
        | mk hc hne ht hch ha =>
          rename_i cb tb ab
          exact ⟨cb, tb ++ intBytes o 1 e.children ++ ab, by simp only [List.append_assoc], hc, hne⟩
      have h0 : At d off (cb ++ rest) := by rw [← hb]; exact hat.left
      have h3 := h0.left.uleb hc
      unfold abbrevsRead
      rw [h3]
      simp only [hne, if_false]
      split
      · rename_i y hy; rw [h1] at hy; cases hy
      · rename_i e' next hy
        rw [h1] at hy
        cases hy
        rw [h2]

/-! ### Examples -/

/-- A unit, and another one of which two bytes are there. -/
example : cusRead .little (exTypeUnit.bytes .little ++ [9, 0]) 0 = placed .little 0 [exTypeUnit] := by
  have := C96_left_units .little [exTypeUnit] (by intro u hu; simp only [List.mem_singleton] at hu; subst hu; exact exTypeUnit_valid) [9, 0]
    (x := .elf) (by decide)
  simpa using this.1

/-- A declaration, and another one of which the code is there. -/
example : abbrevsRead .little [1, 0x11, 1, 0, 0, 2] 0 = [⟨1, 0x11, 1, [⟨0, 0, none⟩]⟩] := by
  have e0 : AbbrevAttrEnc ⟨0, 0, none⟩ [0, 0] := .plain (ab := [0]) (fb := [0]) (uleb_small 0 (by decide)) (uleb_small 0 (by decide)) (by decide)
  have n1 : AbbrevEntryEnc .little ⟨1, 0x11, 1, [⟨0, 0, none⟩]⟩ [1, 0x11, 1, 0, 0] :=
    .mk (cb := [1]) (tb := [0x11]) (uleb_small 1 (by decide)) (by decide) (uleb_small 0x11 (by decide)) (by decide) (.done e0)
  exact C96_left_abbrevs (bss := [[1, 0x11, 1, 0, 0]]) ⟨n1, trivial⟩ ⟨[], [2], rfl, rfl⟩ (x := .indexError) (by decide)

end EspSize
