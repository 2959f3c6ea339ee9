import Verif.Spec.Table
import Verif.Props.SymSummary
import Verif.Proofs.Sort
import Verif.Props.Fnmatch
import Verif.Props.Symbols
/-! # C39: the archive, file and symbol tables -/
namespace EspSize

theorem All2.length_eq {α β : Type} {R : α → β → Prop} {a : List α} {b : List β} (h : All2 R a b) :
    a.length = b.length := by
  induction a generalizing b with
  | nil => cases b with
    | nil => rfl
    | cons => exact absurd h (by simp [All2])
  | cons x a ih => cases b with
    | nil => exact absurd h (by simp [All2])
    | cons y b => simp [ih h.2]

theorem All2.get {α β : Type} {R : α → β → Prop} {a : List α} {b : List β} (h : All2 R a b) {i : Nat} {x : α}
    (hx : a[i]? = some x) : ∃ y, b[i]? = some y ∧ R x y := by
  induction a generalizing b i with
  | nil => simp at hx
  | cons z a ih =>
    cases b with
    | nil => exact absurd h (by simp [All2])
    | cons w b =>
      cases i with
      | zero => simp only [List.getElem?_cons_zero, Option.some.injEq] at hx; subst hx; exact ⟨w, by simp, h.1⟩
      | succ i => simp only [List.getElem?_cons_succ] at hx ⊢; exact ih h.2 hx

theorem All2.map_right {α β γ : Type} {R : α → γ → Prop} {f : β → γ} {a : List α} {b : List β}
    (h : All2 (fun x y => R x (f y)) a b) : All2 R a (b.map f) := by
  induction a generalizing b with
  | nil => cases b with
    | nil => trivial
    | cons => exact absurd h (by simp [All2])
  | cons x a ih => cases b with
    | nil => exact absurd h (by simp [All2])
    | cons y b => exact ⟨h.1, ih h.2⟩

theorem All2.append {α β : Type} {R : α → β → Prop} {a a' : List α} {b b' : List β} (h : All2 R a b)
    (h' : All2 R a' b') : All2 R (a ++ a') (b ++ b') := by
  induction a generalizing b with
  | nil => cases b with
    | nil => exact h'
    | cons => exact absurd h (by simp [All2])
  | cons x a ih => cases b with
    | nil => exact absurd h (by simp [All2])
    | cons y b => exact ⟨h.1, ih h.2⟩

/-- The relation only matters for corresponding members. -/
theorem All2.flatMap {α β γ δ : Type} {R : α → β → Prop} {Q : γ → δ → Prop} {f : α → List γ} {g : β → List δ}
    {a : List α} {b : List β} (h : All2 R a b) (hfg : ∀ x ∈ a, ∀ y ∈ b, R x y → All2 Q (f x) (g y)) :
    All2 Q (a.flatMap f) (b.flatMap g) := by
  induction a generalizing b with
  | nil => cases b with
    | nil => trivial
    | cons => exact absurd h (by simp [All2])
  | cons x a ih => cases b with
    | nil => exact absurd h (by simp [All2])
    | cons y b =>
      exact All2.append (hfg x (by simp) y (by simp) h.1)
        (ih h.2 fun x' hx y' hy => hfg x' (by simp [hx]) y' (by simp [hy]))

theorem All2.map_both {α β γ δ : Type} {R : α → β → Prop} {Q : γ → δ → Prop} {f : α → γ} {g : β → δ}
    {a : List α} {b : List β} (h : All2 R a b) (hfg : ∀ x ∈ a, ∀ y ∈ b, R x y → Q (f x) (g y)) :
    All2 Q (a.map f) (b.map g) := by
  induction a generalizing b with
  | nil => cases b with
    | nil => trivial
    | cons => exact absurd h (by simp [All2])
  | cons x a ih => cases b with
    | nil => exact absurd h (by simp [All2])
    | cons y b =>
      exact ⟨hfg x (by simp) y (by simp) h.1, ih h.2 fun x' hx y' hy => hfg x' (by simp [hx]) y' (by simp [hy])⟩

theorem All2.eq {α : Type} {a b : List α} (h : All2 (fun x y => y = x) a b) : b = a := by
  induction a generalizing b with
  | nil => cases b with
    | nil => rfl
    | cons => exact absurd h (by simp [All2])
  | cons x a ih => cases b with
    | nil => exact absurd h (by simp [All2])
    | cons y b => rw [h.1, ih h.2]

theorem All2.keys {α β : Type} {R : Str × α → Str × β → Prop} {a : Dict Str α} {b : Dict Str β}
    (h : All2 R a b) (hR : ∀ x y, R x y → y.1 = x.1) : dkeys b = dkeys a := by
  apply All2.eq
  exact All2.map_both h fun x _ y _ hxy => hR x y hxy

theorem skeleton_entryOf (m : MemMap) (k : Str) (recs : List Rec) : Skeleton m (entryOf (summaryTypes m) k recs) := by
  unfold Skeleton
  simp only [entryOf, typesOf, summaryTypes, dmap, List.map_map]
  apply all2_map
  intro t _
  refine ⟨rfl, ?_⟩
  simp only [Function.comp, secsOf, dmap, List.map_map]
  apply all2_map
  intro s _
  exact ⟨rfl, rfl⟩

theorem skeleton_cols {m : MemMap} (hm : m.WF) {e : Entry} (he : Skeleton m e) (args : Args) :
    All2 (fun c tc => ∃ z d, cellOf e c = some (z, d) ∧ tc = tcol args z d) (reportCols m) (entryCols args e) := by
  refine ⟨⟨_, _, rfl, rfl⟩, ?_⟩
  have hk : KeysNodup e.types := by
    unfold KeysNodup
    rw [All2.keys he fun x y h => h.1]
    exact hm.1
  refine All2.flatMap he fun t ht x hx hr => ?_
  have hx' : dget e.types t.1 = some x.2 := by rw [← hr.1]; exact dget_of_mem hk hx
  refine ⟨⟨x.2.size, x.2.sizeDiff, by simp [cellOf, hx'], rfl⟩, ?_⟩
  have hs : KeysNodup x.2.sections := by
    unfold KeysNodup
    rw [All2.keys hr.2 fun x y h => h.1]
    exact (hm.2 t ht).1
  refine All2.map_both hr.2 fun s _ y hy hsy => ?_
  refine ⟨y.2.size, y.2.sizeDiff, ?_, rfl⟩
  have hy' : dget x.2.sections s.1 = some y.2 := by rw [← hsy.1]; exact dget_of_mem hs hy
  simp [cellOf, hx', hy']

theorem skeleton_headers {m : MemMap} (hm : m.WF) {e : Entry} (he : Skeleton m e) (args : Args) :
    str "Total Size" :: entryHeaders args e = (reportCols m).map (colTitle m args.abbrev_) := by
  simp only [reportCols, List.map_cons, colTitle, List.cons.injEq, true_and]
  rw [List.map_flatMap]
  apply All2.eq
  refine All2.flatMap he fun t ht x _ hr => ?_
  refine ⟨hr.1, ?_⟩
  rw [List.map_map]
  refine All2.map_both hr.2 fun s hs y _ hsy => ?_
  have h1 : getSec m t.1 s.1 = some s.2 := by
    unfold getSec getType
    rw [dget_of_mem hm.1 ht]
    exact dget_of_mem (hm.2 t ht).1 hs
  simp only [Function.comp, colTitle, h1, hsy.1, hsy.2]

/-! ## Sorting the rows -/

theorem isortBy_map {α β : Type} (f : α → β) (b : β → β → Bool) (l : List α) :
    isortBy b (l.map f) = (isortBy (fun x y => b (f x) (f y)) l).map f := by
  have ins : ∀ x (l : List α), insertBy b (f x) (l.map f) = (insertBy (fun x y => b (f x) (f y)) x l).map f := by
    intro x l
    induction l with
    | nil => rfl
    | cons y t ih =>
      simp only [List.map_cons, insertBy]
      split
      · rfl
      · rw [ih]; rfl
  induction l with
  | nil => rfl
  | cons x t ih => simp only [List.map_cons, isortBy, ih, ins]

theorem sortedBy_map {α β : Type} (f : α → β) (key : β → Int) (rev : Bool) (l : List α) :
    sortedBy key rev (l.map f) = (sortedBy (fun x => key (f x)) rev l).map f := isortBy_map _ _ _

theorem mapM_ok {α β : Type} {f : α → Except Err β} {g : α → β} {l : List α} (h : ∀ x ∈ l, f x = .ok (g x)) :
    l.mapM f = .ok (l.map g) := by
  induction l with
  | nil => rfl
  | cons x t ih =>
    rw [List.mapM_cons, h x (by simp), ih fun y hy => h y (by simp [hy])]
    rfl

theorem mapM_error {α β : Type} {f : α → Except Err β} {x : α} {t : List α} {e : Err} (h : f x = .error e) :
    (x :: t).mapM f = .error e := by
  rw [List.mapM_cons, h]; rfl

theorem sortRows_ok {args : Args} {n : Int} {rows : List (Str × List TCol)} {key : Str × List TCol → Int}
    (h : ∀ r ∈ rows, rowKey args n r = .ok (key r)) :
    sortRows args n rows = .ok (sortedBy key args.sortReverse rows) := by
  unfold sortRows
  rw [mapM_ok (g := fun r => (key r, r)) fun r hr => by rw [h r hr]; rfl]
  simp only [sortedBy_map, List.map_map]
  congr 1
  rw [show ((fun x : Int × Str × List TCol => x.2) ∘ fun r => (key r, r)) = id from rfl, List.map_id]

theorem findIdx?_spec {l : List Str} {s : Str} {i : Nat} :
    l.findIdx? (· = s) = some i ↔ l[i]? = some s ∧ s ∉ l.take i := by
  induction l generalizing i with
  | nil => simp
  | cons x t ih =>
    rw [List.findIdx?_cons]
    by_cases h : x = s
    · simp only [h, decide_true, if_true, Option.some.injEq]
      constructor
      · rintro rfl; simp
      · rintro ⟨_, h2⟩
        cases i with
        | zero => rfl
        | succ i => simp at h2
    · simp only [h, decide_false, Bool.false_eq_true, if_false]
      cases i with
      | zero => simp [h]
      | succ i =>
        simp only [List.getElem?_cons_succ, List.take_succ_cons, List.mem_cons, Ne.symm h, false_or, ← ih]
        simp

/-- The index that the sort option stands for, in the list of columns with sizes. -/
theorem selects_index {first : Str} {cols : List Str} {sort : Str} {i : Nat} (h : Selects first cols sort i) :
    ∃ n, sortNumber (first :: cols) sort = .ok n ∧ n ≠ 0 ∧
      ∀ {α : Type} (l : List α) x, l.length = cols.length → l[i]? = some x →
        pyIndex l (if n > 0 then n - 1 else n) = .ok x := by
  obtain ⟨hi, ⟨k, hk, hki⟩ | ⟨hk, hf, hc, ht⟩⟩ := h
  · refine ⟨k, ?_, by omega, ?_⟩
    · unfold sortNumber; rw [hk]; simp only; rw [if_neg (by omega)]
    · intro α l x hl hx
      unfold pyIndex
      have : (if (if k > 0 then k - 1 else k) < 0 then (if k > 0 then k - 1 else k) + (l.length : Int)
          else (if k > 0 then k - 1 else k)) = i := by
        rcases hki with rfl | rfl
        · rw [if_pos (show (i : Int) + 1 > 0 by omega), if_neg (by omega)]; omega
        · rw [if_neg (show ¬ (i : Int) - cols.length > 0 by omega), if_pos (by omega)]; omega
      simp only [this, Int.toNat_natCast, hx]
      rw [if_neg (by omega)]
  · refine ⟨(i : Int) + 1, ?_, by omega, ?_⟩
    · unfold sortNumber
      rw [hk]
      have : (first :: cols).findIdx? (· = sort) = some (i + 1) := by
        rw [findIdx?_spec]
        simp only [List.getElem?_cons_succ, List.take_succ_cons, List.mem_cons, hc, hf, ht, or_self,
          not_false_eq_true, and_self]
      simp only [this]
    · intro α l x hl hx
      unfold pyIndex
      rw [if_pos (show (i : Int) + 1 > 0 by omega)]
      have : (if (i : Int) + 1 - 1 < 0 then (i : Int) + 1 - 1 + l.length else (i : Int) + 1 - 1) = i := by
        rw [if_neg (by omega)]; omega
      simp only [this, Int.toNat_natCast, hx]
      rw [if_neg (by omega)]

/-- If the option selects no column, the number is rejected or out of range. -/
theorem selects_none {first : Str} {cols : List Str} {sort : Str} (h : ¬ ∃ i, Selects first cols sort i) :
    sortNumber (first :: cols) sort = .error .exit ∨
    ∃ n, sortNumber (first :: cols) sort = .ok n ∧
      ∀ {α : Type} (l : List α), l.length = cols.length →
        pyIndex l (if n > 0 then n - 1 else n) = .error .indexError := by
  unfold sortNumber
  cases hk : pyInt10 sort with
  | some k =>
    simp only
    by_cases h0 : k = 0
    · left; rw [if_pos h0]
    · right
      rw [if_neg h0]
      refine ⟨k, rfl, ?_⟩
      intro α l hl
      unfold pyIndex
      simp only
      by_cases hp : k > 0
      · rw [if_pos hp, if_neg (show ¬ k - 1 < 0 by omega), if_neg (by omega)]
        have : (k - 1).toNat ≥ l.length := by
          apply Nat.le_of_not_lt
          intro hlt
          exact h ⟨(k - 1).toNat, by omega, Or.inl ⟨k, hk, Or.inl (by omega)⟩⟩
        rw [List.getElem?_eq_none this]
      · rw [if_neg hp, if_pos (show k < 0 by omega)]
        by_cases hn : k + (l.length : Int) < 0
        · rw [if_pos hn]
        · exfalso
          exact h ⟨(k + l.length).toNat, by omega, Or.inl ⟨k, hk, Or.inr (by omega)⟩⟩
  | none =>
    left
    simp only
    cases hf : (first :: cols).findIdx? (· = sort) with
    | none => rfl
    | some j =>
      cases j with
      | zero => rfl
      | succ i =>
        exfalso
        rw [findIdx?_spec] at hf
        simp only [List.getElem?_cons_succ, List.take_succ_cons, List.mem_cons, not_or] at hf
        exact h ⟨i, (List.getElem?_eq_some_iff.mp hf.1).1, Or.inr ⟨hk, hf.2.1, hf.1, hf.2.2⟩⟩

theorem foldl_addRow {n : Nat} (rows : List (List Str)) (h : ∀ r ∈ rows, r.length = n) (t : Table)
    (ht : t.headers.length = n) (hr : ∀ r ∈ t.rows, r.length = n) :
    rows.foldl Table.addRow t = { headers := t.headers, rows := t.rows ++ rows } := by
  have pad : ∀ r : List Str, r.length = n → padRow n r = r := by
    intro r hr; simp [padRow, hr]
  induction rows generalizing t with
  | nil => simp
  | cons r rs ih =>
    have hrn := h r (by simp)
    have : t.addRow r = { headers := t.headers, rows := t.rows ++ [r] } := by
      unfold Table.addRow
      simp only [ht, hrn, Nat.max_self]
      rw [pad _ ht, pad _ hrn]
      congr 2
      conv => rhs; rw [← List.map_id t.rows]
      exact List.map_congr_left fun x hx => pad x (hr x hx)
    rw [List.foldl_cons, this, ih (fun x hx => h x (by simp [hx])) ⟨t.headers, t.rows ++ [r]⟩ ht]
    · simp
    · intro x hx
      simp only [List.mem_append, List.mem_singleton] at hx
      rcases hx with hx | rfl
      · exact hr x hx
      · exact hrn

/-- **C39** a table about a nonempty summary.  A valid sort option selects a column: the table then has one row
per entry, sorted stably by that column; every row has a cell for every column, showing the value of the entry
in this column.  Any other sort option is rejected. -/
theorem detailTable_spec {m : MemMap} (hm : m.WF) (title : Str) (F : Dict Str Entry) (hF : F ≠ [])
    (hs : ∀ p ∈ F, Skeleton m p.2) (args : Args) :
    (∀ i, Selects title ((reportCols m).map (colTitle m args.abbrev_)) args.sort i →
      ∃ c es rows, (reportCols m)[i]? = some c ∧
        detailTable title F args =
          .ok { headers := title :: (reportCols m).map (colTitle m args.abbrev_), rows := rows } ∧
        StableSort (fun p => cellKey args c p.2) args.sortReverse F es ∧
        All2 (RowFor m args) es rows) ∧
    ((¬ ∃ i, Selects title ((reportCols m).map (colTitle m args.abbrev_)) args.sort i) →
      detailTable title F args = .error .exit) := by
  obtain ⟨p0, F0, hF0⟩ := List.exists_cons_of_ne_nil hF
  have hlen : ∀ p ∈ F, (entryCols args p.2).length = ((reportCols m).map (colTitle m args.abbrev_)).length := by
    intro p hp
    rw [← (skeleton_cols hm (hs p hp) args).length_eq, List.length_map]
  have hdef : detailTable title F args = (do
      let rows ← getTableSorted F (title :: (reportCols m).map (colTitle m args.abbrev_)) args
      .ok (rows.foldl Table.addRow { headers := title :: (reportCols m).map (colTitle m args.abbrev_), rows := [] })) := by
    unfold detailTable
    rw [← skeleton_headers hm (hs p0 (by simp [hF0])) args, hF0]
    rfl
  constructor
  · intro i hi
    obtain ⟨n, hn, _, hidx⟩ := selects_index hi
    have hilen : i < (reportCols m).length := by simpa using hi.1
    obtain ⟨c, hc⟩ : ∃ c, (reportCols m)[i]? = some c := ⟨_, List.getElem?_eq_getElem hilen⟩
    have hrow : ∀ p ∈ F, rowKey args n (entryRow args p) = .ok (cellKey args c p.2) := by
      intro p hp
      obtain ⟨tc, htc, z, d, hcell, rfl⟩ := (skeleton_cols hm (hs p hp) args).get hc
      unfold rowKey entryRow
      simp only [hidx _ _ (hlen p hp) htc, bind, Except.bind, cellKey, hcell, tcol]
    refine ⟨c, sortedBy (fun p => cellKey args c p.2) args.sortReverse F,
      (sortedBy (fun p => cellKey args c p.2) args.sortReverse F).map
        (fun p => (entryRow args p).1 :: (entryRow args p).2.map (·.info)), hc, ?_, sortedBy_stable _ _ _, ?_⟩
    · rw [hdef]
      unfold getTableSorted
      rw [hn]
      have hmapM : (F.map (entryRow args)).mapM (fun r => (rowKey args n r).map fun k => (k, r)) =
          .ok (F.map fun p => (cellKey args c p.2, entryRow args p)) := by
        rw [List.mapM_map]
        exact mapM_ok fun p hp => by simp only [Function.comp]; rw [hrow p hp]; rfl
      have hsort : sortRows args n (F.map (entryRow args)) =
          .ok ((sortedBy (fun p => cellKey args c p.2) args.sortReverse F).map (entryRow args)) := by
        unfold sortRows
        rw [hmapM]
        simp only [sortedBy_map, List.map_map]
        rfl
      simp only [bind, Except.bind, hsort, List.map_map]
      rw [foldl_addRow (n := (reportCols m).length + 1)]
      · simp only [List.nil_append]
        rfl
      · intro r hr
        obtain ⟨p, hp, rfl⟩ := List.mem_map.mp hr
        have hp' : p ∈ F := (sortedBy_stable _ _ F).perm.mem_iff.mp hp
        have := hlen p hp'
        simp only [List.length_map] at this
        simp [entryRow, this]
      · simp
      · simp
    · apply all2_map
      intro p hp
      have hp' : p ∈ F := (sortedBy_stable _ _ F).perm.mem_iff.mp hp
      refine ⟨_, rfl, ?_⟩
      apply All2.map_right
      refine All2.imp (skeleton_cols hm (hs p hp') args) fun c _ tc h => ?_
      obtain ⟨z, d, h1, rfl⟩ := h
      exact ⟨z, d, h1, rfl⟩
  · intro hno
    rw [hdef]
    unfold getTableSorted
    rcases selects_none hno with h | ⟨n, hn, hidx⟩
    · rw [h]; rfl
    · rw [hn]
      have : sortRows args n (F.map (entryRow args)) = .error .exit := by
        unfold sortRows
        rw [hF0, List.map_cons, mapM_error (e := .indexError)]
        unfold rowKey entryRow
        rw [hidx _ (hlen p0 (by simp [hF0]))]
        rfl
      simp only [bind, Except.bind, this]

/-- Without entries there is no row to sort; only a column that cannot exist is rejected. -/
theorem detailTable_nil (title : Str) (args : Args) :
    detailTable title [] args = .ok { headers := [title, str "Total Size"], rows := [] } ∨
    detailTable title [] args = .error .exit := by
  unfold detailTable getTableSorted
  have : ∀ h s, (∃ n, sortNumber h s = .ok n) ∨ sortNumber h s = .error .exit := by
    intro h s
    unfold sortNumber
    split
    · split
      · exact Or.inr rfl
      · exact Or.inl ⟨_, rfl⟩
    · split
      · exact Or.inr rfl
      · exact Or.inr rfl
      · exact Or.inl ⟨_, rfl⟩
  rcases this ([title, str "Total Size"] ++ []) args.sort with ⟨n, h⟩ | h
  · left; simp only [h]; rfl
  · right; simp only [h]; rfl

theorem filtered_mem {E : Dict Str Entry} {args : Args} {p : Str × Entry}
    (h : p ∈ getSummaryFiltered Entry.abb (remSummaryUnchanged E args) args) : p ∈ E := by
  have h1 : p ∈ remSummaryUnchanged E args := by
    rw [C38_filter] at h
    exact (List.mem_filter.mp h).1
  unfold remSummaryUnchanged at h1
  split at h1
  · exact h1
  · exact (List.mem_filter.mp h1).1

theorem sumInv_skeleton {m : MemMap} {recs : List Rec} {E : Dict Str Entry} (inv : SumInv (summaryTypes m) recs E) :
    ∀ p ∈ E, Skeleton m p.2 := by
  intro p hp
  have := dget_of_mem inv.nodup hp
  rw [inv.look] at this
  split at this
  · rw [← Option.some.inj this]; exact skeleton_entryOf m _ _
  · cases this

/-- What C39 says about a table made of summary `S`. -/
def TableSpec (m : MemMap) (title : Str) (S : Dict Str Entry) (args : Args) (r : Except Err Table) : Prop :=
  let F := getSummaryFiltered Entry.abb S args
  let cols := (reportCols m).map (colTitle m args.abbrev_)
  (F ≠ [] →
    (∀ i, Selects title cols args.sort i → ∃ c es rows, (reportCols m)[i]? = some c ∧
      r = .ok { headers := title :: cols, rows := rows } ∧
      StableSort (fun p => cellKey args c p.2) args.sortReverse F es ∧ All2 (RowFor m args) es rows) ∧
    ((¬ ∃ i, Selects title cols args.sort i) → r = .error .exit)) ∧
  (F = [] → r = .ok { headers := [title, str "Total Size"], rows := [] } ∨ r = .error .exit)

theorem tableSpec_of {m : MemMap} (hm : m.WF) (title : Str) {E : Dict Str Entry} {recs : List Rec} (args : Args)
    (inv : SumInv (summaryTypes m) recs E) :
    TableSpec m title (remSummaryUnchanged E args) args
      (detailTable title (getSummaryFiltered Entry.abb (remSummaryUnchanged E args) args) args) := by
  refine ⟨fun hne => detailTable_spec hm title _ hne (fun p hp => sumInv_skeleton inv p (filtered_mem hp)) args, ?_⟩
  intro hnil
  simp only [hnil]
  exact detailTable_nil title args

/-- **C39** the archive table. -/
theorem C39_archives_table (m : MemMap) (hm : m.WF) (args : Args) :
    ∃ S, getArchivesSummary m args = .ok S ∧ TableSpec m (str "Archive File") S args (getArchivesTable m args) := by
  obtain ⟨E, hE, inv⟩ := summarize_inv (mtWF_summaryTypes hm) _ (archRecs_ok hm)
  have hS : getArchivesSummary m args = .ok (remSummaryUnchanged E args) := by
    unfold getArchivesSummary; simp [hE, bind, Except.bind]
  refine ⟨_, hS, ?_⟩
  have := tableSpec_of hm (str "Archive File") args inv
  unfold getArchivesTable
  rw [hS]
  exact this

/-- **C39** the object file table. -/
theorem C39_files_table (m : MemMap) (hm : m.WF) (args : Args) :
    ∃ S, getObjectFilesSummary m args = .ok S ∧ TableSpec m (str "Object File") S args (getObjectFilesTable m args) := by
  obtain ⟨E, hE, inv⟩ := summarize_inv (mtWF_summaryTypes hm) _ (objRecs_ok hm args.unify)
  have hS : getObjectFilesSummary m args = .ok (remSummaryUnchanged E args) := by
    unfold getObjectFilesSummary; simp [hE, bind, Except.bind]
  refine ⟨_, hS, ?_⟩
  have := tableSpec_of hm (str "Object File") args inv
  unfold getObjectFilesTable
  rw [hS]
  exact this

/-- **C39** the symbol table: as the others, if the archive asked for was found. -/
theorem C39_symbols_table (m : MemMap) (hm : m.WF) (args : Args) :
    (getSymbolsSummary m args = .error .exit ∧ getSymbolsTable m args = .error .exit) ∨
    ∃ S, getSymbolsSummary m args = .ok S ∧ TableSpec m (str "Symbol") S args (getSymbolsTable m args) := by
  obtain ⟨E, hE, inv⟩ := summarize_inv (mtWF_summaryTypes hm) _ (symRecs_ok hm args.unify args.archiveDetails)
  have hS : getSymbolsSummary m args = if ((walk m (str "all")).filterMap
      (symRec args.unify args.archiveDetails)).isEmpty then .error .exit else .ok (remSummaryUnchanged E args) := by
    unfold getSymbolsSummary; simp [hE, bind, Except.bind]
  by_cases he : ((walk m (str "all")).filterMap (symRec args.unify args.archiveDetails)).isEmpty = true
  · left
    rw [if_pos he] at hS
    refine ⟨hS, ?_⟩
    unfold getSymbolsTable
    rw [hS]; rfl
  · right
    rw [if_neg he] at hS
    refine ⟨_, hS, ?_⟩
    have := tableSpec_of hm (str "Symbol") args inv
    unfold getSymbolsTable
    rw [hS]
    exact this

example : getArchivesTable exMapA {} = .ok
    { headers := [str "Archive File", str "Total Size", str "DRAM", str ".bss", str ".bss", str "Flash Code"]
      rows := [[str "liba.a", str "20", str "20", str "0", str "20", str "0"],
               [str "liba.a", str "10", str "10", str "10", str "0", str "0"]] } := by decide +kernel
example : Selects (str "Archive File") ((reportCols exMapA).map (colTitle exMapA true)) (str ".bss") 2 ∧
    Selects (str "Archive File") ((reportCols exMapA).map (colTitle exMapA true)) (str "-1") 4 := by
  refine ⟨⟨by decide, Or.inr (by decide)⟩, ⟨by decide, Or.inl ⟨-1, by decide, by decide⟩⟩⟩
example : getArchivesTable exMapA { sort := str "6" } = .error .exit ∧
    getArchivesTable exMapA { sort := str "Archive File" } = .error .exit := by decide +kernel

/-- An invalid column is not rejected if the filter leaves no row. -/
theorem C39_no_rows_accepts_invalid : ∃ (m : MemMap) (args : Args), m.WF ∧
    (¬ ∃ i, Selects (str "Archive File") ((reportCols m).map (colTitle m args.abbrev_)) args.sort i) ∧
    getArchivesTable m args = .ok { headers := [str "Archive File", str "Total Size"], rows := [] } := by
  refine ⟨exMapA, { filter := some [str "nothing"], sort := str "99" }, ?_, ?_, by decide +kernel⟩
  · decide
  · rintro ⟨i, h1, ⟨k, hk, h2⟩ | ⟨hk, _⟩⟩
    · have h3 : k = 99 := by
        have : pyInt10 (str "99") = some 99 := by decide
        rw [this] at hk; exact (Option.some.inj hk).symm
      have h4 : ((reportCols exMapA).map (colTitle exMapA true)).length = 5 := by decide
      rw [h4] at h1
      change k = (i : Int) + 1 ∨ k = (i : Int) - (((reportCols exMapA).map (colTitle exMapA true)).length : Nat) at h2
      rw [h4] at h2
      omega
    · revert hk; decide

end EspSize
