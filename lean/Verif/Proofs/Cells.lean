import Verif.Spec.TableRun
import Verif.Props.Table
import Verif.Props.SummaryCells
import Verif.Props.RunTotals
import Verif.Props.Csv
/-! # From records to the cells of tables -/
namespace EspSize

/-- Total of `f` over the records of entry `k` in column `c`. -/
def recCell (recs : List Rec) (f : Rec → Int) (k : Str) (c : Col) : Int :=
  sumIf (fun r => decide (r.key = k) && c.has r.type r.sec) f recs

theorem sumIf_ne_zero {α : Type} {P : α → Bool} {f : α → Int} {l : List α} (h : sumIf P f l ≠ 0) : ∃ r ∈ l, P r = true := by
  refine Classical.byContradiction fun hno => h (sumBy_zero fun r hr => ?_)
  rw [if_neg]
  exact fun hp => hno ⟨r, hr, hp⟩

theorem mem_reportCols {d : MemMap} {c : Col} {t s : Str} (hc : c.has t s = true) (h : (getSec d t s).isSome = true) :
    c ∈ reportCols d := by
  obtain ⟨x, hx⟩ := Option.isSome_iff_exists.mp h
  obtain ⟨mt, hmt, hsx⟩ := Option.bind_eq_some_iff.mp hx
  have h1 := mem_of_dget hmt
  have h2 := mem_of_dget hsx
  unfold reportCols
  cases c with
  | total => simp
  | type t' =>
    simp only [Col.has, decide_eq_true_eq] at hc
    subst hc
    exact List.mem_cons_of_mem _ (List.mem_flatMap.mpr ⟨_, h1, by simp⟩)
  | sec t' s' =>
    simp only [Col.has, Bool.and_eq_true, decide_eq_true_eq] at hc
    obtain ⟨rfl, rfl⟩ := hc
    exact List.mem_cons_of_mem _ (List.mem_flatMap.mpr ⟨_, h1, List.mem_cons_of_mem _ (List.mem_map.mpr ⟨_, h2, rfl⟩)⟩)

theorem reportCols_nodup {d : MemMap} (hd : d.WF) : (reportCols d).Nodup := by
  unfold reportCols
  refine List.nodup_cons.mpr ⟨?_, ?_⟩
  · intro h
    obtain ⟨t, _, h⟩ := List.mem_flatMap.mp h
    rcases List.mem_cons.mp h with h | h
    · cases h
    · obtain ⟨s, _, h⟩ := List.mem_map.mp h
      cases h
  · unfold List.Nodup
    rw [List.pairwise_flatMap]
    refine ⟨?_, ?_⟩
    · intro t ht
      rw [List.pairwise_cons]
      refine ⟨?_, ?_⟩
      · intro c hc e
        obtain ⟨s, _, h⟩ := List.mem_map.mp hc
        rw [← e] at h; cases h
      · have h1 := (hd.2 t ht).1
        unfold KeysNodup dkeys List.Nodup at h1
        rw [List.pairwise_map] at h1 ⊢
        exact h1.imp fun hne e => hne (Col.sec.inj e).2
    · have h1 := hd.1
      unfold KeysNodup dkeys List.Nodup at h1
      rw [List.pairwise_map] at h1
      refine h1.imp ?_
      intro t t' hne c hc c' hc' e
      subst e
      rcases List.mem_cons.mp hc with rfl | hc <;> rcases List.mem_cons.mp hc' with hc' | hc'
      · exact hne (Col.type.inj hc')
      · obtain ⟨s, _, h⟩ := List.mem_map.mp hc'; cases h
      · subst hc'
        obtain ⟨s, _, h⟩ := List.mem_map.mp hc; cases h
      · obtain ⟨s, _, h⟩ := List.mem_map.mp hc
        obtain ⟨s', _, h'⟩ := List.mem_map.mp hc'
        rw [← h] at h'
        exact hne (Col.sec.inj h').1.symm

/-- The columns whose cells are sums: all, if no two records have one cell, else those that are not sections. -/
def Summed (recs : List Rec) (c : Col) : Prop := (∃ t s, c = .sec t s) → NoClash recs

/-- What an entry of a summary shows. -/
theorem entry_cell {d : MemMap} {recs : List Rec} {E : Dict Str Entry} (inv : SumInv (summaryTypes d) recs E) {k : Str} {e : Entry}
    (h : dget E k = some e) {c : Col} (hc : Summed recs c) {z x : Int} (hz : cellOf e c = some (z, x)) :
    z = recCell recs Rec.size k c ∧ x = recCell recs Rec.sizeDiff k c := by
  obtain ⟨_, h1, h2, h3⟩ := entry_cells inv h
  have hP : ∀ f, recCell recs f k c = sumIf (match c with | .total => onK k | .type t => onKT k t | .sec t s => onKTS k t s) f recs := by
    intro f
    unfold recCell
    congr 1
    funext r
    cases c <;> simp [Col.has, onK, onKT, onKTS, Bool.and_assoc]
  rw [hP, hP]
  cases c with
  | total =>
    simp only [cellOf, Option.some.injEq, Prod.mk.injEq] at hz
    exact ⟨hz.1 ▸ h1, hz.2 ▸ h2⟩
  | type t =>
    simp only [cellOf, Option.map_eq_some_iff, Prod.mk.injEq] at hz
    obtain ⟨st, hst, rfl, rfl⟩ := hz
    exact ⟨(h3 t st hst).1, (h3 t st hst).2.1⟩
  | sec t s =>
    simp only [cellOf, Option.bind_eq_some_iff, Option.map_eq_some_iff, Prod.mk.injEq] at hz
    obtain ⟨st, hst, ss, hss, rfl, rfl⟩ := hz
    exact ((h3 t st hst).2.2 s ss hss).2 (hc ⟨t, s, rfl⟩)

theorem getSec_of_recOk {d : MemMap} {r : Rec} (h : RecOk (summaryTypes d) r) : (getSec d r.type r.sec).isSome = true := by
  obtain ⟨st, ss, h1, h2⟩ := h
  unfold summaryTypes at h1
  rw [dget_dmap] at h1
  obtain ⟨mt, hmt, rfl⟩ := Option.map_eq_some_iff.mp h1
  simp only [dget_dmap] at h2
  obtain ⟨x, hx, rfl⟩ := Option.map_eq_some_iff.mp h2
  unfold getSec getType
  rw [hmt]
  simp [hx]

/-- Everything about a summary, in terms of cells. -/
structure SummaryOf (args : Args) (d : MemMap) (named : Str → Str → Prop) (exact : Col → Prop) (cur dif : Str → Col → Int)
    (S : Dict Str Entry) : Prop where
  nodup : KeysNodup S
  skeleton : ∀ p ∈ S, Skeleton d p.2
  names : ∀ k e, dget S k = some e → named k e.abb
  cells : ∀ k e, dget S k = some e → ∀ c, exact c → ∀ z x, cellOf e c = some (z, x) → z = cur k c ∧ x = dif k c
  wanted : ∀ k e, dget S k = some e → ¬ Unwanted args dif k
  all : ∀ k, MustShow args cur dif k → (dget S k).isSome = true
  cols : ∀ k c, cur k c ≠ 0 ∨ dif k c ≠ 0 → c ∈ reportCols d

theorem summary_of {d : MemMap} {recs : List Rec} {E : Dict Str Entry} (inv : SumInv (summaryTypes d) recs E)
    (hrecs : ∀ r ∈ recs, RecOk (summaryTypes d) r) (args : Args) {named : Str → Str → Prop}
    (hnamed : ∀ r ∈ recs, named r.key r.abb) :
    SummaryOf args d named (Summed recs) (recCell recs Rec.size) (recCell recs Rec.sizeDiff) (remSummaryUnchanged E args) := by
  have hES := remSummaryUnchanged_spec args E inv.nodup
  have hdiff : ∀ k e, dget E k = some e → e.sizeDiff = recCell recs Rec.sizeDiff k .total := fun k e he =>
    (entry_cell inv he (c := .total) (fun ⟨_, _, h⟩ => by cases h) (z := e.size) (x := e.sizeDiff) rfl).2
  have hmem : ∀ p ∈ remSummaryUnchanged E args, p ∈ E := by
    intro p hp
    unfold remSummaryUnchanged at hp
    split at hp
    · exact hp
    · exact (List.mem_filter.mp hp).1
  refine ⟨?_, ?_, ?_, ?_, ?_, ?_, ?_⟩
  · unfold remSummaryUnchanged
    split
    · exact inv.nodup
    · exact List.Nodup.sublist (List.Sublist.map _ List.filter_sublist) inv.nodup
  · exact fun p hp => sumInv_skeleton inv p (hmem p hp)
  · intro k e he
    obtain ⟨⟨r, hr, hk, ha⟩, _⟩ := entry_cells inv ((hES k e).mp he).1
    rw [ha, ← hk]
    exact hnamed r hr
  · intro k e he c hc z x hz
    exact entry_cell inv ((hES k e).mp he).1 hc hz
  · intro k e he hu
    have h1 := (hES k e).mp he
    exact h1.2 hu.1 hu.2.1 (by rw [hdiff k e h1.1]; exact hu.2.2)
  · intro k hk
    have hex : recs.any (onK k) = true := by
      have : ∃ f, recCell recs f k .total ≠ 0 := by
        rcases hk with hk | ⟨_, hk⟩
        · exact ⟨_, hk⟩
        · exact ⟨_, hk⟩
      obtain ⟨f, hf⟩ := this
      obtain ⟨r, hr, hp⟩ := sumIf_ne_zero hf
      simp only [Bool.and_eq_true, decide_eq_true_eq] at hp
      exact List.any_eq_true.mpr ⟨r, hr, by simp [onK, hp.1]⟩
    have he : dget E k = some (entryOf (summaryTypes d) k recs) := by rw [inv.look k, if_pos hex]
    have : dget (remSummaryUnchanged E args) k = some (entryOf (summaryTypes d) k recs) := (hES k _).mpr ⟨he, fun h1 h2 => by
      rw [hdiff k _ he]
      rcases hk with hk | ⟨hk, _⟩
      · exact hk
      · rw [hk h1] at h2; cases h2⟩
    rw [this]; rfl
  · intro k c hk
    have : ∃ f, recCell recs f k c ≠ 0 := by
      rcases hk with hk | hk
      · exact ⟨_, hk⟩
      · exact ⟨_, hk⟩
    obtain ⟨f, hf⟩ := this
    obtain ⟨r, hr, hp⟩ := sumIf_ne_zero hf
    simp only [Bool.and_eq_true] at hp
    exact mem_reportCols hp.2 (getSec_of_recOk (hrecs r hr))

theorem SummaryOf.congr {args : Args} {d : MemMap} {named : Str → Str → Prop} {exact exact' : Col → Prop}
    {cur dif cur' dif' : Str → Col → Int} {S : Dict Str Entry} (h : SummaryOf args d named exact cur dif S)
    (he : ∀ c, exact' c → exact c) (hc : ∀ k c, cur k c = cur' k c) (hd : ∀ k c, dif k c = dif' k c) :
    SummaryOf args d named exact' cur' dif' S := by
  have e1 : cur = cur' := funext fun k => funext fun c => hc k c
  have e2 : dif = dif' := funext fun k => funext fun c => hd k c
  subst e1; subst e2
  exact ⟨h.nodup, h.skeleton, h.names, fun k e hk c hx => h.cells k e hk c (he c hx), h.wanted, h.all, h.cols⟩

/-! ### Tables and JSON -/

theorem All2.map_left {α β γ : Type} {R : γ → β → Prop} {f : α → γ} {a : List α} {b : List β}
    (h : All2 (fun x y => R (f x) y) a b) : All2 R (a.map f) b := by
  induction a generalizing b with
  | nil => cases b with
    | nil => trivial
    | cons => exact absurd h (by simp [All2])
  | cons x a ih => cases b with
    | nil => exact absurd h (by simp [All2])
    | cons y b => exact ⟨h.1, ih h.2⟩

theorem table_of {args : Args} {d : MemMap} (hd : d.WF) {named : Str → Str → Prop} {exact : Col → Prop} {cur dif : Str → Col → Int}
    {S : Dict Str Entry} (hS : SummaryOf args d named exact cur dif S)
    (htitle : ∀ c ∈ reportCols d, colTitle d args.abbrev_ c = titleOf args.unify args.abbrev_ c) {title : Str} {tab : Table}
    (h : detailTable title (getSummaryFiltered Entry.abb S args) args = .ok tab) :
    ∃ cols es, TableOf args args.abbrev_ title named exact cur dif tab cols es := by
  classical
  have hF := C38_filter Entry.abb S args
  generalize getSummaryFiltered Entry.abb S args = F at h hF
  have hmem : ∀ p, p ∈ F ↔ p ∈ S ∧ PassesFilter args (displayed args.abbrev_ (p.1, p.2.abb)) := by
    intro p
    rw [hF, List.mem_filter, decide_eq_true_eq]
    rfl
  have hFn : KeysNodup F := by
    rw [hF]
    exact List.Nodup.sublist (List.Sublist.map _ List.filter_sublist) hS.nodup
  have hall : ∀ k, MustShow args cur dif k → ∃ n, named k n ∧ (PassesFilter args (displayed args.abbrev_ (k, n)) → ∃ e, (k, e) ∈ F ∧ e.abb = n) := by
    intro k hk
    obtain ⟨e, he⟩ := Option.isSome_iff_exists.mp (hS.all k hk)
    exact ⟨e.abb, hS.names k e he, fun hp => ⟨e, (hmem (k, e)).mpr ⟨mem_of_dget he, hp⟩, rfl⟩⟩
  by_cases hne : F = []
  · subst hne
    rcases detailTable_nil title args with hn | hn
    · rw [hn] at h
      simp only [Except.ok.injEq] at h
      subst h
      refine ⟨[.total], [], rfl, trivial, List.Pairwise.nil, by simp, (by intro e he; cases he), ?_, (by intro hx; exact absurd rfl hx),
        (by intro hx; exact absurd rfl hx)⟩
      intro k hk
      obtain ⟨n, hn, h2⟩ := hall k hk
      refine ⟨n, hn, fun hp => ?_⟩
      obtain ⟨e, he, _⟩ := h2 hp
      cases he
    · rw [hn] at h; cases h
  · obtain ⟨h1, h2⟩ := detailTable_spec hd title F hne (fun p hp => hS.skeleton p ((hmem p).mp hp).1) args
    by_cases hsel : ∃ i, Selects title ((reportCols d).map (colTitle d args.abbrev_)) args.sort i
    · obtain ⟨i, hi⟩ := hsel
      obtain ⟨c, es, rows, hc, ht, hs, hr⟩ := h1 i hi
      rw [ht] at h
      simp only [Except.ok.injEq] at h
      subst h
      have htit : (reportCols d).map (colTitle d args.abbrev_) = (reportCols d).map (titleOf args.unify args.abbrev_) :=
        List.map_congr_left htitle
      have hesF : ∀ p, p ∈ es ↔ p ∈ F := fun p => hs.perm.mem_iff
      have hdg : ∀ p ∈ es, dget S p.1 = some p.2 := fun p hp => dget_of_mem hS.nodup ((hmem p).mp ((hesF p).mp hp)).1
      refine ⟨reportCols d, es.map fun p => (p.1, p.2.abb), ?_, ?_, ?_, reportCols_nodup hd, ?_, ?_, fun _ => hS.cols, ?_⟩
      · simp only [htit]
      · refine All2.map_left (f := fun p : Str × Entry => (p.1, p.2.abb)) (All2.imp hr ?_)
        intro p hp row hrow
        obtain ⟨cells, rfl, hcs⟩ := hrow
        refine ⟨cells, rfl, All2.imp hcs ?_⟩
        intro c _ cell hcell
        obtain ⟨z, x, hz, rfl⟩ := hcell
        exact ⟨z, x, rfl, fun hx => hS.cells p.1 p.2 (hdg p hp) c hx z x hz⟩
      · rw [List.map_map]
        exact (hs.perm.map Prod.fst).nodup_iff.mpr hFn
      · intro e he
        obtain ⟨p, hp, rfl⟩ := List.mem_map.mp he
        exact ⟨hS.names _ _ (hdg p hp), ((hmem p).mp ((hesF p).mp hp)).2, hS.wanted _ _ (hdg p hp)⟩
      · intro k hk
        obtain ⟨n, hn, h2⟩ := hall k hk
        refine ⟨n, hn, fun hp => ?_⟩
        obtain ⟨e, he, rfl⟩ := h2 hp
        exact List.mem_map.mpr ⟨(k, e), (hesF _).mpr he, rfl⟩
      · intro _
        refine ⟨i, c, htit ▸ hi, hc, fun hx => ?_⟩
        rw [List.pairwise_map]
        refine hs.sorted.imp_of_mem ?_
        intro p q hp hq hpq
        have hkey : ∀ p ∈ es, cellKey args c p.2 = if args.sortDiff then dif p.1 c else cur p.1 c := by
          intro p hp
          obtain ⟨_, _, z, x, hz, _⟩ := (skeleton_cols hd (hS.skeleton p ((hmem p).mp ((hesF p).mp hp)).1) args).get hc
          obtain ⟨rfl, rfl⟩ := hS.cells p.1 p.2 (hdg p hp) c hx z x hz
          simp only [cellKey, hz]
        rw [hkey p hp, hkey q hq] at hpq
        exact hpq
    · rw [h2 hsel] at h; cases h

theorem level_dget {α : Type} {key : α → Int} {rev : Bool} {Q : α → α → Prop} {E E' : Dict Str α} (h : LevelSorted key rev Q E E')
    (hE : KeysNodup E) : KeysNodup E' ∧ (∀ k, (dget E' k).isSome = (dget E k).isSome) ∧
      ∀ k e', dget E' k = some e' → ∃ e, dget E k = some e ∧ Q e e' := by
  obtain ⟨mid, hs, ha⟩ := h
  have hkeys : dkeys E' = dkeys mid := all2_map_eq (fun x y hxy => hxy.1) ha
  have hmid : KeysNodup mid := (hs.perm.map Prod.fst).nodup_iff.mpr hE
  have hE' : KeysNodup E' := by unfold KeysNodup; rw [hkeys]; exact hmid
  refine ⟨hE', ?_, ?_⟩
  · intro k
    rw [Bool.eq_iff_iff, dget_isSome, dget_isSome, hkeys]
    exact (hs.perm.map Prod.fst).mem_iff
  · intro k e' he'
    obtain ⟨p, hp, hk, hr⟩ := All2.mem_right ha (mem_of_dget he')
    refine ⟨p.2, ?_, hr⟩
    have : p ∈ E := hs.perm.mem_iff.mp hp
    rw [show k = p.1 from hk]
    exact dget_of_mem hE this

theorem cellOf_sorted {diff rev : Bool} {e e' : Entry} (he : KeysNodup e.types) (hs : ∀ p ∈ e.types, KeysNodup p.2.sections)
    (h : EntrySorted diff rev e e') (c : Col) : cellOf e' c = cellOf e c := by
  obtain ⟨_, h2, h3, h4⟩ := h
  obtain ⟨_, t2, t3⟩ := level_dget h4 he
  have key : ∀ {α : Type} (a b : Option α) (f g : α → Option (Int × Int)), a.isSome = b.isSome →
      (∀ x, a = some x → ∃ y, b = some y ∧ f x = g y) → a.bind f = b.bind g := by
    intro α a b f g h1 h2
    cases a with
    | none => cases b with
      | none => rfl
      | some y => cases h1
    | some x =>
      obtain ⟨y, rfl, e⟩ := h2 x rfl
      exact e
  cases c with
  | total => simp only [cellOf, h2, h3]
  | type t =>
    simp only [cellOf, Option.map_eq_bind]
    apply key _ _ _ _ (t2 t)
    intro x hx
    obtain ⟨y, hy, hq⟩ := t3 t x hx
    exact ⟨y, hy, by simp only [Function.comp, hq.1, hq.2.1]⟩
  | sec t s =>
    simp only [cellOf]
    apply key _ _ _ _ (t2 t)
    intro x hx
    obtain ⟨y, hy, hq⟩ := t3 t x hx
    refine ⟨y, hy, ?_⟩
    obtain ⟨_, s2, s3⟩ := level_dget hq.2.2 (hs _ (mem_of_dget hy))
    simp only [Option.map_eq_bind]
    apply key _ _ _ _ (s2 s)
    intro z hz
    obtain ⟨v, hv, rfl⟩ := s3 s z hz
    exact ⟨_, hv, rfl⟩

theorem skeleton_nodup {d : MemMap} (hd : d.WF) {e : Entry} (h : Skeleton d e) :
    KeysNodup e.types ∧ ∀ p ∈ e.types, KeysNodup p.2.sections := by
  refine ⟨?_, ?_⟩
  · unfold KeysNodup
    rw [All2.keys h fun x y h => h.1]
    exact hd.1
  · intro p hp
    obtain ⟨t, ht, hr⟩ := All2.mem_right h hp
    unfold KeysNodup
    rw [All2.keys hr.2 fun x y h => h.1]
    exact (hd.2 t ht).1

theorem entries_of {args : Args} {d : MemMap} (hd : d.WF) {named : Str → Str → Prop} {exact : Col → Prop} {cur dif : Str → Col → Int}
    {S : Dict Str Entry} (hS : SummaryOf args d named exact cur dif S) (htot : exact .total) :
    EntriesOf args named exact cur dif (getSummarySorted S args) := by
  obtain ⟨h1, h2, h3, h4⟩ := entries_sorted (C07_summary_sorted S args) hS.nodup
  have hcell : ∀ k e', dget (getSummarySorted S args) k = some e' → ∃ e, dget S k = some e ∧ e'.abb = e.abb ∧ ∀ c, cellOf e' c = cellOf e c := by
    intro k e' he'
    obtain ⟨e, he, hr⟩ := h3 k e' he'
    have hsk := skeleton_nodup hd (hS.skeleton _ (mem_of_dget he))
    exact ⟨e, he, hr.1, cellOf_sorted hsk.1 hsk.2 hr⟩
  refine ⟨h1, ?_, ?_, ?_, ?_, ?_⟩
  · intro k e' he'
    obtain ⟨e, he, ha, _⟩ := hcell k e' he'
    rw [ha]
    exact hS.names k e he
  · intro k e' he' c hc
    obtain ⟨e, he, _, hx⟩ := hcell k e' he'
    rw [hx c]
    refine ⟨hS.cells k e he c hc, ?_⟩
    intro hn j
    refine Classical.byContradiction fun hno => ?_
    have hc' : c ∈ reportCols d := by
      apply hS.cols j c
      by_cases h0 : cur j c = 0
      · exact .inr fun h => hno ⟨h0, h⟩
      · exact .inl h0
    obtain ⟨i, hi, hci⟩ := List.mem_iff_getElem.mp hc'
    obtain ⟨_, _, z, x, hz, _⟩ := (skeleton_cols hd (hS.skeleton _ (mem_of_dget he)) args).get (i := i) (x := c)
      (by rw [List.getElem?_eq_getElem hi, hci])
    rw [hn] at hz; cases hz
  · intro k e' he'
    obtain ⟨e, he, _⟩ := hcell k e' he'
    exact hS.wanted k e he
  · intro k hk
    rw [h2 k]
    exact hS.all k hk
  · refine h4.imp_of_mem ?_
    intro p q hp hq hpq
    have hv : ∀ p ∈ getSummarySorted S args, p.2.size = cur p.1 .total ∧ p.2.sizeDiff = dif p.1 .total := by
      intro p hp
      obtain ⟨e, he, _, hx⟩ := hcell p.1 p.2 (dget_of_mem h1 hp)
      exact hS.cells p.1 e he .total htot p.2.size p.2.sizeDiff (by rw [← hx]; rfl)
    unfold InCellOrder
    rw [(hv p hp).1, (hv p hp).2, (hv q hq).1, (hv q hq).2] at hpq
    exact hpq

/-- The CSV report of a table. -/
theorem csv_of {args : Args} {b : Bool} {title : Str} {named : Str → Str → Prop} {exact : Col → Prop} {cur dif : Str → Col → Int}
    {tab : Table} {cols : List Col} {es : List (Str × Str)} (h : TableOf args b title named exact cur dif tab cols es)
    (ht : PlainName title) (hc : ∀ c ∈ cols, PlainName (titleOf args.unify b c)) (hn : ∀ e ∈ es, PlainName (displayed b e)) :
    CsvOf args b title exact cur dif tab cols es := by
  have hrows := h.rows
  have hcell : ∀ r ∈ tab.rows, r ≠ [] ∧ ∀ c ∈ r, TidyCell (strip c) ∧ '"' ∉ render (strip c) := by
    intro r hr
    obtain ⟨p, hp, cells, rfl, hcs⟩ := hrows.mem_right hr
    refine ⟨by simp, ?_⟩
    intro c hc'
    rcases List.mem_cons.mp hc' with rfl | hc'
    · have := hn p hp
      have h1 := this.1.strip
      exact ⟨tidy_noMarkup h1, by rw [h1.shown]; exact noChar_strip this.2⟩
    · obtain ⟨col, _, z, d, rfl, _⟩ := hcs.mem_right hc'
      have := colorDiff_cell z d (truthy args.diff)
      exact ⟨this.2.1, by rw [this.1]; exact this.2.2⟩
  have hhead : ∀ c ∈ title :: cols.map (titleOf args.unify b), PlainName c := by
    intro c hc'
    rcases List.mem_cons.mp hc' with rfl | hc'
    · exact ht
    · obtain ⟨x, hx, rfl⟩ := List.mem_map.mp hc'
      exact hc x hx
  refine ⟨tab.rows.map fun r => r.map fun c => render (strip c), ?_, ?_⟩
  · have hd := h.headers
    rw [C41_csv_read_partial tab (by rw [hd]; simp) (fun r hr => (hcell r hr).1)
      (fun c hc' => by
        rw [hd] at hc'
        exact ⟨tidy_noMarkup (hhead c hc').1, by rw [(hhead c hc').1.shown]; exact (hhead c hc').2⟩)
      (fun r hr => (hcell r hr).2), hd]
    congr 1
    conv => rhs; rw [← List.map_id (title :: _)]
    exact List.map_congr_left fun c hc' => (hhead c hc').1.shown
  · apply All2.map_right
    refine All2.imp hrows ?_
    rintro p hp r ⟨cells, rfl, hcs⟩
    refine ⟨cells.map fun c => render (strip c), ?_, ?_⟩
    · rw [List.map_cons, (hn p hp).1.strip.shown]
    · apply All2.map_right
      refine All2.imp hcs ?_
      rintro c _ cell ⟨z, d, rfl, h1⟩
      exact ⟨z, d, (colorDiff_cell z d _).1, h1⟩

end EspSize
