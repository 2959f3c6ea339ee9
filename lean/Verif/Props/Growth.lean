import Verif.Spec.Growth
import Verif.Props.Compare
/-! # C107: a change of the inputs is shown where it is made -/
namespace EspSize

theorem nodup_cover (l : List Str) : ∃ K : List Str, K.Nodup ∧ ∀ k, k ∈ K ↔ k ∈ l := by
  induction l with
  | nil => exact ⟨[], .nil, fun k => Iff.rfl⟩
  | cons x t ih =>
    obtain ⟨K, hn, hK⟩ := ih
    by_cases hx : x ∈ t
    · refine ⟨K, hn, fun k => ?_⟩
      rw [hK, List.mem_cons]
      constructor
      · exact .inr
      · rintro (rfl | h)
        · exact hx
        · exact h
    · refine ⟨x :: K, List.nodup_cons.mpr ⟨fun h => hx ((hK x).mp h), hn⟩, fun k => ?_⟩
      rw [List.mem_cons, List.mem_cons, hK]

theorem sizeAs_append (key : Str → Str → Str) (a b : List Piece) (k : Str) : sizeAs key (a ++ b) k = sizeAs key a k + sizeAs key b k :=
  sumBy_append _ _ _

theorem sizeAs_perm {key : Str → Str → Str} {a b : List Piece} (h : a.Perm b) (k : Str) : sizeAs key a k = sizeAs key b k :=
  sumBy_perm h

/-- A piece belongs to one name. -/
theorem sizeAs_sum (key : Str → Str → Str) {K : List Str} (hn : K.Nodup) {ps : List Piece} (h : ∀ p ∈ ps, key p.1 p.2.1 ∈ K) :
    sumBy (sizeAs key ps) K = sumBy (fun p => p.2.2) ps := by
  show sumBy (fun k => sumBy (fun p : Piece => if key p.1 p.2.1 = k then p.2.2 else 0) ps) K = _
  rw [sumBy_comm]
  apply sumBy_congr
  intro p hp
  exact sumBy_pick hn (fun _ => p.2.2) (h p hp)

/-- Nothing is reported under a name that no piece has. -/
theorem sizeAs_absent {key : Str → Str → Str} {ps : List Piece} {k : Str} (h : ∀ p ∈ ps, key p.1 p.2.1 ≠ k) : sizeAs key ps k = 0 :=
  sumBy_zero fun p hp => if_neg (h p hp)

/-- The size of the inputs selected by name is that of their pieces. -/
theorem sizeAs_pieces (key : Str → Str → Str) (ss : List OSec) (k : Str) :
    sumBy (inputSum (fun a o _ => decide (key a o = k)) ISec.size) ss = sizeAs key (piecesOf ss) k := by
  unfold sizeAs piecesOf inputSum
  rw [sumBy_flatMap]
  apply sumBy_congr
  intro s _
  rw [sumBy_map]
  apply sumBy_congr
  intro i _
  simp only [decide_eq_true_eq]

theorem entries_changes {args : Args} {named : Str → Str → Prop} {exact : Col → Prop} {cur dif : Str → Col → Int} {E : Dict Str Entry}
    {key : Str → Str → Str} {new old : List Piece} (h : EntriesOf args named exact cur dif E) (ht : exact .total)
    (hd : truthy args.diff = true) (hdif : ∀ k, dif k .total = sizeAs key new k - sizeAs key old k) :
    ShowsChanges args.showUnchanged key new old E := by
  refine ⟨fun k => by rw [h.diff ht k, hdif], fun hs k => ?_, h.distinct, ?_⟩
  · rw [h.changed hd hs, hdif]
    constructor <;> intro _ <;> omega
  · have e : sumBy (fun e : Str × Entry => e.2.sizeDiff) E = sumBy (fun k => dif k .total) (E.map Prod.fst) := by
      rw [sumBy_map]
      apply sumBy_congr
      intro e he
      have := (h.cell (k := e.1) (e := e.2) he ht).2
      exact this
    obtain ⟨K, hn, hK⟩ := nodup_cover (E.map Prod.fst ++ (new ++ old).map fun p => key p.1 p.2.1)
    have hin : ∀ p ∈ new ++ old, key p.1 p.2.1 ∈ K := fun p hp =>
      (hK _).mpr (List.mem_append.mpr (.inr (List.mem_map.mpr ⟨p, hp, rfl⟩)))
    rw [e, sumBy_support (a := E.map Prod.fst) (b := K) h.distinct hn, ← sizeAs_sum key hn fun p hp => hin p (List.mem_append.mpr (.inl hp)),
      ← sizeAs_sum key hn fun p hp => hin p (List.mem_append.mpr (.inr hp)), ← sumBy_sub]
    · exact sumBy_congr fun k _ => hdif k
    · intro k hk
      exact ⟨fun hx => (hK k).mpr (List.mem_append.mpr (.inl hx)), fun _ => h.must (.inl hk)⟩

/-- The same is missing in the maps of both projects. -/
def LoseSame (goes goes' : MSec → Option (Str × Str)) (parts parts' : List MSec) : Prop :=
  ∀ P, partsFiles P (lostParts goes parts) = partsFiles P (lostParts goes' parts')

theorem changes_sum {R : RunIn} {args : Args} {a b : GetIn} {parts parts' : List MSec} {goes goes' : MSec → Option (Str × Str)}
    (hc : CutInto R args a parts goes) (hc' : CutInto R args b parts' goes') (hl : LoseSame goes goes' parts parts') {new old rest : List Piece}
    (hn : (piecesOf (keptOf a)).Perm (new ++ rest)) (ho : (piecesOf (keptOf b)).Perm (old ++ rest)) (key : Str → Str → Str) (k : Str) :
    filesIn args.unify goes parts (fun x y => decide (key x y = k)) .total - filesIn args.unify goes' parts' (fun x y => decide (key x y = k)) .total =
      sizeAs key new k - sizeAs key old k := by
  have h1 := C81_accounted R args hc fun x y => decide (key x y = k)
  have h2 := C81_accounted R args hc' fun x y => decide (key x y = k)
  have h3 := hl fun x y => decide (key x y = k)
  rw [sizeAs_pieces, sizeAs_perm hn, sizeAs_append] at h1
  rw [sizeAs_pieces, sizeAs_perm ho, sizeAs_append] at h2
  omega

/-! ### The theorems -/

/-- **C107** archives: if the project has the input sections `new` where the reference has `old`, and the others are the
same wherever they are placed, the comparison lists exactly the archives that have another size in `new` than in `old`,
with this difference. -/
theorem C107_archives_partial (R : RunIn) (A B : Str) (args : Args) {a b : GetIn} (ra : Readable R args A a) (rb : Readable R args B b)
    (ha : args.archives = true) (hd : args.diff = some B) (hB : B ≠ []) (hdep : args.archiveDependencies = false)
    (hf : args.format = str "json2") {E : Dict Str Entry} (h : makeReport R A args = some (.ok (.entries E))) {new old rest : List Piece}
    (hn : (piecesOf (keptOf a)).Perm (new ++ rest)) (ho : (piecesOf (keptOf b)).Perm (old ++ rest)) :
    ∃ parts goes parts' goes', CutInto R args a parts goes ∧ CutInto R args b parts' goes' ∧
      (LoseSame goes goes' parts parts' → ShowsChanges args.showUnchanged (fun x _ => archKey args.unify x) new old E) := by
  obtain ⟨parts, goes, parts', goes', hc, hc', hx⟩ := C81_archives_diff R A B args _ ra rb ha hd hB hdep h
  refine ⟨parts, goes, parts', goes', hc, hc', fun hl => ?_⟩
  obtain ⟨E', he, hx⟩ := hx.json hf
  cases he
  exact entries_changes hx trivial (by rw [hd]; exact truthy_some hB)
    fun k => changes_sum hc hc' hl hn ho (fun x _ => archKey args.unify x) k

/-- **C107** object files. -/
theorem C107_files_partial (R : RunIn) (A B : Str) (args : Args) {a b : GetIn} (ra : Readable R args A a) (rb : Readable R args B b)
    (ha : args.archives = false) (hdet : truthy args.archiveDetails = false) (hfi : args.files = true) (hd : args.diff = some B) (hB : B ≠ [])
    (hdep : args.archiveDependencies = false)
    (hf : args.format = str "json2") {E : Dict Str Entry} (h : makeReport R A args = some (.ok (.entries E))) {new old rest : List Piece}
    (hn : (piecesOf (keptOf a)).Perm (new ++ rest)) (ho : (piecesOf (keptOf b)).Perm (old ++ rest)) :
    ∃ parts goes parts' goes', CutInto R args a parts goes ∧ CutInto R args b parts' goes' ∧
      (LoseSame goes goes' parts parts' → ShowsChanges args.showUnchanged (fileKey args.unify) new old E) := by
  obtain ⟨parts, goes, parts', goes', hc, hc', hx⟩ := C81_files_diff_partial R A B args _ ra rb ha hdet hdep hfi hd hB h
  refine ⟨parts, goes, parts', goes', hc, hc', fun hl => ?_⟩
  obtain ⟨E', he, hx⟩ := hx.json hf
  cases he
  exact entries_changes hx (by rintro ⟨_, _, hx⟩; cases hx) (by rw [hd]; exact truthy_some hB)
    fun k => changes_sum hc hc' hl hn ho (fileKey args.unify) k

theorem table_changes {args : Args} {title : Str} {named : Str → Str → Prop} {exact : Col → Prop} {cur dif : Str → Col → Int} {tab : Table}
    {cols : List Col} {es : List (Str × Str)} {key : Str → Str → Str} {new old : List Piece}
    (h : TableOf args (abbreviates args) title named exact cur dif tab cols es) (ht : exact .total) (hd : truthy args.diff = true)
    (hdif : ∀ k, dif k .total = sizeAs key new k - sizeAs key old k) : RowsShow args key new old tab cols es := by
  refine ⟨by rw [h.headers]; rfl, ?_, h.distinct, ?_, ?_⟩
  · refine All2.imp h.rows ?_
    rintro e - row ⟨cells, hr, hc⟩
    refine ⟨cells, hr, All2.imp hc ?_⟩
    rintro c - cell ⟨z, x, hz, hx⟩ rfl
    refine ⟨z, ?_⟩
    rw [hz, (hx ht).2, hdif, hd]
  · intro hs e he hx
    exact (h.entries e he).2.2 ⟨hd, hs, by rw [hdif]; omega⟩
  · intro k hk
    obtain ⟨n, _, hn⟩ := h.all k (.inl (by rw [hdif]; omega))
    exact ⟨n, hn⟩

/-- The table of a report in one of the formats that have one. -/
def TableIn (args : Args) (rep : Report) (tab : Table) : Prop :=
  (args.format = str "table" ∨ args.format = str "text") ∧ rep = .table tab ∨ args.format = str "csv" ∧ rep = .csv (csvLines tab)

theorem report_rows {args : Args} {title : Str} {named : Str → Str → Prop} {exact : Col → Prop} {cur dif : Str → Col → Int} {rep : Report}
    {key : Str → Str → Str} {new old : List Piece} (h : ReportOf args title named exact cur dif rep) (ht : exact .total)
    (hf : args.format = str "table" ∨ args.format = str "text" ∨ args.format = str "csv") (hd : truthy args.diff = true)
    (hdif : ∀ k, dif k .total = sizeAs key new k - sizeAs key old k) :
    ∃ tab cols es, TableIn args rep tab ∧ RowsShow args key new old tab cols es := by
  rcases hf with hf | hf | hf
  · obtain ⟨tab, cols, es, hr, hx⟩ := h.table (.inl hf)
    exact ⟨tab, cols, es, .inl ⟨.inl hf, hr⟩, table_changes hx ht hd hdif⟩
  · obtain ⟨tab, cols, es, hr, hx⟩ := h.table (.inr hf)
    exact ⟨tab, cols, es, .inl ⟨.inr hf, hr⟩, table_changes hx ht hd hdif⟩
  · obtain ⟨tab, cols, es, hr, hx, _⟩ := h.csv hf
    exact ⟨tab, cols, es, .inr ⟨hf, hr⟩, table_changes hx ht hd hdif⟩

/-- **C107** tables and CSV reports of archives. -/
theorem C107_archive_rows_partial (R : RunIn) (A B : Str) (args : Args) {a b : GetIn} (ra : Readable R args A a) (rb : Readable R args B b)
    (ha : args.archives = true) (hd : args.diff = some B) (hB : B ≠ []) (hdep : args.archiveDependencies = false)
    (hf : args.format = str "table" ∨ args.format = str "text" ∨ args.format = str "csv") {rep : Report}
    (h : makeReport R A args = some (.ok rep)) {new old rest : List Piece}
    (hn : (piecesOf (keptOf a)).Perm (new ++ rest)) (ho : (piecesOf (keptOf b)).Perm (old ++ rest)) :
    ∃ parts goes parts' goes', CutInto R args a parts goes ∧ CutInto R args b parts' goes' ∧
      (LoseSame goes goes' parts parts' →
        ∃ tab cols es, TableIn args rep tab ∧ RowsShow args (fun x _ => archKey args.unify x) new old tab cols es) := by
  obtain ⟨parts, goes, parts', goes', hc, hc', hx⟩ := C81_archives_diff R A B args _ ra rb ha hd hB hdep h
  exact ⟨parts, goes, parts', goes', hc, hc', fun hl => report_rows hx trivial hf (by rw [hd]; exact truthy_some hB)
    fun k => changes_sum hc hc' hl hn ho (fun x _ => archKey args.unify x) k⟩

/-- **C107** tables and CSV reports of object files. -/
theorem C107_file_rows_partial (R : RunIn) (A B : Str) (args : Args) {a b : GetIn} (ra : Readable R args A a) (rb : Readable R args B b)
    (ha : args.archives = false) (hdet : truthy args.archiveDetails = false) (hfi : args.files = true) (hd : args.diff = some B) (hB : B ≠ [])
    (hdep : args.archiveDependencies = false)
    (hf : args.format = str "table" ∨ args.format = str "text" ∨ args.format = str "csv") {rep : Report}
    (h : makeReport R A args = some (.ok rep)) {new old rest : List Piece}
    (hn : (piecesOf (keptOf a)).Perm (new ++ rest)) (ho : (piecesOf (keptOf b)).Perm (old ++ rest)) :
    ∃ parts goes parts' goes', CutInto R args a parts goes ∧ CutInto R args b parts' goes' ∧
      (LoseSame goes goes' parts parts' →
        ∃ tab cols es, TableIn args rep tab ∧ RowsShow args (fileKey args.unify) new old tab cols es) := by
  obtain ⟨parts, goes, parts', goes', hc, hc', hx⟩ := C81_files_diff_partial R A B args _ ra rb ha hdet hdep hfi hd hB h
  exact ⟨parts, goes, parts', goes', hc, hc', fun hl => report_rows hx (by rintro ⟨_, _, hx⟩; cases hx) hf (by rw [hd]; exact truthy_some hB)
    fun k => changes_sum hc hc' hl hn ho (fileKey args.unify) k⟩

/-- **C107** a single input section of another size is shown in exactly one entry, with the difference. -/
theorem C107_one {key : Str → Str → Str} {E : Dict Str Entry} {x o : Str} {n n' : Int} (hne : n ≠ n')
    (h : ShowsChanges false key [(x, o, n)] [(x, o, n')] E) : ∃ e, E = [(key x o, e)] ∧ e.sizeDiff = n - n' := by
  have hk : ∀ k, k ∈ E.map Prod.fst ↔ key x o = k := by
    intro k
    rw [h.names rfl k]
    by_cases hx : key x o = k <;> simp [sizeAs, sumBy, hx, hne]
  have hd := h.sum
  have hnd := h.distinct
  match E with
  | [] => exact absurd ((hk (key x o)).mpr rfl) (by simp)
  | [(k, e)] =>
    have := (hk k).mp (by simp)
    subst this
    refine ⟨e, rfl, ?_⟩
    simpa [sumBy] using hd
  | (k, e) :: (k', e') :: t =>
    have h1 := (hk k).mp (by simp)
    have h2 := (hk k').mp (by simp)
    rw [← h1, ← h2] at hnd
    simp at hnd

/-- **C107** input sections that are only moved, to other addresses, output sections or memories, are not shown. -/
theorem C107_moved {key : Str → Str → Str} {E : Dict Str Entry} (h : ShowsChanges false key [] [] E) : E = [] := by
  match E with
  | [] => rfl
  | (k, e) :: t => exact absurd ((h.names rfl k).mp (by simp)) (by simp [sizeAs, sumBy])

/-- **C107** a new archive is shown with its size, if the reference has nothing of that name. -/
theorem C107_added {key : Str → Str → Str} {E : Dict Str Entry} {new : List Piece} (h : ShowsChanges false key new [] E) {k : Str} :
    (k ∈ E.map Prod.fst ↔ sizeAs key new k ≠ 0) ∧ diffIn E k = sizeAs key new k := by
  rw [h.names rfl k, h.diffs k]
  simp [sizeAs, sumBy]

/-! ### Columns -/

theorem placed_sum (u : Bool) (goes : MSec → Option (Str × Str)) (parts : List MSec) (P : Str → Str → Bool) (c : Col) :
    filesIn u goes parts P c =
      sumBy (fun p : Placed => if P p.archive p.file && c.has p.type p.«section» then p.size else 0) (placedOf u goes (shownParts goes parts)) := by
  rw [partsFiles_in]
  unfold placedOf
  rw [sumBy_flatMap]
  apply sumBy_congr
  intro p _
  cases hx : goes p with
  | none => rfl
  | some x =>
    simp only []
    rw [sumBy_flatMap]
    apply sumBy_congr
    intro a _
    rw [sumBy_map]

theorem placed_changes {u : Bool} {goes goes' : MSec → Option (Str × Str)} {parts parts' : List MSec} {new old rest : List Placed}
    (hn : (placedOf u goes (shownParts goes parts)).Perm (new ++ rest)) (ho : (placedOf u goes' (shownParts goes' parts')).Perm (old ++ rest))
    (key : Str → Str → Str) (k : Str) (c : Col) :
    filesIn u goes parts (fun x y => decide (key x y = k)) c - filesIn u goes' parts' (fun x y => decide (key x y = k)) c =
      placedSize key new k c - placedSize key old k c := by
  rw [placed_sum, placed_sum, sumBy_perm hn, sumBy_perm ho, sumBy_append, sumBy_append]
  unfold placedSize
  simp only [Bool.and_eq_true, decide_eq_true_eq]
  omega

/-- **C107** columns of archives: a change is shown in the total, in the memory type and in the section in which it is
made, and nowhere else. -/
theorem C107_archive_cells (R : RunIn) (A B : Str) (args : Args) {a b : GetIn} (ra : Readable R args A a) (rb : Readable R args B b)
    (ha : args.archives = true) (hd : args.diff = some B) (hB : B ≠ []) (hdep : args.archiveDependencies = false)
    (hf : args.format = str "json2") {E : Dict Str Entry} (h : makeReport R A args = some (.ok (.entries E))) :
    ∃ parts goes parts' goes', CutInto R args a parts goes ∧ CutInto R args b parts' goes' ∧
      ∀ new old rest, (placedOf args.unify goes (shownParts goes parts)).Perm (new ++ rest) →
        (placedOf args.unify goes' (shownParts goes' parts')).Perm (old ++ rest) →
        ∀ k e, (k, e) ∈ E → ∀ c, diffCell e c =
          placedSize (fun x _ => archKey args.unify x) new k c - placedSize (fun x _ => archKey args.unify x) old k c := by
  obtain ⟨parts, goes, parts', goes', hc, hc', hx⟩ := C81_archives_diff R A B args _ ra rb ha hd hB hdep h
  refine ⟨parts, goes, parts', goes', hc, hc', fun new old rest hn ho k e he c => ?_⟩
  obtain ⟨E', hE, hx⟩ := hx.json hf
  cases hE
  rw [(hx.cell he (c := c) trivial).2]
  exact placed_changes hn ho (fun x _ => archKey args.unify x) k c

/-- **C107** columns of object files. -/
theorem C107_file_cells_partial (R : RunIn) (A B : Str) (args : Args) {a b : GetIn} (ra : Readable R args A a) (rb : Readable R args B b)
    (ha : args.archives = false) (hdet : truthy args.archiveDetails = false) (hfi : args.files = true) (hd : args.diff = some B) (hB : B ≠ [])
    (hdep : args.archiveDependencies = false)
    (hf : args.format = str "json2") {E : Dict Str Entry} (h : makeReport R A args = some (.ok (.entries E))) :
    ∃ parts goes parts' goes', CutInto R args a parts goes ∧ CutInto R args b parts' goes' ∧
      ∀ new old rest, (placedOf args.unify goes (shownParts goes parts)).Perm (new ++ rest) →
        (placedOf args.unify goes' (shownParts goes' parts')).Perm (old ++ rest) →
        ∀ k e, (k, e) ∈ E → ∀ c, ExactIf (FilesApart args.unify (parts ++ parts')) c →
          diffCell e c = placedSize (fileKey args.unify) new k c - placedSize (fileKey args.unify) old k c := by
  obtain ⟨parts, goes, parts', goes', hc, hc', hx⟩ := C81_files_diff_partial R A B args _ ra rb ha hdet hdep hfi hd hB h
  refine ⟨parts, goes, parts', goes', hc, hc', fun new old rest hn ho k e he c hcx => ?_⟩
  obtain ⟨E', hE, hx⟩ := hx.json hf
  cases hE
  rw [(hx.cell he hcx).2]
  exact placed_changes hn ho (fileKey args.unify) k c

/-- **C107** for a single placed input section of another size these are the columns of its memory type and section. -/
theorem C107_one_cell (key : Str → Str → Str) (p q : Placed) (hs : q = { p with size := q.size }) (k : Str) (c : Col) :
    placedSize key [p] k c - placedSize key [q] k c =
      if key p.archive p.file = k ∧ (c = .total ∨ c = .type p.type ∨ c = .sec p.type p.«section») then p.size - q.size else 0 := by
  have e1 : q.type = p.type := by rw [hs]
  have e2 : q.«section» = p.«section» := by rw [hs]
  have e3 : q.archive = p.archive := by rw [hs]
  have e4 : q.file = p.file := by rw [hs]
  have hc : c.has p.type p.«section» = true ↔ c = .total ∨ c = .type p.type ∨ c = .sec p.type p.«section» := by
    cases c with
    | total => simp [Col.has]
    | type t => simp [Col.has, eq_comm]
    | sec t s =>
      simp only [Col.has, Bool.and_eq_true, decide_eq_true_eq, reduceCtorEq, false_or, Col.sec.injEq]
      exact ⟨fun h => ⟨h.1.symm, h.2.symm⟩, fun h => ⟨h.1.symm, h.2.symm⟩⟩
  simp only [placedSize, sumBy, e1, e2, e3, e4, hc]
  split <;> omega

/-! ### Example -/

/-- `exCsvOuts` with an input section of `libb.a` that is 4 bytes longer and moves what follows. -/
def exGrownOuts : List ListedOut :=
  [⟨str ".iram0.text", 0x100, 0x24, [⟨str ".text.a", 0x100, 0x18, str "lib/liba.a", str "a.o", []⟩,
      ⟨str ".text.b", 0x118, 12, str "lib/libb.a", str "b.o", []⟩]⟩,
    ⟨str ".iram0.data", 0x124, 4, [⟨str ".data.a", 0x124, 4, str "lib/liba.a", str "a.o", []⟩]⟩]

def exGrownWorld : World :=
  { exWorld with lines := fun fn => if fn = str "/b/x.map" then .ok (printMap exCsvRegs (str "espx") exGrownOuts exCsvCrt)
                   else if fn = str "/o/x.map" then .ok (printMap exCsvRegs (str "espx") exCsvOuts exCsvCrt) else .error .osError }

def exGrownArgs : Args := { format := str "json2", archives := true, diff := some (str "/o/x.map") }

theorem keptOf_model (l : GetIn) : keptOf l = l.sections.filter (keepSection (elfHeaders (l.elf.map ElfData.shdrs))) := by
  unfold keptOf
  apply List.filter_congr
  intro s _
  have := keepSection_iff (l.elf.map ElfData.shdrs) s
  cases h : keepSection (elfHeaders (l.elf.map ElfData.shdrs)) s <;> simp_all

theorem ex_pieces {R : RunIn} {args : Args} {fn : Str} {ps : List Piece}
    (h : (load R.w fn (useDwarfOf args) none).toOption.any (fun l => (l.sections.all fun s => decide (0 ≤ s.size)) &&
      decide (piecesOf (l.sections.filter (keepSection (elfHeaders (l.elf.map ElfData.shdrs)))) = ps)) = true) :
    ∃ l, Readable R args fn l ∧ piecesOf (keptOf l) = ps := by
  cases hl : load R.w fn (useDwarfOf args) none with
  | error e => rw [hl] at h; simp [Except.toOption] at h
  | ok l =>
    rw [hl] at h
    simp only [Except.toOption, Option.any_some, Bool.and_eq_true, List.all_eq_true, decide_eq_true_eq] at h
    exact ⟨l, ⟨hl, h.1⟩, by rw [keptOf_model]; exact h.2⟩

/-- The hypotheses of the theorem can be fulfilled with a single input section that differs, and the report shows it alone. -/
example : (∃ a b rest, Readable (exRun exGrownWorld) exGrownArgs (str "/b/x.map") a ∧ Readable (exRun exGrownWorld) exGrownArgs (str "/o/x.map") b ∧
      (piecesOf (keptOf a)).Perm ([(str "lib/libb.a", str "b.o", 12)] ++ rest) ∧ (piecesOf (keptOf b)).Perm ([(str "lib/libb.a", str "b.o", 8)] ++ rest)) ∧
    exDiffs (makeReport (exRun exGrownWorld) (str "/b/x.map") exGrownArgs) = some [(str "lib/libb.a", 12, 4)] := by
  refine ⟨?_, by decide +kernel⟩
  obtain ⟨a, ha, pa⟩ := ex_pieces (R := exRun exGrownWorld) (args := exGrownArgs) (fn := str "/b/x.map")
    (ps := [(str "lib/liba.a", str "a.o", 24), (str "lib/libb.a", str "b.o", 12), (str "lib/liba.a", str "a.o", 4)]) (by decide +kernel)
  obtain ⟨b, hb, pb⟩ := ex_pieces (R := exRun exGrownWorld) (args := exGrownArgs) (fn := str "/o/x.map")
    (ps := [(str "lib/liba.a", str "a.o", 24), (str "lib/libb.a", str "b.o", 8), (str "lib/liba.a", str "a.o", 4)]) (by decide +kernel)
  exact ⟨a, b, [(str "lib/liba.a", str "a.o", 24), (str "lib/liba.a", str "a.o", 4)], ha, hb, by rw [pa]; exact List.Perm.swap _ _ _,
    by rw [pb]; exact List.Perm.swap _ _ _⟩

example : exTable (makeReport (exRun exGrownWorld) (str "/b/x.map") { exGrownArgs with format := str "text" }) =
    some [[str "Archive File", str "Total Size", str "IRAM", str ".data", str ".text"],
      [str "libb.a", str "12[red]     +4[/red]", str "12[red]     +4[/red]", str "0      0", str "12[red]     +4[/red]"]] := by decide +kernel

end EspSize
