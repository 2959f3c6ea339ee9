import Verif.Spec.TableRun
import Verif.Props.SymRun
/-! # Cells of the map that is shown -/
namespace EspSize

/-! ### Symbols by section -/

theorem sumSyms_diffTS {cur ref : MemMap} (hc : cur.WF) (hr : ref.WF) {F A B : Str → Str → Str → Str → Str → Sym → Int}
    (h : ∀ t s a o, DiffLaw Sym.WF outSym (F t s a o) (A t s a o) (B t s a o)) :
    sumSyms (outMap cur ref) (fun t s a o y => F t s a.1 o.1 y.1 y.2) =
      sumSyms cur (fun t s a o y => A t s a.1 o.1 y.1 y.2) - sumSyms ref (fun t s a o y => B t s a.1 o.1 y.1 y.2) := by
  have h1 : ∀ t s a, DiffLaw Obj.WF outObj (fun o n => sumBy (fun y : Str × Sym => F t s a o y.1 y.2) n.kids)
      (fun o n => sumBy (fun y : Str × Sym => A t s a o y.1 y.2) n.kids) (fun o n => sumBy (fun y : Str × Sym => B t s a o y.1 y.2) n.kids) :=
    fun t s a => DiffLaw.node (h t s a)
  have h2 : ∀ t s, DiffLaw Arch.WF outArch
      (fun a n => sumBy (fun o : Str × Obj => sumBy (fun y : Str × Sym => F t s a o.1 y.1 y.2) o.2.kids) n.kids)
      (fun a n => sumBy (fun o : Str × Obj => sumBy (fun y : Str × Sym => A t s a o.1 y.1 y.2) o.2.kids) n.kids)
      (fun a n => sumBy (fun o : Str × Obj => sumBy (fun y : Str × Sym => B t s a o.1 y.1 y.2) o.2.kids) n.kids) :=
    fun t s => DiffLaw.node (h1 t s)
  exact sumArchs_diff hc hr h2

/-! ### Names of sections -/

def NamedSecs (m : MemMap) : Prop := ∀ t ∈ m.memoryTypes, ∀ s ∈ t.2.sections, s.2.abb = abbrevSec s.1

theorem namedSecs_outMap {c r : MemMap} (hc : NamedSecs c) (hr : NamedSecs r) : NamedSecs (outMap c r) := by
  have hsec : Keeps (fun k (s : Sec) => s.abb = abbrevSec k) outSec := ⟨fun _ _ _ h _ => h, fun _ _ h => h, fun _ _ h => h⟩
  have hmt : Keeps (fun _ (t : MType) => ∀ s ∈ t.sections, s.2.abb = abbrevSec s.1) outMType := by
    refine ⟨fun _ c r hc hr => ?_, fun _ c hc => ?_, fun _ r hr => ?_⟩
    · exact hsec.level hc hr
    · exact hsec.level hc (by simp [sectionsOf])
    · exact hsec.level (by simp) hr
  exact hmt.level hc hr

theorem namedSecs_removeUnused {m : MemMap} (h : NamedSecs m) : NamedSecs (removeUnused m) := by
  intro t ht s hs
  simp only [removeUnused, dmap, dfilter, List.mem_map, List.mem_filter] at ht
  obtain ⟨q, ⟨q1, ⟨hq1, _⟩, rfl⟩, rfl⟩ := ht
  exact h q1 hq1 s (List.mem_filter.mp hs).1

theorem namedSecs_ignoreFlash {m : MemMap} (h : NamedSecs m) : NamedSecs (ignoreFlashSize m) := by
  intro t ht s hs
  simp only [ignoreFlashSize, dmap, List.mem_map] at ht
  obtain ⟨q, hq, rfl⟩ := ht
  simp only [] at hs
  split at hs
  · exact h q hq s hs
  · exact h q hq s hs

/-- All the names of a map. -/
structure AllNamed (m : MemMap) : Prop where
  files : NamedMap m
  syms : NamedSyms m
  secs : NamedSecs m

/-- The sums of a map by section, with the names of the reports. -/
def archCell (u : Bool) (f : Arch → Int) (w : Str → Str → Str → Bool) (m : MemMap) : Int :=
  sumArchs m fun t s a => if w t (secKey u s) (archKey u a.1) then f a.2 else 0
def fileCell (u : Bool) (f : Obj → Int) (w : Str → Str → Str → Bool) (m : MemMap) : Int :=
  sumObjs m fun t s a o => if w t (secKey u s) (fileKey u a.1 o.1) then f o.2 else 0
def symCell (u : Bool) (f : Sym → Int) (w : Str → Str → Str → Str → Bool) (m : MemMap) : Int :=
  sumSyms m fun t s a o y => if w t (secKey u s) (basename a.1) (reportedSym u a.1 o.1 y.1) then f y.2 else 0

/-- The cells of the map that is shown. -/
structure PrepCells (u diff : Bool) (m ref d : MemMap) : Prop where
  wf : d.WF
  secNames : ∀ t ∈ d.memoryTypes, ∀ s ∈ t.2.sections, s.2.abb = if u then s.1 else abbrevSec s.1
  archNames : ∀ t ∈ d.memoryTypes, ∀ s ∈ t.2.sections, ∀ a ∈ s.2.kids, a.2.abb = if u then a.1 else basename a.1
  fileNames : u = true → ∀ t ∈ d.memoryTypes, ∀ s ∈ t.2.sections, ∀ a ∈ s.2.kids, ∀ o ∈ a.2.kids, o.2.abb = o.1
  symNames : ∀ t ∈ d.memoryTypes, ∀ s ∈ t.2.sections, ∀ a ∈ s.2.kids, ∀ o ∈ a.2.kids, ∀ y ∈ o.2.kids, y.2.abb = y.1
  archSize : ∀ w, sumArchs d (fun t s a => if w t s a.1 then a.2.size else 0) = archCell u Node.size w m
  archDiff : ∀ w, sumArchs d (fun t s a => if w t s a.1 then a.2.sizeDiff else 0) =
    if diff then archCell u Node.size w m - archCell u Node.size w ref else archCell u Node.sizeDiff w m
  fileSize : ∀ w, sumObjs d (fun t s a o => if w t s (objKey u a o) then o.2.size else 0) = fileCell u Node.size w m
  fileDiff : ∀ w, sumObjs d (fun t s a o => if w t s (objKey u a o) then o.2.sizeDiff else 0) =
    if diff then fileCell u Node.size w m - fileCell u Node.size w ref else fileCell u Node.sizeDiff w m
  symSize : ∀ w, sumSyms d (fun t s a o y => if w t s a.2.abb (symKey u a o y) then y.2.size else 0) = symCell u Sym.size w m
  symDiff : ∀ w, sumSyms d (fun t s a o y => if w t s a.2.abb (symKey u a o y) then y.2.sizeDiff else 0) =
    if diff then symCell u Sym.size w m - symCell u Sym.size w ref else symCell u Sym.sizeDiff w m

/-! ### Before `unify` -/

structure MidCells (diff : Bool) (m ref d : MemMap) : Prop where
  wf : d.WF
  named : AllNamed d
  archSize : ∀ w : Str → Str → Str → Bool, sumArchs d (fun t s a => if w t s a.1 then a.2.size else 0) =
    sumArchs m (fun t s a => if w t s a.1 then a.2.size else 0)
  archDiff : ∀ w : Str → Str → Str → Bool, sumArchs d (fun t s a => if w t s a.1 then a.2.sizeDiff else 0) =
    if diff then sumArchs m (fun t s a => if w t s a.1 then a.2.size else 0) - sumArchs ref (fun t s a => if w t s a.1 then a.2.size else 0)
    else sumArchs m (fun t s a => if w t s a.1 then a.2.sizeDiff else 0)
  fileSize : ∀ w : Str → Str → Str → Str → Bool, sumObjs d (fun t s a o => if w t s a.1 o.1 then o.2.size else 0) =
    sumObjs m (fun t s a o => if w t s a.1 o.1 then o.2.size else 0)
  fileDiff : ∀ w : Str → Str → Str → Str → Bool, sumObjs d (fun t s a o => if w t s a.1 o.1 then o.2.sizeDiff else 0) =
    if diff then sumObjs m (fun t s a o => if w t s a.1 o.1 then o.2.size else 0) -
      sumObjs ref (fun t s a o => if w t s a.1 o.1 then o.2.size else 0)
    else sumObjs m (fun t s a o => if w t s a.1 o.1 then o.2.sizeDiff else 0)
  symSize : ∀ w : Str → Str → Str → Str → Str → Bool, sumSyms d (fun t s a o y => if w t s a.1 o.1 y.1 then y.2.size else 0) =
    sumSyms m (fun t s a o y => if w t s a.1 o.1 y.1 then y.2.size else 0)
  symDiff : ∀ w : Str → Str → Str → Str → Str → Bool, sumSyms d (fun t s a o y => if w t s a.1 o.1 y.1 then y.2.sizeDiff else 0) =
    if diff then sumSyms m (fun t s a o y => if w t s a.1 o.1 y.1 then y.2.size else 0) -
      sumSyms ref (fun t s a o y => if w t s a.1 o.1 y.1 then y.2.size else 0)
    else sumSyms m (fun t s a o y => if w t s a.1 o.1 y.1 then y.2.sizeDiff else 0)

/-- What the later steps use of a map. -/
structure FineCells (m m' : MemMap) : Prop where
  fine : Fine m m'
  named : AllNamed m'

theorem FineCells.syms {m m' : MemMap} (h : FineCells m m') (F : Str → Str → Str × Arch → Str × Obj → Str × Sym → Int) :
    sumSyms m' F = sumSyms m F := h.fine.objs _

theorem midCells_plain {m m' ref : MemMap} (h : FineCells m m') : MidCells false m ref m' :=
  ⟨h.fine.wf, h.named, fun _ => h.fine.sums _, fun _ => h.fine.sums _, fun _ => h.fine.objs _, fun _ => h.fine.objs _,
    fun _ => h.syms _, fun _ => h.syms _⟩

theorem midCells_diff {m m' ref ref' : MemMap} (h : FineCells m m') (hr : FineCells ref ref') : MidCells true m ref (outMap m' ref') := by
  refine ⟨wf_outMap h.fine.wf hr.fine.wf, ⟨named_outMap h.named.files hr.named.files, namedSyms_outMap h.named.syms hr.named.syms,
    namedSecs_outMap h.named.secs hr.named.secs⟩, ?_, ?_, ?_, ?_, ?_, ?_⟩
  · intro w
    rw [sumArchs_diff_size h.fine.wf hr.fine.wf w]
    exact h.fine.sums _
  · intro w
    rw [sumArchs_diff_diff h.fine.wf hr.fine.wf w, h.fine.sums, hr.fine.sums]
    rfl
  · intro w
    rw [sumObjs_diff_size h.fine.wf hr.fine.wf w]
    exact h.fine.objs _
  · intro w
    rw [sumObjs_diff_diff h.fine.wf hr.fine.wf w, h.fine.objs, hr.fine.objs]
    rfl
  · intro w
    rw [← h.syms]
    refine (sumSyms_diffTS h.fine.wf hr.fine.wf (F := fun t s a o y n => if w t s a o y then n.size else 0)
      (A := fun t s a o y n => if w t s a o y then n.size else 0) (B := fun _ _ _ _ _ _ => 0)
      fun t s a o => diffLaw_symSize (w t s a o)).trans ?_
    rw [sumSyms_zero]; omega
  · intro w
    rw [if_pos rfl, ← h.syms, ← hr.syms]
    exact sumSyms_diffTS h.fine.wf hr.fine.wf (F := fun t s a o y n => if w t s a o y then n.sizeDiff else 0)
      (A := fun t s a o y n => if w t s a o y then n.size else 0) (B := fun t s a o y n => if w t s a o y then n.size else 0)
      fun t s a o => diffLaw_symDiff (w t s a o)

/-! ### `unify` -/

theorem uniCells_archs {d : MemMap} (hn : AllNamed d) (w : Str → Str → Str → Bool) :
    sumArchs (unify d) (fun t s a => if w t s a.1 then a.2.size else 0) = archCell true Node.size w d ∧
    sumArchs (unify d) (fun t s a => if w t s a.1 then a.2.sizeDiff else 0) = archCell true Node.sizeDiff w d := by
  constructor
  · refine (sumArchs_unify d (G := fun t s a n => if w t s a then n.size else 0)
      fun t s => uniLaw_size _ (w t s)).trans ?_
    refine sumBy_congr fun t ht => sumBy_congr fun s hs => sumBy_congr fun a ha => ?_
    simp only []
    rw [hn.secs t ht s hs, (hn.files t ht s hs a ha).1]
    rfl
  · refine (sumArchs_unify d (G := fun t s a n => if w t s a then n.sizeDiff else 0)
      fun t s => uniLaw_diff _ (w t s)).trans ?_
    refine sumBy_congr fun t ht => sumBy_congr fun s hs => sumBy_congr fun a ha => ?_
    simp only []
    rw [hn.secs t ht s hs, (hn.files t ht s hs a ha).1]
    rfl

theorem uniCells_files {d : MemMap} (hn : AllNamed d) (w : Str → Str → Str → Bool) :
    sumObjs (unify d) (fun t s _ o => if w t s o.1 then o.2.size else 0) = fileCell true Node.size w d ∧
    sumObjs (unify d) (fun t s _ o => if w t s o.1 then o.2.sizeDiff else 0) = fileCell true Node.sizeDiff w d := by
  constructor
  · refine (sumArchs_unify d (G := fun t s _ n => sumBy (fun o : Str × Obj => if w t s o.1 then o.2.size else 0) n.kids)
      fun t s => uniLaw_kids (uK := unifyObjs) (G := fun _ o n => if w t s o then n.size else 0) fun _ => uniLaw_size _ (w t s)).trans ?_
    refine sumBy_congr fun t ht => sumBy_congr fun s hs => sumBy_congr fun a ha => sumBy_congr fun o ho => ?_
    simp only []
    rw [hn.secs t ht s hs, (hn.files t ht s hs a ha).2 o ho]
    rfl
  · refine (sumArchs_unify d (G := fun t s _ n => sumBy (fun o : Str × Obj => if w t s o.1 then o.2.sizeDiff else 0) n.kids)
      fun t s => uniLaw_kids (uK := unifyObjs) (G := fun _ o n => if w t s o then n.sizeDiff else 0) fun _ => uniLaw_diff _ (w t s)).trans ?_
    refine sumBy_congr fun t ht => sumBy_congr fun s hs => sumBy_congr fun a ha => sumBy_congr fun o ho => ?_
    simp only []
    rw [hn.secs t ht s hs, (hn.files t ht s hs a ha).2 o ho]
    rfl

theorem uniCells_syms {d : MemMap} (hn : AllNamed d) (w : Str → Str → Str → Str → Bool) :
    sumSyms (unify d) (fun t s a _ y => if w t s a.1 y.1 then y.2.size else 0) = symCell true Sym.size w d ∧
    sumSyms (unify d) (fun t s a _ y => if w t s a.1 y.1 then y.2.sizeDiff else 0) = symCell true Sym.sizeDiff w d := by
  constructor
  · refine (sumArchs_unify d (G := fun t s a n => sumBy (fun o : Str × Obj => sumBy (fun y : Str × Sym => if w t s a y.1 then y.2.size else 0) o.2.kids) n.kids)
      fun t s => uniLaw_kids (uK := unifyObjs) (G := fun a _ n => sumBy (fun y : Str × Sym => if w t s a y.1 then y.2.size else 0) n.kids)
        fun a => uniLaw_kids (uK := unifySyms) (G := fun _ y n => if w t s a y then n.size else 0)
          (H := fun _ y => if w t s a y.2.abb then y.2.size else 0) fun _ => uniLaw_sym (fun _ => rfl)
            fun x p => by by_cases h : w t s a p.2.abb <;> simp [addSym, h]).trans ?_
    refine sumBy_congr fun t ht => sumBy_congr fun s hs => sumBy_congr fun a ha => sumBy_congr fun o ho => sumBy_congr fun y hy => ?_
    simp only []
    rw [hn.secs t ht s hs, (hn.files t ht s hs a ha).1, hn.syms t ht s hs a ha o ho y hy]
    rfl
  · refine (sumArchs_unify d (G := fun t s a n => sumBy (fun o : Str × Obj => sumBy (fun y : Str × Sym => if w t s a y.1 then y.2.sizeDiff else 0) o.2.kids) n.kids)
      fun t s => uniLaw_kids (uK := unifyObjs) (G := fun a _ n => sumBy (fun y : Str × Sym => if w t s a y.1 then y.2.sizeDiff else 0) n.kids)
        fun a => uniLaw_kids (uK := unifySyms) (G := fun _ y n => if w t s a y then n.sizeDiff else 0)
          (H := fun _ y => if w t s a y.2.abb then y.2.sizeDiff else 0) fun _ => uniLaw_sym (fun _ => rfl)
            fun x p => by by_cases h : w t s a p.2.abb <;> simp [addSym, h]).trans ?_
    refine sumBy_congr fun t ht => sumBy_congr fun s hs => sumBy_congr fun a ha => sumBy_congr fun o ho => sumBy_congr fun y hy => ?_
    simp only []
    rw [hn.secs t ht s hs, (hn.files t ht s hs a ha).1, hn.syms t ht s hs a ha o ho y hy]
    rfl

theorem midCells_unify {diff : Bool} {m ref d : MemMap} (h : MidCells diff m ref d) (u : Bool) :
    PrepCells u diff m ref (if u then unify d else d) := by
  cases u with
  | false =>
    simp only [Bool.false_eq_true, if_false]
    refine ⟨h.wf, fun t ht s hs => h.named.secs t ht s hs, fun t ht s hs a ha => (h.named.files t ht s hs a ha).1,
      (by intro hu; cases hu), h.named.syms, h.archSize, h.archDiff, fun w => h.fileSize fun t s a o => w t s (a ++ str ":" ++ o),
      fun w => h.fileDiff fun t s a o => w t s (a ++ str ":" ++ o), ?_, ?_⟩
    · intro w
      rw [← show _ = symCell false Sym.size w m from h.symSize fun t s a o y => w t s (basename a) (a ++ str ":" ++ o ++ str ":" ++ y)]
      apply sumSyms_congr
      intro t ht s hs a ha o ho y hy
      rw [(h.named.files t ht s hs a ha).1]
      rfl
    · intro w
      refine Eq.trans ?_ (h.symDiff fun t s a o y => w t s (basename a) (a ++ str ":" ++ o ++ str ":" ++ y))
      apply sumSyms_congr
      intro t ht s hs a ha o ho y hy
      rw [(h.named.files t ht s hs a ha).1]
      rfl
  | true =>
    simp only [if_true]
    have huni := C05_unify_keys d
    refine ⟨wf_unify h.wf, ?_, ?_, ?_, ?_, ?_, ?_, ?_, ?_, ?_, ?_⟩
    · intro t ht s hs
      exact ((huni t ht).2 s hs).1.symm
    · intro t ht s hs a ha
      exact (((huni t ht).2 s hs).2.2 a ha).1.symm
    · intro _ t ht s hs a ha o ho
      exact ((((huni t ht).2 s hs).2.2 a ha).2.2 o ho).1.symm
    · intro t ht s hs a ha o ho y hy
      exact (((((huni t ht).2 s hs).2.2 a ha).2.2 o ho).2.2 y hy).1.symm
    · intro w
      rw [(uniCells_archs h.named w).1]
      exact h.archSize fun t s a => w t (abbrevSec s) (basename a)
    · intro w
      rw [(uniCells_archs h.named w).2]
      exact h.archDiff fun t s a => w t (abbrevSec s) (basename a)
    · intro w
      refine Eq.trans ?_ ((uniCells_files h.named w).1.trans (h.fileSize fun t s _ o => w t (abbrevSec s) (basename o)))
      apply sumObjs_congr
      intro t ht s hs a ha o ho
      unfold objKey
      rw [← ((((huni t ht).2 s hs).2.2 a ha).2.2 o ho).1]
      rfl
    · intro w
      refine Eq.trans ?_ ((uniCells_files h.named w).2.trans (h.fileDiff fun t s _ o => w t (abbrevSec s) (basename o)))
      apply sumObjs_congr
      intro t ht s hs a ha o ho
      unfold objKey
      rw [← ((((huni t ht).2 s hs).2.2 a ha).2.2 o ho).1]
      rfl
    · intro w
      refine Eq.trans ?_ ((uniCells_syms h.named w).1.trans (h.symSize fun t s a _ y => w t (abbrevSec s) (basename a) y))
      apply sumSyms_congr
      intro t ht s hs a ha o ho y hy
      have h1 := ((huni t ht).2 s hs).2.2 a ha
      unfold symKey
      rw [← h1.1, ← (((h1.2.2 o ho).2.2) y hy).1]
      rfl
    · intro w
      refine Eq.trans ?_ ((uniCells_syms h.named w).2.trans (h.symDiff fun t s a _ y => w t (abbrevSec s) (basename a) y))
      apply sumSyms_congr
      intro t ht s hs a ha o ho y hy
      have h1 := ((huni t ht).2 s hs).2.2 a ha
      unfold symKey
      rw [← h1.1, ← (((h1.2.2 o ho).2.2) y hy).1]
      rfl

/-! ### Where files and symbols come from -/

def FilesIn (N : Str → Str → Prop) (m : MemMap) : Prop :=
  ∀ t ∈ m.memoryTypes, ∀ s ∈ t.2.sections, ∀ a ∈ s.2.kids, ∀ o ∈ a.2.kids, N a.1 o.1
def SymsIn (N : Str → Str → Str → Prop) (m : MemMap) : Prop :=
  ∀ t ∈ m.memoryTypes, ∀ s ∈ t.2.sections, ∀ a ∈ s.2.kids, ∀ o ∈ a.2.kids, ∀ y ∈ o.2.kids, N a.1 o.1 y.1

/-- A property of the archives of all sections. -/
def EachArch (N : Str → Arch → Prop) (m : MemMap) : Prop :=
  ∀ t ∈ m.memoryTypes, ∀ s ∈ t.2.sections, ∀ a ∈ s.2.kids, N a.1 a.2

theorem eachArch_outMap {N : Str → Arch → Prop} (h : Keeps N outArch) {c r : MemMap} (hc : EachArch N c) (hr : EachArch N r) :
    EachArch N (outMap c r) := by
  have hsec : Keeps (fun _ (s : Sec) => ∀ a ∈ s.kids, N a.1 a.2) outSec := by
    refine ⟨fun _ c r hc hr => ?_, fun _ c hc => ?_, fun _ r hr => ?_⟩
    · exact h.level hc hr
    · exact h.level hc (by simp [kidsOf])
    · exact h.level (by simp) hr
  have hmt : Keeps (fun _ (t : MType) => ∀ s ∈ t.sections, ∀ a ∈ s.2.kids, N a.1 a.2) outMType := by
    refine ⟨fun _ c r hc hr => ?_, fun _ c hc => ?_, fun _ r hr => ?_⟩
    · exact hsec.level hc hr
    · exact hsec.level hc (by simp [sectionsOf])
    · exact hsec.level (by simp) hr
  exact hmt.level hc hr

theorem eachArch_removeUnused {N : Str → Arch → Prop} {m : MemMap} (h : EachArch N m) : EachArch N (removeUnused m) := by
  intro t ht s hs
  simp only [removeUnused, dmap, dfilter, List.mem_map, List.mem_filter] at ht
  obtain ⟨q, ⟨q1, ⟨hq1, _⟩, rfl⟩, rfl⟩ := ht
  exact h q1 hq1 s (List.mem_filter.mp hs).1

theorem eachArch_ignoreFlash {N : Str → Arch → Prop} {m : MemMap} (h : EachArch N m) : EachArch N (ignoreFlashSize m) := by
  intro t ht s hs
  simp only [ignoreFlashSize, dmap, List.mem_map] at ht
  obtain ⟨q, hq, rfl⟩ := ht
  simp only [] at hs
  split at hs
  · exact h q hq s hs
  · exact h q hq s hs

theorem keeps_files (N : Str → Str → Prop) : Keeps (fun a (n : Arch) => ∀ o ∈ n.kids, N a o.1) outArch := by
  have h : ∀ a, Keeps (fun o (_ : Obj) => N a o) outObj := fun a => ⟨fun _ _ _ h _ => h, fun _ _ h => h, fun _ _ h => h⟩
  refine ⟨fun a c r hc hr => ?_, fun a c hc => ?_, fun a r hr => ?_⟩
  · exact (h a).level hc hr
  · exact (h a).level hc (by simp [kidsOf])
  · exact (h a).level (by simp) hr

theorem keeps_syms (N : Str → Str → Str → Prop) : Keeps (fun a (n : Arch) => ∀ o ∈ n.kids, ∀ y ∈ o.2.kids, N a o.1 y.1) outArch := by
  have h : ∀ a o, Keeps (fun y (_ : Sym) => N a o y) outSym := fun a o => ⟨fun _ _ _ h _ => h, fun _ _ h => h, fun _ _ h => h⟩
  have h2 : ∀ a, Keeps (fun o (n : Obj) => ∀ y ∈ n.kids, N a o y.1) outObj := by
    intro a
    refine ⟨fun o c r hc hr => ?_, fun o c hc => ?_, fun o r hr => ?_⟩
    · exact (h a o).level hc hr
    · exact (h a o).level hc (by simp [kidsOf])
    · exact (h a o).level (by simp) hr
  refine ⟨fun a c r hc hr => ?_, fun a c hc => ?_, fun a r hr => ?_⟩
  · exact (h2 a).level hc hr
  · exact (h2 a).level hc (by simp [kidsOf])
  · exact (h2 a).level (by simp) hr

theorem prepare_mid {args : Args} {m ref d : MemMap} (hm : m.WF) (hmn : AllNamed m) (hmu : UnusedEmpty m)
    (hr : truthy args.diff = true → ref.WF ∧ AllNamed ref ∧ UnusedEmpty ref) (h : prepare args m ref = .ok d) :
    ∃ d', d = (if args.unify then unify d' else d') ∧ MidCells (truthy args.diff) m ref d' ∧
      ∀ N, Keeps N outArch → EachArch N m → (truthy args.diff = true → EachArch N ref) → EachArch N d' := by
  have hrem : ∀ {m : MemMap}, m.WF → AllNamed m → UnusedEmpty m → FineCells m (if args.showUnused then m else removeUnused m) := by
    intro m h1 h2 h3
    refine ⟨fine_removeUnused h1 h2.files h3 args.showUnused, ?_⟩
    split
    · exact h2
    · exact ⟨named_removeUnused h2.files, namedSyms_removeUnused h2.syms, namedSecs_removeUnused h2.secs⟩
  have hign : ∀ {m m' : MemMap}, FineCells m m' → FineCells m (if args.useFlashSize then m' else ignoreFlashSize m') := by
    intro m m' h
    refine ⟨fine_ignoreFlash h.fine args.useFlashSize, ?_⟩
    split
    · exact h.named
    · exact ⟨named_ignoreFlash h.named.files, namedSyms_ignoreFlash h.named.syms, namedSecs_ignoreFlash h.named.secs⟩
  have erem : ∀ {N m}, EachArch N m → EachArch N (if args.showUnused then m else removeUnused m) := by
    intro N m h; split
    · exact h
    · exact eachArch_removeUnused h
  have eign : ∀ {N m}, EachArch N m → EachArch N (if args.useFlashSize then m else ignoreFlashSize m) := by
    intro N m h; split
    · exact h
    · exact eachArch_ignoreFlash h
  unfold prepare at h
  have f1 := hign (hrem hm hmn hmu)
  cases hd : truthy args.diff with
  | false =>
    simp only [hd, Bool.false_eq_true, if_false, bind, Except.bind, Except.ok.injEq] at h
    subst h
    exact ⟨_, rfl, midCells_plain f1, fun N _ h _ => eign (erem h)⟩
  | true =>
    obtain ⟨h1, h2, h3⟩ := hr hd
    have f2 := hign f1
    have f3 := hrem h1 h2 h3
    simp only [hd, if_true, bind, Except.bind] at h
    rw [diff_eq f2.fine.wf f3.fine.wf] at h
    simp only [Except.ok.injEq] at h
    subst h
    exact ⟨_, rfl, midCells_diff f2 f3, fun N hk h h' => eachArch_outMap hk (eign (eign (erem h))) (erem (h' rfl))⟩

theorem prepare_cells {args : Args} {m ref d : MemMap} (hm : m.WF) (hmn : AllNamed m) (hmu : UnusedEmpty m)
    (hr : truthy args.diff = true → ref.WF ∧ AllNamed ref ∧ UnusedEmpty ref) (h : prepare args m ref = .ok d) :
    PrepCells args.unify (truthy args.diff) m ref d := by
  obtain ⟨d', rfl, hmid, _⟩ := prepare_mid hm hmn hmu hr h
  exact midCells_unify hmid args.unify

theorem mem_of_getArch {m : MemMap} {t s a : Str} {ax : Arch} (h : getArch m t s a = some ax) :
    ∃ t' ∈ m.memoryTypes, ∃ s' ∈ t'.2.sections, t'.1 = t ∧ s'.1 = s ∧ (a, ax) ∈ s'.2.kids := by
  obtain ⟨x, hx, h⟩ := Option.bind_eq_some_iff.mp h
  obtain ⟨mt, hmt, hx⟩ := Option.bind_eq_some_iff.mp hx
  exact ⟨_, mem_of_dget hmt, _, mem_of_dget hx, rfl, rfl, mem_of_dget h⟩

/-- The files of the map that is shown. -/
theorem shown_files {d : MemMap} {N : Str → Str → Prop} (u : Bool) (hn : AllNamed d) (hN : FilesIn N d)
    {t s A O : Str} {ox : Obj} (h : getObj (if u then unify d else d) t s A O = some ox) :
    ∃ a o, N a o ∧ A = archKey u a ∧ O = archKey u o ∧ (u = true → ox.abb = O) := by
  cases u with
  | false =>
    simp only [Bool.false_eq_true, if_false] at h
    obtain ⟨ax, ha, h⟩ := Option.bind_eq_some_iff.mp h
    obtain ⟨t', ht, s', hs, _, _, ha⟩ := mem_of_getArch ha
    exact ⟨A, O, hN t' ht s' hs _ ha _ (mem_of_dget h), rfl, rfl, by intro hu; cases hu⟩
  | true =>
    simp only [if_true] at h
    have hag := (C04_unify_aggregates d).2.2.2.2.2.1 t s A O
    have hne := hag.present.mp (by rw [h]; rfl)
    obtain ⟨x, hx⟩ := List.exists_mem_of_ne_nil _ hne
    unfold chainObjs chainArchs chainSecs at hx
    obtain ⟨ax, hax, hx⟩ := List.mem_flatMap.mp hx
    obtain ⟨sx, hsx, hax⟩ := List.mem_flatMap.mp hax
    split at hsx
    · cases hsx
    · rename_i mt hmt
      unfold named at hsx hax hx
      obtain ⟨p, hp, rfl⟩ := List.mem_map.mp hsx
      obtain ⟨q, hq, rfl⟩ := List.mem_map.mp hax
      obtain ⟨r, hr, rfl⟩ := List.mem_map.mp hx
      simp only [List.mem_filter, decide_eq_true_eq] at hp hq hr
      have hm := mem_of_dget hmt
      have h1 := hn.files _ hm p hp.1 q hq.1
      refine ⟨q.1, r.1, hN _ hm p hp.1 q hq.1 r hr.1, ?_, ?_, fun _ => hag.name ox h⟩
      · rw [← hq.2, h1.1]; rfl
      · rw [← hr.2, h1.2 r hr.1]; rfl

theorem shown_syms {d : MemMap} {N : Str → Str → Str → Prop} (u : Bool) (hn : AllNamed d) (hN : SymsIn N d)
    {t s A O y : Str} {yx : Sym} (h : getSym (if u then unify d else d) t s A O y = some yx) :
    ∃ a o, N a o y ∧ A = archKey u a ∧ O = archKey u o ∧ (u = true → yx.abb = y) := by
  cases u with
  | false =>
    simp only [Bool.false_eq_true, if_false] at h
    obtain ⟨ox, ho, h⟩ := Option.bind_eq_some_iff.mp h
    obtain ⟨ax, ha, ho⟩ := Option.bind_eq_some_iff.mp ho
    obtain ⟨t', ht, s', hs, _, _, ha⟩ := mem_of_getArch ha
    exact ⟨A, O, hN t' ht s' hs _ ha _ (mem_of_dget ho) _ (mem_of_dget h), rfl, rfl, by intro hu; cases hu⟩
  | true =>
    simp only [if_true] at h
    have hag := (C04_unify_aggregates d).2.2.2.2.2.2 t s A O y
    have hne := hag.present.mp (by rw [h]; rfl)
    obtain ⟨z, hz⟩ := List.exists_mem_of_ne_nil _ hne
    unfold chainSyms chainObjs chainArchs chainSecs at hz
    obtain ⟨x, hx, hz⟩ := List.mem_flatMap.mp hz
    obtain ⟨ax, hax, hx⟩ := List.mem_flatMap.mp hx
    obtain ⟨sx, hsx, hax⟩ := List.mem_flatMap.mp hax
    split at hsx
    · cases hsx
    · rename_i mt hmt
      unfold named at hsx hax hx hz
      obtain ⟨p, hp, rfl⟩ := List.mem_map.mp hsx
      obtain ⟨q, hq, rfl⟩ := List.mem_map.mp hax
      obtain ⟨r, hr, rfl⟩ := List.mem_map.mp hx
      obtain ⟨w, hw, rfl⟩ := List.mem_map.mp hz
      simp only [List.mem_filter, decide_eq_true_eq] at hp hq hr hw
      have hm := mem_of_dget hmt
      have h1 := hn.files _ hm p hp.1 q hq.1
      have h2 := hn.syms _ hm p hp.1 q hq.1 r hr.1 w hw.1
      refine ⟨q.1, r.1, ?_, ?_, ?_, fun _ => hag.name yx h⟩
      · have := hN _ hm p hp.1 q hq.1 r hr.1 w hw.1
        rw [← h2, hw.2] at this
        exact this
      · rw [← hq.2, h1.1]; rfl
      · rw [← hr.2, h1.2 r hr.1]; rfl

end EspSize
