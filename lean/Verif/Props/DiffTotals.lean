import Verif.Proofs.Linear
import Verif.Props.Lost
import Verif.Props.UnifyDiff
import Verif.Spec.DiffRun
/-!
# Totals of the map that is shown

From the map returned by `get` through `remove_unused`, `ignore_flash_size`, `diff` and `unify`.
-/
namespace EspSize
section
variable {α : Type}

/-! ### The result of `diff` is made of dictionaries with distinct keys -/

theorem nodup_outLevel (out : Option α → Option α → α) {c r : Dict Str α} (hc : KeysNodup c) (hr : KeysNodup r) :
    KeysNodup (outLevel out c r) := by
  unfold KeysNodup
  rw [dkeys_outLevel, List.nodup_append]
  refine ⟨hc, ?_, ?_⟩
  · exact List.Nodup.sublist List.filter_sublist hr
  · intro a ha b hb e
    subst e
    have := (List.mem_filter.mp hb).2
    simp at this
    exact this ha

/-- A property of entries that `out` keeps. -/
def Keeps (N : Str → α → Prop) (out : Option α → Option α → α) : Prop :=
  (∀ k c r, N k c → N k r → N k (out (some c) (some r))) ∧ (∀ k c, N k c → N k (out (some c) none)) ∧
    ∀ k r, N k r → N k (out none (some r))

theorem Keeps.level {N : Str → α → Prop} {out : Option α → Option α → α} (h : Keeps N out) {c r : Dict Str α}
    (hc : ∀ p ∈ c, N p.1 p.2) (hr : ∀ p ∈ r, N p.1 p.2) : ∀ p ∈ outLevel out c r, N p.1 p.2 := by
  intro p hp
  simp only [outLevel, List.mem_append, List.mem_map, List.mem_filter] at hp
  rcases hp with ⟨q, hq, rfl⟩ | ⟨q, ⟨hq, _⟩, rfl⟩
  · cases hg : dget r q.1 with
    | none => exact h.2.1 _ _ (hc q hq)
    | some y => exact h.1 _ _ _ (hc q hq) (hr _ (mem_of_dget hg))
  · exact h.2.2 _ _ (hr q hq)

theorem Keeps.nodeWF {W : α → Prop} {out : Option α → Option α → α} (h : Keeps (fun _ => W) out) :
    Keeps (fun _ => Node.WF W) (outNode out) := by
  refine ⟨fun _ c r hc hr => ?_, fun _ c hc => ?_, fun _ r hr => ?_⟩
  · exact ⟨nodup_outLevel out hc.1 hr.1, h.level hc.2 hr.2⟩
  · exact ⟨nodup_outLevel out hc.1 KeysNodup.nil, h.level hc.2 (by simp [kidsOf])⟩
  · exact ⟨nodup_outLevel out KeysNodup.nil hr.1, h.level (by simp) hr.2⟩

/-- Abbreviated names are a function of the key, and `N` holds below. -/
def NamedNode (f : Str → Str) (N : Str → α → Prop) (k : Str) (n : Node α) : Prop := n.abb = f k ∧ ∀ p ∈ n.kids, N p.1 p.2

theorem Keeps.named {N : Str → α → Prop} {out : Option α → Option α → α} (h : Keeps N out) (f : Str → Str) :
    Keeps (NamedNode f N) (outNode out) := by
  refine ⟨fun _ c r hc hr => ⟨hc.1, ?_⟩, fun _ c hc => ⟨hc.1, ?_⟩, fun _ r hr => ⟨hr.1, ?_⟩⟩
  · exact h.level hc.2 hr.2
  · exact h.level hc.2 (by simp [kidsOf])
  · exact h.level (by simp) hr.2

end

theorem wf_outMap {c r : MemMap} (hc : c.WF) (hr : r.WF) : (outMap c r).WF := by
  have hsec : Keeps (fun _ => Sec.WF) outSec :=
    Keeps.nodeWF (Keeps.nodeWF (Keeps.nodeWF (W := Sym.WF) ⟨fun _ _ _ _ _ => trivial, fun _ _ _ => trivial, fun _ _ _ => trivial⟩))
  have hmt : Keeps (fun _ => MType.WF) outMType := by
    refine ⟨fun _ c r hc hr => ?_, fun _ c hc => ?_, fun _ r hr => ?_⟩
    · exact ⟨nodup_outLevel outSec hc.1 hr.1, hsec.level hc.2 hr.2⟩
    · exact ⟨nodup_outLevel outSec hc.1 KeysNodup.nil, hsec.level hc.2 (by simp [sectionsOf])⟩
    · exact ⟨nodup_outLevel outSec KeysNodup.nil hr.1, hsec.level (by simp) hr.2⟩
  exact ⟨nodup_outLevel outMType hc.1 hr.1, hmt.level hc.2 hr.2⟩

/-! ### Names -/

/-- Archives and object files are abbreviated to the last component of their path. -/
def NamedMap (m : MemMap) : Prop :=
  ∀ t ∈ m.memoryTypes, ∀ s ∈ t.2.sections, ∀ a ∈ s.2.kids, NamedNode basename (fun o (n : Obj) => n.abb = basename o) a.1 a.2

theorem named_outMap {c r : MemMap} (hc : NamedMap c) (hr : NamedMap r) : NamedMap (outMap c r) := by
  have hobj : Keeps (fun o (n : Obj) => n.abb = basename o) outObj :=
    ⟨fun _ _ _ h _ => h, fun _ _ h => h, fun _ _ h => h⟩
  have harch : Keeps (NamedNode basename (fun o (n : Obj) => n.abb = basename o)) outArch := hobj.named basename
  have hsec : Keeps (fun _ (s : Sec) => ∀ a ∈ s.kids, NamedNode basename (fun o (n : Obj) => n.abb = basename o) a.1 a.2) outSec := by
    refine ⟨fun _ c r hc hr => ?_, fun _ c hc => ?_, fun _ r hr => ?_⟩
    · exact harch.level hc hr
    · exact harch.level (r := []) hc (by simp)
    · exact harch.level (c := []) (by simp) hr
  have hmt : Keeps (fun _ (t : MType) => ∀ s ∈ t.sections, ∀ a ∈ s.2.kids,
      NamedNode basename (fun o (n : Obj) => n.abb = basename o) a.1 a.2) outMType := by
    refine ⟨fun _ c r hc hr => ?_, fun _ c hc => ?_, fun _ r hr => ?_⟩
    · exact hsec.level hc hr
    · exact hsec.level (r := []) hc (by simp)
    · exact hsec.level (c := []) (by simp) hr
  exact hmt.level hc hr

theorem named_removeUnused {m : MemMap} (h : NamedMap m) : NamedMap (removeUnused m) := by
  intro t ht s hs
  simp only [removeUnused, dmap, dfilter, List.mem_map, List.mem_filter] at ht
  obtain ⟨q, ⟨q1, ⟨hq1, _⟩, rfl⟩, rfl⟩ := ht
  exact h q1 hq1 s (List.mem_filter.mp hs).1

theorem named_ignoreFlash {m : MemMap} (h : NamedMap m) : NamedMap (ignoreFlashSize m) := by
  intro t ht s hs
  simp only [ignoreFlashSize, dmap, List.mem_map] at ht
  obtain ⟨q, hq, rfl⟩ := ht
  simp only [] at hs
  split at hs
  · exact h q hq s hs
  · exact h q hq s hs

/-! ### The steps before `diff` -/

/-- Nothing is in a memory type of which nothing is used. -/
def UnusedEmpty (m : MemMap) : Prop := ∀ t ∈ m.memoryTypes, t.2.used = 0 → t.2.sections = []

theorem sumArchs_removeUnused (m : MemMap) (h : UnusedEmpty m) (F : Str → Str → Str × Arch → Int) :
    sumArchs (removeUnused m) F = sumArchs m F := by
  unfold sumArchs removeUnused
  simp only [dmap, dfilter, sumBy_map]
  rw [sumBy_filter]
  apply sumBy_congr
  intro t ht
  by_cases hu : t.2.used = 0
  · simp [hu, h t ht hu]
  · simp only [hu, ne_eq, not_false_eq_true, decide_true, if_true]
    rw [sumBy_filter]
    apply sumBy_congr
    intro s _
    cases hk : s.2.kids with
    | nil => rfl
    | cons x y => simp

theorem sumArchs_ignoreFlash (m : MemMap) (F : Str → Str → Str × Arch → Int) :
    sumArchs (ignoreFlashSize m) F = sumArchs m F := by
  unfold sumArchs ignoreFlashSize
  simp only [dmap, sumBy_map]
  apply sumBy_congr
  intro t _
  split <;> rfl

/-- What the later steps use of a map. -/
structure Fine (m m' : MemMap) : Prop where
  wf : m'.WF
  named : NamedMap m'
  sums : ∀ F, sumArchs m' F = sumArchs m F

theorem fine_removeUnused {m : MemMap} (hw : m.WF) (hn : NamedMap m) (hu : UnusedEmpty m) (b : Bool) :
    Fine m (if b then m else removeUnused m) := by
  split
  · exact ⟨hw, hn, fun _ => rfl⟩
  · exact ⟨wf_removeUnused hw, named_removeUnused hn, fun F => sumArchs_removeUnused m hu F⟩

theorem fine_ignoreFlash {m m' : MemMap} (h : Fine m m') (b : Bool) : Fine m (if b then m' else ignoreFlashSize m') := by
  split
  · exact h
  · exact ⟨wf_ignoreFlash h.wf, named_ignoreFlash h.named, fun F => by rw [sumArchs_ignoreFlash]; exact h.sums F⟩

/-! ### `prepare` -/

/-- Totals of the archives and files that are shown. -/
structure PrepTotals (unify diff : Bool) (m ref d : MemMap) : Prop where
  wf : d.WF
  archSize : ∀ w : Str → Bool, sumArchs d (fun _ _ a => if w a.1 then a.2.size else 0) =
    sumArchs m (fun _ _ a => if w (archKey unify a.1) then a.2.size else 0)
  archDiff : ∀ w : Str → Bool, sumArchs d (fun _ _ a => if w a.1 then a.2.sizeDiff else 0) =
    if diff then sumArchs m (fun _ _ a => if w (archKey unify a.1) then a.2.size else 0) -
        sumArchs ref (fun _ _ a => if w (archKey unify a.1) then a.2.size else 0)
    else sumArchs m (fun _ _ a => if w (archKey unify a.1) then a.2.sizeDiff else 0)
  fileSize : ∀ k, sumObjs d (fun _ _ a o => if objKey unify a o = k then o.2.size else 0) =
    sumObjs m (fun _ _ a o => if fileKey unify a.1 o.1 = k then o.2.size else 0)
  fileDiff : ∀ k, sumObjs d (fun _ _ a o => if objKey unify a o = k then o.2.sizeDiff else 0) =
    if diff then sumObjs m (fun _ _ a o => if fileKey unify a.1 o.1 = k then o.2.size else 0) -
        sumObjs ref (fun _ _ a o => if fileKey unify a.1 o.1 = k then o.2.size else 0)
    else sumObjs m (fun _ _ a o => if fileKey unify a.1 o.1 = k then o.2.sizeDiff else 0)

theorem sumArchs_congr {m : MemMap} {F G : Str → Str → Str × Arch → Int}
    (h : ∀ t ∈ m.memoryTypes, ∀ s ∈ t.2.sections, ∀ a ∈ s.2.kids, F t.1 s.1 a = G t.1 s.1 a) : sumArchs m F = sumArchs m G := by
  unfold sumArchs
  exact sumBy_congr fun t ht => sumBy_congr fun s hs => sumBy_congr fun a ha => h t ht s hs a ha

theorem sumObjs_congr {m : MemMap} {F G : Str → Str → Str × Arch → Str × Obj → Int}
    (h : ∀ t ∈ m.memoryTypes, ∀ s ∈ t.2.sections, ∀ a ∈ s.2.kids, ∀ o ∈ a.2.kids, F t.1 s.1 a o = G t.1 s.1 a o) :
    sumObjs m F = sumObjs m G :=
  sumArchs_congr fun t ht s hs a ha => sumBy_congr fun o ho => h t ht s hs a ha o ho

theorem Fine.objs {m m' : MemMap} (h : Fine m m') (F : Str → Str → Str × Arch → Str × Obj → Int) :
    sumObjs m' F = sumObjs m F := h.sums _

/-- After `diff`, before `unify`. -/
structure MidTotals (diff : Bool) (m ref d : MemMap) : Prop where
  wf : d.WF
  named : NamedMap d
  archSize : ∀ w : Str → Bool, sumArchs d (fun _ _ a => if w a.1 then a.2.size else 0) =
    sumArchs m (fun _ _ a => if w a.1 then a.2.size else 0)
  archDiff : ∀ w : Str → Bool, sumArchs d (fun _ _ a => if w a.1 then a.2.sizeDiff else 0) =
    if diff then sumArchs m (fun _ _ a => if w a.1 then a.2.size else 0) - sumArchs ref (fun _ _ a => if w a.1 then a.2.size else 0)
    else sumArchs m (fun _ _ a => if w a.1 then a.2.sizeDiff else 0)
  fileSize : ∀ w : Str → Str → Bool, sumObjs d (fun _ _ a o => if w a.1 o.1 then o.2.size else 0) =
    sumObjs m (fun _ _ a o => if w a.1 o.1 then o.2.size else 0)
  fileDiff : ∀ w : Str → Str → Bool, sumObjs d (fun _ _ a o => if w a.1 o.1 then o.2.sizeDiff else 0) =
    if diff then sumObjs m (fun _ _ a o => if w a.1 o.1 then o.2.size else 0) - sumObjs ref (fun _ _ a o => if w a.1 o.1 then o.2.size else 0)
    else sumObjs m (fun _ _ a o => if w a.1 o.1 then o.2.sizeDiff else 0)

theorem mid_unify {diff : Bool} {m ref d : MemMap} (h : MidTotals diff m ref d) (u : Bool) :
    PrepTotals u diff m ref (if u then unify d else d) := by
  cases u with
  | false =>
    have e : ∀ k, (fun (_ _ : Str) (a : Str × Arch) (o : Str × Obj) => if objKey false a o = k then o.2.size else 0) =
        fun _ _ a o => if (decide (a.1 ++ str ":" ++ o.1 = k)) = true then o.2.size else 0 := by
      intro k; funext _ _ a o; simp [objKey]
    have e' : ∀ k, (fun (_ _ : Str) (a : Str × Arch) (o : Str × Obj) => if objKey false a o = k then o.2.sizeDiff else 0) =
        fun _ _ a o => if (decide (a.1 ++ str ":" ++ o.1 = k)) = true then o.2.sizeDiff else 0 := by
      intro k; funext _ _ a o; simp [objKey]
    refine ⟨h.wf, h.archSize, h.archDiff, ?_, ?_⟩
    · intro k
      simp only [Bool.false_eq_true, if_false]
      rw [e, h.fileSize fun a o => decide (a ++ str ":" ++ o = k)]
      simp [fileKey]
    · intro k
      simp only [Bool.false_eq_true, if_false]
      rw [e', h.fileDiff fun a o => decide (a ++ str ":" ++ o = k)]
      simp [fileKey]
  | true =>
    simp only [if_true]
    have hab : ∀ (f : Arch → Int) (w : Str → Bool), sumArchs d (fun _ _ a => if w a.2.abb then f a.2 else 0) =
        sumArchs d (fun _ _ a => if w (basename a.1) then f a.2 else 0) := by
      intro f w
      apply sumArchs_congr
      intro t ht s hs a ha
      rw [(h.named t ht s hs a ha).1]
    have hob : ∀ (f : Obj → Int) (k : Str), sumObjs d (fun _ _ a o => if (decide (o.2.abb = k)) = true then f o.2 else 0) =
        sumObjs d (fun _ _ a o => if (decide (basename o.1 = k)) = true then f o.2 else 0) := by
      intro f k
      apply sumObjs_congr
      intro t ht s hs a ha o ho
      have := (h.named t ht s hs a ha).2 o ho
      simp only [] at this
      rw [this]
    have huni : ∀ (f : Obj → Int) (k : Str), sumObjs (unify d) (fun _ _ a o => if objKey true a o = k then f o.2 else 0) =
        sumObjs (unify d) (fun _ _ a o => if (decide (o.1 = k)) = true then f o.2 else 0) := by
      intro f k
      apply sumObjs_congr
      intro t ht s hs a ha o ho
      have h1 := ((((C05_unify_keys d t ht).2 s hs).2.2 a ha).2.2 o ho).1
      simp only [objKey, if_true]
      rw [← h1]
      simp
    refine ⟨wf_unify h.wf, ?_, ?_, ?_, ?_⟩
    · intro w
      rw [sumArchs_unify_size, hab Node.size w, h.archSize fun a => w (basename a)]
      rfl
    · intro w
      rw [sumArchs_unify_diff, hab Node.sizeDiff w, h.archDiff fun a => w (basename a)]
      rfl
    · intro k
      rw [huni Node.size, sumObjs_unify_size d fun _ o => decide (o = k), hob Node.size, h.fileSize fun _ o => decide (basename o = k)]
      simp [fileKey]
    · intro k
      rw [huni Node.sizeDiff, sumObjs_unify_diff d fun _ o => decide (o = k), hob Node.sizeDiff, h.fileDiff fun _ o => decide (basename o = k)]
      simp [fileKey]

theorem mid_diff {m m' ref ref' : MemMap} (h : Fine m m') (hr : Fine ref ref') : MidTotals true m ref (outMap m' ref') := by
  refine ⟨wf_outMap h.wf hr.wf, named_outMap h.named hr.named, ?_, ?_, ?_, ?_⟩
  · intro w
    rw [sumArchs_diff_size h.wf hr.wf fun _ _ a => w a]
    exact h.sums _
  · intro w
    rw [sumArchs_diff_diff h.wf hr.wf fun _ _ a => w a, h.sums, hr.sums]
    rfl
  · intro w
    rw [sumObjs_diff_size h.wf hr.wf fun _ _ a o => w a o]
    exact h.objs _
  · intro w
    rw [sumObjs_diff_diff h.wf hr.wf fun _ _ a o => w a o, h.objs, hr.objs]
    rfl

theorem mid_plain {m m' ref : MemMap} (h : Fine m m') : MidTotals false m ref m' :=
  ⟨h.wf, h.named, fun _ => h.sums _, fun _ => h.sums _, fun _ => h.objs _, fun _ => h.objs _⟩

/-- The totals of what is shown are the totals of the maps of the projects, or their difference. -/
theorem prepare_totals {args : Args} {m ref d : MemMap} (hm : m.WF) (hmn : NamedMap m) (hmu : UnusedEmpty m)
    (hr : truthy args.diff = true → ref.WF ∧ NamedMap ref ∧ UnusedEmpty ref) (h : prepare args m ref = .ok d) :
    PrepTotals args.unify (truthy args.diff) m ref d := by
  unfold prepare at h
  have f1 := fine_ignoreFlash (fine_removeUnused hm hmn hmu args.showUnused) args.useFlashSize
  cases hd : truthy args.diff with
  | false =>
    simp only [hd, Bool.false_eq_true, if_false, bind, Except.bind, Except.ok.injEq] at h
    subst h
    exact mid_unify (mid_plain f1) args.unify
  | true =>
    obtain ⟨h1, h2, h3⟩ := hr hd
    have f2 := fine_ignoreFlash f1 args.useFlashSize
    have f3 := fine_removeUnused h1 h2 h3 args.showUnused
    simp only [hd, if_true, bind, Except.bind] at h
    rw [diff_eq f2.wf f3.wf] at h
    simp only [Except.ok.injEq] at h
    subst h
    exact mid_unify (mid_diff f2 f3) args.unify

end EspSize
