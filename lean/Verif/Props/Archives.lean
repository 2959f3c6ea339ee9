import Verif.Proofs.Group
import Verif.Model.Sections
import Verif.Spec.Tree
import Verif.Spec.Sort
/-! # C23, C55: archives, object files and symbols of an output section -/
namespace EspSize

/-- Size of the input sections that satisfy `P`. -/
def inSize (P : ISec → Bool) (l : List ISec) : Int := sumBy (fun i => i.size) (l.filter P)

def initObj (k : Str) : Obj := { abb := basename k, size := 0, sizeDiff := 0, kids := [] }
def initArch (k : Str) : Arch := { abb := basename k, size := 0, sizeDiff := 0, kids := [] }
def symStep (d : Dict Str Sym) (y : MSym) : Dict Str Sym :=
  dset d y.name { abb := y.name, size := y.size, sizeDiff := 0 }
def updObj (o : Obj) (i : ISec) : Obj :=
  { o with size := o.size + i.size, kids := i.symbols.foldl symStep o.kids }
def updArch (a : Arch) (i : ISec) : Arch :=
  { a with size := a.size + i.size, kids := gstep ISec.objectFile initObj updObj a.kids i }

theorem addISec_eq : addISec = gstep ISec.archive initArch updArch := rfl

theorem foldl_updArch (g : List ISec) (a : Arch) :
    g.foldl updArch a = { a with size := a.size + sumBy (fun i => i.size) g,
                                 kids := g.foldl (gstep ISec.objectFile initObj updObj) a.kids } := by
  induction g generalizing a with
  | nil => simp
  | cons i g ih => rw [List.foldl_cons, ih]; simp [updArch]; omega

theorem foldl_updObj (g : List ISec) (o : Obj) :
    g.foldl updObj o = { o with size := o.size + sumBy (fun i => i.size) g,
                                kids := (g.flatMap (·.symbols)).foldl symStep o.kids } := by
  induction g generalizing o with
  | nil => simp
  | cons i g ih => rw [List.foldl_cons, ih]; simp [updObj, List.foldl_append]; omega

/-- The archive `a` of a section. -/
theorem dget_archives (l : List ISec) (a : Str) :
    dget (l.foldl addISec []) a =
      if l.filter (fun i => i.archive = a) = [] then none
      else some { abb := basename a, size := sumBy (fun i => i.size) (l.filter fun i => i.archive = a), sizeDiff := 0,
                  kids := (l.filter fun i => i.archive = a).foldl (gstep ISec.objectFile initObj updObj) [] } := by
  rw [addISec_eq, dget_gstep]
  split
  · rfl
  · rw [foldl_updArch]; simp [initArch]

theorem dget_objects (l : List ISec) (o : Str) :
    dget (l.foldl (gstep ISec.objectFile initObj updObj) []) o =
      if l.filter (fun i => i.objectFile = o) = [] then none
      else some { abb := basename o, size := sumBy (fun i => i.size) (l.filter fun i => i.objectFile = o), sizeDiff := 0,
                  kids := ((l.filter fun i => i.objectFile = o).flatMap (·.symbols)).foldl symStep [] } := by
  rw [dget_gstep]
  split
  · rfl
  · rw [foldl_updObj]; simp [initObj]

theorem filter_filter_arch (l : List ISec) (a o : Str) :
    (l.filter fun i => i.archive = a).filter (fun i => i.objectFile = o) =
      l.filter fun i => i.archive = a ∧ i.objectFile = o := by
  rw [List.filter_filter]
  congr 1; funext i; simp [Bool.and_comm]

theorem filter_ne_nil {α : Type} {l : List α} {P : α → Bool} : l.filter P ≠ [] ↔ ∃ x ∈ l, P x = true := by
  simp [List.filter_eq_nil_iff]

theorem keysNodup_syms (l : List MSym) (d : Dict Str Sym) (h : KeysNodup d) : KeysNodup (l.foldl symStep d) := by
  induction l generalizing d with
  | nil => exact h
  | cons y t ih => exact ih _ (h.dset _ _)

/-- All dictionaries of the archive tree of a section have distinct keys. -/
theorem wf_archives (l : List ISec) :
    KeysNodup (l.foldl addISec []) ∧ ∀ p ∈ l.foldl addISec [], Arch.WF p.2 := by
  have h1 : KeysNodup (l.foldl addISec []) := by
    rw [addISec_eq]; exact keysNodup_gstep _ _ _ _ _ KeysNodup.nil
  refine ⟨h1, fun p hp => ?_⟩
  have := (dget_iff_mem h1).mpr hp
  rw [dget_archives] at this
  split at this
  · cases this
  · have hk : KeysNodup ((l.filter fun i => i.archive = p.1).foldl (gstep ISec.objectFile initObj updObj) []) :=
      keysNodup_gstep _ _ _ _ _ KeysNodup.nil
    have e := Option.some.inj this
    rw [← e]
    refine ⟨hk, fun q hq => ?_⟩
    have := (dget_iff_mem hk).mpr hq
    rw [dget_objects] at this
    split at this
    · cases this
    · have e := Option.some.inj this
      rw [← e]
      exact ⟨keysNodup_syms _ _ KeysNodup.nil, fun _ _ => trivial⟩

/-- What `_add_archives_to_sections` makes of an output section. -/
structure ArchivesOk (s : OSec) (m : MSec) : Prop where
  same : m.name = s.name ∧ m.abb = abbrevSec s.name ∧ m.address = s.address ∧ m.size = s.size
  /-- the archives are those of the input sections -/
  keys : ∀ a, (dget m.archives a).isSome = true ↔ ∃ i ∈ s.inputs, i.archive = a
  wf : KeysNodup m.archives ∧ ∀ p ∈ m.archives, Arch.WF p.2
  arch : ∀ a ar, dget m.archives a = some ar →
    ar.abb = basename a ∧ ar.sizeDiff = 0 ∧
    ar.size = inSize (fun i => i.archive = a) s.inputs ∧
    ar.size = sumBy (fun p => p.2.size) ar.kids ∧
    -- its object files are those of the input sections
    (∀ o, (dget ar.kids o).isSome = true ↔ ∃ i ∈ s.inputs, i.archive = a ∧ i.objectFile = o) ∧
    ∀ o ob, dget ar.kids o = some ob → ob.abb = basename o ∧ ob.sizeDiff = 0 ∧
      ob.size = inSize (fun i => i.archive = a ∧ i.objectFile = o) s.inputs
  total : sumBy (fun p => p.2.size) m.archives = sumBy (fun i => i.size) s.inputs

theorem archivesOk (s : OSec) (m : MSec) (hm : addArchives [s] = [m]) : ArchivesOk s m := by
  simp only [addArchives, List.map_cons, List.map_nil, List.cons.injEq, and_true] at hm
  subst hm
  refine ⟨⟨rfl, rfl, rfl, rfl⟩, ?_, wf_archives s.inputs, ?_, ?_⟩
  · intro a
    rw [dget_archives]
    split
    · rename_i h
      simp only [Option.isSome_none, Bool.false_eq_true, false_iff]
      rintro ⟨i, hi, he⟩
      exact filter_ne_nil.mpr ⟨i, hi, by simpa using he⟩ h
    · rename_i h
      simpa using filter_ne_nil.mp h
  · intro a ar h
    simp only [dget_archives] at h
    split at h
    · cases h
    · have e := (Option.some.inj h).symm
      subst e
      refine ⟨rfl, rfl, rfl, ?_, ?_, ?_⟩
      · have := sumBy_gstep ISec.objectFile initObj updObj (fun o => o.size) (fun i => i.size) (fun _ => rfl)
          (fun _ _ => rfl) (s.inputs.filter fun i => i.archive = a) []
        simp only [sumBy_nil, Int.zero_add] at this
        exact this.symm
      · intro o
        simp only [dget_objects, filter_filter_arch]
        split
        · rename_i h
          simp only [Option.isSome_none, Bool.false_eq_true, false_iff]
          rintro ⟨i, hi, he⟩
          exact filter_ne_nil.mpr ⟨i, hi, by simpa using he⟩ h
        · rename_i h
          simpa using filter_ne_nil.mp h
      · intro o ob hob
        simp only [dget_objects, filter_filter_arch] at hob
        split at hob
        · cases hob
        · have e := (Option.some.inj hob).symm
          subst e
          exact ⟨rfl, rfl, rfl⟩
  · have := sumBy_gstep ISec.archive initArch updArch (fun a => a.size) (fun i => i.size) (fun _ => rfl)
      (fun _ _ => rfl) s.inputs []
    simp only [sumBy_nil, Int.zero_add] at this
    exact this

/-- **C23** in every section the sizes of archives, object files and input sections agree. -/
theorem C23_archives (sections : List OSec) : All2 ArchivesOk sections (addArchives sections) := by
  induction sections with
  | nil => trivial
  | cons s t ih => exact ⟨archivesOk s _ rfl, ih⟩

/-! ### C55 symbols -/

theorem symStep_eq : symStep = gstep MSym.name (fun k => ⟨k, 0, 0, false⟩)
    (fun _ y => ⟨y.name, y.size, 0, false⟩) := rfl

theorem foldl_symStep_nodup (l : List MSym) (d : Dict Str Sym) (h : (dkeys d ++ l.map MSym.name).Nodup) :
    l.foldl symStep d = d ++ l.map fun y => (y.name, { abb := y.name, size := y.size, sizeDiff := 0 }) := by
  induction l generalizing d with
  | nil => simp
  | cons x t ih =>
    rw [List.foldl_cons]
    have hx : x.name ∉ dkeys d := by
      intro hm
      rw [List.map_cons, List.nodup_append] at h
      exact h.2.2 _ hm _ (by simp) rfl
    have e : symStep d x = d ++ [(x.name, { abb := x.name, size := x.size, sizeDiff := 0 })] := dset_of_not_mem hx
    rw [e, ih]
    · simp
    · simpa using h

/-- The symbols assigned to the input sections of object file `o` of archive `a`. -/
def symsOf (s : OSec) (a o : Str) : List MSym :=
  (s.inputs.filter fun i => i.archive = a ∧ i.objectFile = o).flatMap (·.symbols)

/-- The symbols of the object files of an output section. -/
def SymbolsOk (s : OSec) (m : MSec) : Prop :=
  ∀ a o ar ob, dget m.archives a = some ar → dget ar.kids o = some ob →
    (∀ y, (dget ob.kids y).isSome = true ↔ ∃ z ∈ symsOf s a o, z.name = y) ∧
    -- the size is that of the last symbol of the name
    (∀ y sy, dget ob.kids y = some sy → sy.abb = y ∧ sy.sizeDiff = 0 ∧
      ∃ pre z post, symsOf s a o = pre ++ z :: post ∧ z.name = y ∧ sy.size = z.size ∧ ∀ w ∈ post, w.name ≠ y) ∧
    (((symsOf s a o).map MSym.name).Nodup →
      sumBy (fun p => p.2.size) ob.kids = sumBy (fun y => y.size) (symsOf s a o))

theorem symbolsOk (s : OSec) (m : MSec) (hm : addArchives [s] = [m]) : SymbolsOk s m := by
  intro a o ar ob ha ho
  simp only [addArchives, List.map_cons, List.map_nil, List.cons.injEq, and_true] at hm
  subst hm
  simp only [dget_archives] at ha
  split at ha
  · cases ha
  have e := (Option.some.inj ha).symm
  subst e
  simp only [dget_objects, filter_filter_arch] at ho
  split at ho
  · cases ho
  have e := (Option.some.inj ho).symm
  subst e
  simp only []
  rw [show List.flatMap (fun x => x.symbols) (s.inputs.filter fun i => decide (i.archive = a ∧ i.objectFile = o)) =
    symsOf s a o from rfl]
  generalize symsOf s a o = l
  refine ⟨?_, ?_, ?_⟩
  · intro y
    rw [symStep_eq, dget_gstep]
    split
    · rename_i h
      simp only [Option.isSome_none, Bool.false_eq_true, false_iff]
      rintro ⟨i, hi, he⟩
      exact filter_ne_nil.mpr ⟨i, hi, by simpa using he⟩ h
    · rename_i h
      simpa using filter_ne_nil.mp h
  · intro y sy
    induction l using snocInd with
    | nil => intro h; cases h
    | snoc l x ih =>
      rw [List.foldl_append, List.foldl_cons, List.foldl_nil, symStep, dget_dset]
      split
      · rename_i hx
        intro h
        have e := (Option.some.inj h).symm
        subst e
        exact ⟨hx, rfl, l, x, [], rfl, hx, rfl, by simp⟩
      · rename_i hx
        intro h
        obtain ⟨h1, h2, pre, z, post, h3, h4, h5, h6⟩ := ih h
        refine ⟨h1, h2, pre, z, post ++ [x], by rw [h3]; simp, h4, h5, ?_⟩
        intro w hw
        rcases List.mem_append.mp hw with hw | hw
        · exact h6 w hw
        · have : w = x := by simpa using hw
          subst this; exact hx
  · intro hn
    rw [foldl_symStep_nodup _ _ (by simpa using hn)]
    simp [sumBy_map]

/-- **C55** (all but the sum for colliding names) the symbols of an object file are those assigned to its
input sections, by name; when their names differ, nothing is lost. -/
theorem C55_symbols_partial (sections : List OSec) : All2 SymbolsOk sections (addArchives sections) := by
  induction sections with
  | nil => trivial
  | cons s t ih => exact ⟨symbolsOk s _ rfl, ih⟩

/-- Two symbols of one name in an object file: the report shows 8 of 12 bytes. -/
def exDupSym : OSec :=
  { name := str ".data", address := 0, size := 12, inputs := [
      { name := str ".data.x", address := 0, size := 4, fill := 0, archive := str "liba.a", objectFile := str "a.o",
        symbols := [⟨str "x", 0, 4⟩] },
      { name := str ".data.x", address := 4, size := 8, fill := 0, archive := str "liba.a", objectFile := str "a.o",
        symbols := [⟨str "x", 4, 8⟩] }] }

/-- **C55** (violated) -/
theorem C55_same_name_lost :
    (addArchives [exDupSym]).map (fun m => (dget m.archives (str "liba.a")).bind fun a =>
      (dget a.kids (str "a.o")).map fun o => (o.size, sumBy (fun p => p.2.size) o.kids)) = [some (12, 8)] := by
  decide

example : (addArchives [exDupSym]).map (fun m => (m.name, dkeys m.archives)) = [(str ".data", [str "liba.a"])] := by decide

end EspSize
