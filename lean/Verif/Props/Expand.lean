import Verif.Model.Expand
import Verif.Spec.Lto
import Verif.Proofs.Dict
import Verif.Proofs.Sort
import Verif.Proofs.PurePath
import Verif.Props.MapErrors
/-! # C26, C57: expansion of input sections without archive -/
namespace EspSize

/-- `l` are adjacent input sections from `a` to `b`. -/
def ISecTiles (a b : Int) : List ISec → Prop
  | [] => a = b
  | i :: l => i.address = a ∧ ISecTiles (a + i.size) b l

theorem isecTiles_append {a b c : Int} {l m : List ISec} (h : ISecTiles a b l) (h' : ISecTiles b c m) :
    ISecTiles a c (l ++ m) := by
  induction l generalizing a with
  | nil => cases h; exact h'
  | cons i l ih => exact ⟨h.1, ih h.2⟩

theorem isecTiles_sum {a b : Int} {l : List ISec} (h : ISecTiles a b l) : sumBy (fun i => i.size) l = b - a := by
  induction l generalizing a with
  | nil => cases h; simp
  | cons i l ih => have := ih h.2; simp only [sumBy]; omega

/-- A part of the expansion of `i`: a symbol with an archive, or a rest that keeps name, object file and archive. -/
def PartOf (syms : List XSym) (i p : ISec) : Prop :=
  (∃ y ∈ syms, p.name = y.name ∧ p.address = y.value ∧ p.size = y.size ∧ p.archive = y.archive ∧ p.objectFile = y.objectFile) ∨
  (p.name = i.name ∧ p.archive = i.archive ∧ p.objectFile = i.objectFile)

theorem setLastFill_append (new m : List ISec) (x : ISec) (f : Int) :
    setLastFill (new ++ (m ++ [x])) f = new ++ (m ++ [{ x with fill := f }]) := by
  unfold setLastFill
  rw [List.reverse_append, List.reverse_append]
  simp

theorem setLastFill_sum (l : List ISec) (f : Int) :
    sumBy (fun i => i.size) (setLastFill l f) = sumBy (fun i => i.size) l := by
  rcases List.eq_nil_or_concat l with rfl | ⟨m, x, rfl⟩
  · rfl
  · have := setLastFill_append [] m x f
    simp only [List.nil_append, List.concat_eq_append] at this ⊢
    rw [this]
    simp [sumBy_append]

/-- The symbols are sorted, their keys are their addresses, sizes are positive. -/
structure XSymsOk (syms : List XSym) : Prop where
  sorted : syms.Pairwise fun a b => a.addr ≤ b.addr
  key : ∀ y ∈ syms, y.addr = y.value
  pos : ∀ y ∈ syms, 0 < y.size

/-- Symbols that start in the input section end in it, and some symbol lies behind it. -/
structure Coverable (syms : List XSym) (i : ISec) : Prop where
  inside : ∀ y ∈ syms, i.address ≤ y.value → y.value < i.stop → y.value + y.size ≤ i.stop
  behind : ∃ y ∈ syms, i.stop ≤ y.value

theorem Coverable.tail {y : XSym} {ys : List XSym} {i i' : ISec} (h : Coverable (y :: ys) i)
    (hstop : i'.stop = i.stop) (hadd : i.address ≤ i'.address) (hy : y.value < i.stop) : Coverable ys i' := by
  constructor
  · intro z hz ha hb
    rw [hstop] at hb ⊢
    exact h.inside z (by simp [hz]) (by omega) hb
  · obtain ⟨z, hz, hz'⟩ := h.behind
    rw [hstop]
    rcases List.mem_cons.mp hz with rfl | hz
    · omega
    · exact ⟨z, hz, hz'⟩

/-- The loop covers the input section completely.  `m` are the parts already made, `start` is the original address. -/
theorem expandInput_tiles (all : List XSym) (i0 : ISec) (hexe : i0.archive = str "(exe)") (start : Int) (new : List ISec)
    (syms : List XSym) (hsub : ∀ y ∈ syms, y ∈ all) (ok : XSymsOk syms) (i : ISec)
    (hi : i.name = i0.name ∧ i.archive = i0.archive ∧ i.objectFile = i0.objectFile ∧ i.fill = i0.fill) (h0 : 0 ≤ i.size)
    (hc : Coverable syms i) (m : List ISec) (hm : ISecTiles start i.address m) (hp : ∀ p ∈ m, PartOf all i0 p)
    (hf : sumBy (fun p => p.fill) m = 0) (hlast : i.size ≠ 0 ∨ ∃ m' y, m = m' ++ [symSection y]) :
    ∃ parts, expandInput syms i (new ++ m) = new ++ parts ∧
      ISecTiles start i.stop parts ∧ (∀ p ∈ parts, PartOf all i0 p) ∧ sumBy (fun p => p.fill) parts = i0.fill := by
  induction syms generalizing i m with
  | nil => obtain ⟨y, hy, _⟩ := hc.behind; cases hy
  | cons y ys ih =>
    have ok' : XSymsOk ys := ⟨(List.pairwise_cons.mp ok.sorted).2, fun z hz => ok.key z (by simp [hz]), fun z hz => ok.pos z (by simp [hz])⟩
    have hsub' : ∀ z ∈ ys, z ∈ all := fun z hz => hsub z (by simp [hz])
    have hk := ok.key y (by simp)
    have hpos := ok.pos y (by simp)
    unfold expandInput
    have partY : PartOf all i0 (symSection y) := .inl ⟨y, hsub y (by simp), rfl, rfl, rfl, rfl, rfl⟩
    by_cases h1 : y.addr < i.address
    · rw [if_pos h1]
      exact ih hsub' ok' i hi h0 (hc.tail rfl (Int.le_refl _) (by unfold ISec.stop; omega)) m hm hp hf hlast
    · rw [if_neg h1]
      by_cases h2 : y.addr = i.address ∧ i.size ≠ 0
      · rw [if_pos h2]
        have hin := hc.inside y (by simp) (by omega) (by unfold ISec.stop; omega)
        unfold ISec.stop at hin
        have hstop : ({ i with address := i.address + y.size, size := i.size - y.size } : ISec).stop = i.stop := by
          unfold ISec.stop; simp only []; omega
        have := ih hsub' ok' { i with address := i.address + y.size, size := i.size - y.size } hi
          (by simp only []; omega) (hc.tail hstop (by simp only []; omega) (by unfold ISec.stop; omega)) (m ++ [symSection y])
          (isecTiles_append hm ⟨by show y.value = _; omega, rfl⟩) (by
            intro p hp'
            rcases List.mem_append.mp hp' with h | h
            · exact hp p h
            · have : p = symSection y := by simpa using h
              rw [this]; exact partY) (by rw [sumBy_append, hf]; rfl) (.inr ⟨m, y, rfl⟩)
        rw [hstop, ← List.append_assoc] at this
        exact this
      · rw [if_neg h2]
        by_cases h3 : y.addr < i.address + i.size
        · rw [if_pos h3]
          have hin := hc.inside y (by simp) (by omega) (by unfold ISec.stop; omega)
          unfold ISec.stop at hin
          simp only []
          have hstop : ({ i with address := i.address + (y.value - i.address) + y.size, size := i.size - (y.value - i.address) - y.size } : ISec).stop = i.stop := by
            unfold ISec.stop; simp only []; omega
          have := ih hsub' ok' { i with address := i.address + (y.value - i.address) + y.size, size := i.size - (y.value - i.address) - y.size } hi
            (by simp only []; omega) (hc.tail hstop (by simp only []; omega) (by unfold ISec.stop; omega))
            (m ++ [{ i with size := y.value - i.address, archive := str "(exe)", fill := 0 }, symSection y])
            (isecTiles_append hm ⟨rfl, by show y.value = _; simp only []; omega, rfl⟩) (by
              intro p hp'
              rcases List.mem_append.mp hp' with h | h
              · exact hp p h
              · rcases List.mem_cons.mp h with h | h
                · rw [h]; exact .inr ⟨hi.1, hexe.symm, hi.2.2.1⟩
                · have : p = symSection y := by simpa using h
                  rw [this]; exact partY) (by rw [sumBy_append, hf]; rfl) (.inr ⟨m ++ [_], y, by rw [List.append_assoc]; rfl⟩)
          rw [hstop, ← List.append_assoc] at this
          exact this
        · rw [if_neg h3]
          by_cases h4 : i.size ≠ 0
          · rw [if_pos (.inl h4)]
            refine ⟨m ++ [i], by rw [List.append_assoc], isecTiles_append hm ⟨rfl, rfl⟩, ?_, by rw [sumBy_append, hf]; simp [sumBy, hi.2.2.2]⟩
            intro p hp'
            rcases List.mem_append.mp hp' with h | h
            · exact hp p h
            · have : p = i := by simpa using h
              subst this
              exact .inr ⟨hi.1, hi.2.1, hi.2.2.1⟩
          · obtain ⟨m', z, rfl⟩ := hlast.resolve_left h4
            rw [if_neg (by simp; omega), setLastFill_append]
            have hsz : i.size = 0 := by omega
            refine ⟨m' ++ [{ symSection z with fill := i.fill }], rfl, ?_, ?_, ?_⟩
            · have e : i.stop = i.address := by unfold ISec.stop; omega
              rw [e]
              have key : ∀ (a : Int) (l : List ISec), ISecTiles a i.address (l ++ [symSection z]) →
                  ISecTiles a i.address (l ++ [{ symSection z with fill := i.fill }]) := by
                intro a l
                induction l generalizing a with
                | nil => exact fun h => h
                | cons q l ihl => exact fun h => ⟨h.1, ihl _ h.2⟩
              exact key start m' hm
            · intro p hp'
              rcases List.mem_append.mp hp' with h | h
              · exact hp p (by simp [h])
              · have : p = { symSection z with fill := i.fill } := by simpa using h
                rw [this]
                exact hp (symSection z) (by simp)
            · rw [sumBy_append] at hf ⊢
              have : sumBy (fun p => p.fill) [symSection z] = 0 := rfl
              simp only [sumBy]
              rw [← hi.2.2.2]
              omega

/-- The parts an input section becomes. -/
def Expanded (syms : List XSym) (i : ISec) (parts : List ISec) : Prop :=
  if i.archive ≠ str "(exe)" then parts = [i]
  else ISecTiles i.address i.stop parts ∧ (∀ p ∈ parts, PartOf syms i p) ∧ sumBy (fun p => p.fill) parts = i.fill

theorem foldl_expand (syms : List XSym) (ok : XSymsOk syms) (l : List ISec) (new : List ISec)
    (h : ∀ i ∈ l, i.archive = str "(exe)" → 0 < i.size ∧ Coverable syms i) :
    ∃ pss, l.foldl (fun new i => if i.archive ≠ str "(exe)" then new ++ [i] else expandInput syms i new) new = new ++ pss.flatten ∧
      All2 (Expanded syms) l pss := by
  induction l generalizing new with
  | nil => exact ⟨[], by simp, trivial⟩
  | cons i l ih =>
    rw [List.foldl_cons]
    by_cases he : i.archive ≠ str "(exe)"
    · rw [if_pos he]
      obtain ⟨pss, h1, h2⟩ := ih (new ++ [i]) fun j hj => h j (by simp [hj])
      refine ⟨[i] :: pss, by rw [h1]; simp, ?_, h2⟩
      unfold Expanded; rw [if_pos he]
    · rw [if_neg he]
      have he' : i.archive = str "(exe)" := Decidable.not_not.mp he
      obtain ⟨hpos, hc⟩ := h i (by simp) he'
      obtain ⟨parts, e1, e2, e3, e4⟩ := expandInput_tiles syms i he' i.address new syms (fun _ h => h) ok i ⟨rfl, rfl, rfl, rfl⟩
        (by omega) hc [] rfl (by simp) rfl (.inl (by omega))
      rw [List.append_nil] at e1
      rw [e1]
      obtain ⟨pss, h1, h2⟩ := ih (new ++ parts) fun j hj => h j (by simp [hj])
      refine ⟨parts :: pss, by rw [h1]; simp, ?_, h2⟩
      unfold Expanded; rw [if_neg he]; exact ⟨e2, e3, e4⟩

/-- C26. Input sections with an archive are unchanged, and each one without is replaced by adjacent parts that cover it exactly,
symbols with an archive or rests, with the same total padding.

Partial: symbols that start in an expanded input section must end in it and some symbol must lie behind it; without the
second condition the rest of the input section is lost, see `C26_tail_lost`. -/
theorem C26_expand_partial (syms : List XSym) (ok : XSymsOk syms) (o : OSec)
    (h : ∀ i ∈ o.inputs, i.archive = str "(exe)" → 0 < i.size ∧ Coverable syms i) :
    ∃ pss, expandSection syms o = { o with inputs := pss.flatten } ∧ All2 (Expanded syms) o.inputs pss := by
  obtain ⟨pss, h1, h2⟩ := foldl_expand syms ok o.inputs [] h
  refine ⟨pss, ?_, h2⟩
  unfold expandSection
  rw [h1, List.nil_append]

theorem expanded_sum {syms : List XSym} {l : List ISec} {pss : List (List ISec)} (h : All2 (Expanded syms) l pss) :
    sumBy (fun i => i.size) pss.flatten = sumBy (fun i => i.size) l ∧
    sumBy (fun i => i.fill) pss.flatten = sumBy (fun i => i.fill) l := by
  induction l generalizing pss with
  | nil => cases pss with
    | nil => exact ⟨rfl, rfl⟩
    | cons _ _ => cases h
  | cons i l ih => cases pss with
    | nil => cases h
    | cons ps pss =>
      obtain ⟨h1, h2⟩ := ih h.2
      have h3 := h.1
      rw [List.flatten_cons, sumBy_append, sumBy_append, h1, h2]
      unfold Expanded at h3
      split at h3
      · rw [h3]; simp [sumBy]
      · rw [isecTiles_sum h3.1, h3.2.2]
        unfold ISec.stop
        simp only [sumBy]
        refine ⟨?_, trivial⟩
        omega

/-- C26, totals. -/
theorem C26_total_partial (syms : List XSym) (ok : XSymsOk syms) (o : OSec)
    (h : ∀ i ∈ o.inputs, i.archive = str "(exe)" → 0 < i.size ∧ Coverable syms i) :
    sumBy (fun i => i.size) (expandSection syms o).inputs = sumBy (fun i => i.size) o.inputs ∧
    sumBy (fun i => i.fill) (expandSection syms o).inputs = sumBy (fun i => i.fill) o.inputs := by
  obtain ⟨pss, h1, h2⟩ := C26_expand_partial syms ok o h
  rw [h1]
  exact expanded_sum h2

def exExe (a s f : Int) : ISec :=
  { name := str ".text", address := a, size := s, fill := f, archive := str "(exe)", objectFile := str "x.ltrans.o" }
def exX (n : String) (a s : Int) : XSym := { addr := a, name := str n, value := a, size := s, archive := str "libm.a", objectFile := str "m.c" }
def exXO (l : List ISec) : OSec := { name := str ".flash.text", address := 100, size := 40, inputs := l }

example : expandSection [exX "f" 104 8, exX "g" 112 8, exX "h" 130 4] (exXO [exExe 100 24 2]) =
    exXO [{ exExe 100 4 0 with }, symSection (exX "f" 104 8), symSection (exX "g" 112 8), exExe 120 4 2] := by decide
example : XSymsOk [exX "f" 104 8, exX "g" 112 8, exX "h" 130 4] := ⟨by decide, by decide, by decide⟩
example : Coverable [exX "f" 104 8, exX "g" 112 8, exX "h" 130 4] (exExe 100 24 2) :=
  ⟨by decide, by decide⟩

/-- Against C26: without a symbol behind the input section its rest is dropped. -/
theorem C26_tail_lost :
    sumBy (fun i => i.size) (expandSection [exX "f" 104 8] (exXO [exExe 100 24 2])).inputs = 12 ∧
    sumBy (fun i => i.size) (exXO [exExe 100 24 2]).inputs = 24 := by decide

/-- Against C26 for the padding: an empty input section overwrites the padding of the one before it. -/
theorem C26_fill_overwritten :
    sumBy (fun i => i.fill) (expandSection [exX "f" 200 8] (exXO [exExe 100 24 2, exExe 124 0 0])).inputs = 0 := by decide

/-! ### C57 -/

theorem mapM_mem {α β : Type} {f : α → Except Err β} {l : List α} {r : List β} (h : l.mapM f = .ok r) :
    (∀ y ∈ r, ∃ x ∈ l, f x = .ok y) ∧ ∀ x ∈ l, ∃ y ∈ r, f x = .ok y := by
  induction l generalizing r with
  | nil =>
    cases h
    exact ⟨fun _ h => by simp at h, fun _ h => by simp at h⟩
  | cons x t ih =>
    rw [List.mapM_cons] at h
    obtain ⟨y, hy, h⟩ := bind_ok h
    obtain ⟨ys, hys, h⟩ := bind_ok h
    cases h
    obtain ⟨i1, i2⟩ := ih hys
    constructor
    · intro z hz
      rcases List.mem_cons.mp hz with rfl | hz
      · exact ⟨x, by simp, hy⟩
      · obtain ⟨w, hw, e⟩ := i1 z hz
        exact ⟨w, by simp [hw], e⟩
    · intro z hz
      rcases List.mem_cons.mp hz with rfl | hz
      · exact ⟨y, by simp, hy⟩
      · obtain ⟨w, hw, e⟩ := i2 z hz
        exact ⟨w, by simp [hw], e⟩

/-- **C57** the text of a path stands for the same path, and two paths have one text exactly if they have the same beginning and
names. -/
theorem C57_posix (p q : Str) (r r' : Nat) (cs ds : List Str) (hp : PathOf p r cs) (hq : PathOf q r' ds) :
    PathOf (asPosix p) r cs ∧ asPosix (asPosix p) = asPosix p ∧ (asPosix p = asPosix q ↔ r = r' ∧ cs = ds) := by
  obtain ⟨rfl, rfl⟩ := pathOf_iff.mp hp
  obtain ⟨rfl, rfl⟩ := pathOf_iff.mp hq
  have h1 := pathOf_iff.mp (asPosix_of p)
  refine ⟨asPosix_of p, ?_, fun h => ?_, fun ⟨h2, h3⟩ => ?_⟩
  · show pathText (slashes (asPosix p)) (pathParts (asPosix p)) = pathText (slashes p) (pathParts p)
    rw [← h1.1, ← h1.2]
  · have h2 := asPosix_of p
    rw [h] at h2
    exact pathOf_unique h2 (asPosix_of q)
  · show pathText (slashes p) (pathParts p) = pathText (slashes q) (pathParts q)
    rw [h2, h3]

/-- **C57** the archive of a component is given relative to the build directory, and only archives that are not in it make the run
fail. -/
theorem C57_relative (file build : Str) : (∀ a, relativeTo file build = .ok a ↔ RelTo build file a) ∧
    (relativeTo file build = .error .valueError ↔ ¬ InDir build file) := by
  refine ⟨fun a => relativeTo_ok, fun h => (relativeTo_error h).2, fun h => ?_⟩
  cases hr : relativeTo file build with
  | ok a =>
    obtain ⟨r, ds, cs, h1, h2, _⟩ := relativeTo_ok.mp hr
    exact absurd ⟨r, ds, cs, h1, h2⟩ h
  | error x => rw [(relativeTo_error hr).1]

/-- **C57** the object file of a symbol is the last name of the path of its compilation unit. -/
theorem C57_objectFile (cu : Str) : EndsIn cu (pathName cu) := pathName_ends cu

theorem inDir_prefix {d p : Str} (h : InDir d p) (hd : ¬ PathOf d 0 []) : asPosix d <+: asPosix p := by
  obtain ⟨h1, cs, h2⟩ := inDir_iff.mp h
  unfold asPosix
  rw [← h1, ← h2]
  refine (pathText_prefix (fun c hc => pathParts_names p c (by rw [← h2]; simp [hc])) (fun e => hd ?_) (pathParts_names d)).1
  exact pathOf_iff.mpr ⟨e.1.symm, e.2.symm⟩

/-- Of two directories that contain a path, the one with the longer text is in the other one. -/
theorem inDir_longest {d d' p : Str} (h : InDir d p) (h' : InDir d' p) (hd : ¬ PathOf d 0 [])
    (hl : (asPosix d').length ≤ (asPosix d).length) : InDir d' d := by
  obtain ⟨h1, h2⟩ := inDir_iff.mp h
  obtain ⟨h3, h4⟩ := inDir_iff.mp h'
  refine inDir_iff.mpr ⟨h3.trans h1.symm, ?_⟩
  rcases List.prefix_or_prefix_of_prefix h2 h4 with h5 | h5
  · obtain ⟨cs, hcs⟩ := h5
    by_cases hc : cs = []
    · rw [← hcs, hc, List.append_nil]
      exact List.prefix_refl _
    · exfalso
      have := (pathText_prefix (r := slashes d) (ds := pathParts d) (cs := cs) (fun c hc => pathParts_names d' c (by rw [← hcs]; simp [hc]))
        (fun e => hd (pathOf_iff.mpr ⟨e.1.symm, e.2.symm⟩)) (pathParts_names d)).2 hc
      rw [hcs, h1, ← h3] at this
      unfold asPosix at hl
      rw [h1, ← h3] at hl
      omega
  · exact h5

/-- **C57** the component found for a compilation unit is the one with the innermost directory that contains it, with the path of its
archive relative to the build directory, and one is found if there is any.

Partial: the texts must tell the directories, see `C57_prefix` and `C57_dot`. -/
theorem C57_component_partial (build : Str) (comps : List Comp) (cs : List (Str × Str)) (h : sortedComponents build comps = .ok cs)
    (cu : Str) (hpre : ∀ c ∈ comps, c.file ≠ [] → TellsDir c.dir cu) :
    (∀ a, (findComponent cs (asPosix cu)).map (·.2) = some a → ∃ c ∈ comps, c.file ≠ [] ∧ RelTo build c.file a ∧ InDir c.dir cu ∧
      ∀ c' ∈ comps, c'.file ≠ [] → InDir c'.dir cu → InDir c'.dir c.dir) ∧
    ((findComponent cs (asPosix cu)).map (·.2) = none → ∀ c ∈ comps, c.file ≠ [] → ¬ InDir c.dir cu) := by
  unfold sortedComponents at h
  obtain ⟨L, hL, h⟩ := bind_ok h
  cases h
  obtain ⟨m1, m2⟩ := mapM_mem hL
  have hL1 : ∀ y ∈ L, ∃ c ∈ comps, c.file ≠ [] ∧ RelTo build c.file y.2 ∧ asPosix c.dir = y.1 := by
    intro y hy
    obtain ⟨c, hc, e⟩ := m1 y hy
    obtain ⟨rel, hr, e⟩ := bind_ok e
    cases e
    obtain ⟨hc1, hc2⟩ := List.mem_filter.mp hc
    exact ⟨c, hc1, by simpa using hc2, relativeTo_ok.mp hr, rfl⟩
  have hL2 : ∀ c ∈ comps, c.file ≠ [] → ∃ y ∈ L, y.1 = asPosix c.dir := by
    intro c hc hf
    obtain ⟨y, hy, e⟩ := m2 c (List.mem_filter.mpr ⟨hc, by simpa using hf⟩)
    obtain ⟨rel, hr, e⟩ := bind_ok e
    cases e
    exact ⟨_, hy, rfl⟩
  have hst := sortedBy_stable (fun p : Str × Str => (p.1.length : Int)) true L
  constructor
  · intro a ha
    obtain ⟨y, hy, rfl⟩ := Option.map_eq_some_iff.mp ha
    obtain ⟨h1, pre, post, h2, h3⟩ := List.find?_eq_some_iff_append.mp hy
    have hm : y ∈ L := hst.perm.mem_iff.mp (by rw [h2]; simp)
    obtain ⟨c, hc, hf, hrel, e⟩ := hL1 y hm
    have hin := (hpre c hc hf).2 (by rw [e]; exact startsWith_iff.mp h1)
    refine ⟨c, hc, hf, hrel, hin, fun c' hc' hf' hin' => ?_⟩
    refine inDir_longest hin hin' (hpre c hc hf).1 ?_
    obtain ⟨y', hy', e'⟩ := hL2 c' hc' hf'
    rw [e, ← e']
    have hm' := hst.perm.mem_iff.mpr hy'
    rw [h2] at hm'
    rcases List.mem_append.mp hm' with hx | hx
    · have := h3 y' hx
      rw [Bool.not_eq_true', ← Bool.not_eq_true] at this
      refine absurd (startsWith_iff.mpr ?_) this
      rw [e']
      exact inDir_prefix hin' (hpre c' hc' hf').1
    · rcases List.mem_cons.mp hx with rfl | hx
      · omega
      · have hs := hst.sorted
        rw [h2] at hs
        have := (List.pairwise_cons.mp (List.pairwise_append.mp hs).2.1).1 y' hx
        simp only [if_true] at this
        omega
  · intro hn c hc hf hin
    rw [Option.map_eq_none_iff] at hn
    obtain ⟨y, hy, e⟩ := hL2 c hc hf
    have := List.find?_eq_none.mp hn y (hst.perm.mem_iff.mpr hy)
    refine this (startsWith_iff.mpr ?_)
    rw [e]
    exact inDir_prefix hin (hpre c hc hf).1

/-- Against C57: `/c/http` is not the directory of `/c/http_client/x.c`, but gets the symbol. -/
theorem C57_prefix :
    sortedComponents (str "/b") [⟨str "/c/http", str "/b/libhttp.a"⟩] = .ok [(str "/c/http", str "libhttp.a")] ∧
    findComponent [(str "/c/http", str "libhttp.a")] (asPosix (str "/c/http_client/x.c")) = some (str "/c/http", str "libhttp.a") ∧
    ¬ InDir (str "/c/http") (str "/c/http_client/x.c") := by
  rw [inDir_iff]
  decide +kernel

/-- Against C57: the directory in which the linker ran contains `src/x.c`, but does not get the symbol. -/
theorem C57_dot :
    sortedComponents (str "/b") [⟨str ".", str "/b/libmain.a"⟩] = .ok [(str ".", str "libmain.a")] ∧
    findComponent [(str ".", str "libmain.a")] (asPosix (str "src/x.c")) = none ∧ InDir (str ".") (str "src/x.c") := by
  rw [inDir_iff]
  decide +kernel

/-- Paths in several spellings: the innermost component gets the symbol. -/
example :
    sortedComponents (str "/b/") [⟨str "/c//m/.", str "/b/./m//libm.a"⟩, ⟨str "/c/m/sub/", str "/b/s/libs.a"⟩, ⟨str "/c/m/sub", []⟩] =
      .ok [(str "/c/m/sub", str "s/libs.a"), (str "/c/m", str "m/libm.a")] ∧
    findComponent [(str "/c/m/sub", str "s/libs.a"), (str "/c/m", str "m/libm.a")] (asPosix (str "/c/m/./sub//x.c")) =
      some (str "/c/m/sub", str "s/libs.a") ∧
    findComponent [(str "/c/m/sub", str "s/libs.a"), (str "/c/m", str "m/libm.a")] (asPosix (str "/c/m/y.c")) =
      some (str "/c/m", str "m/libm.a") ∧
    findComponent [(str "/c/m/sub", str "s/libs.a"), (str "/c/m", str "m/libm.a")] (asPosix (str "/d/y.c")) = none ∧
    pathName (str "/c/m/./sub//x.c") = str "x.c" := by decide +kernel

example : TellsDir (str "/c//m/.") (str "/c/m/./sub//x.c") ∧ ¬ InDir (str "/b") (str "/bb/x") ∧ ¬ InDir (str "/b/") (str "//b") := by
  unfold TellsDir
  rw [pathOf_iff, inDir_iff, inDir_iff, inDir_iff]
  decide +kernel

/-- The symbols used for the expansion are sorted; keys and sizes as in `elf.add_cus_to_symbols()`. -/
theorem expandSymbols_ok {build : Str} {comps : List Comp} {syms : Dict Int CuSym} {xs : List XSym}
    (h : expandSymbols build comps syms = .ok xs) (hk : ∀ p ∈ syms, p.1 = p.2.value) (hs : ∀ p ∈ syms, 0 ≤ p.2.size) :
    XSymsOk xs := by
  unfold expandSymbols at h
  cases hc : sortedComponents build comps with
  | error e => rw [hc] at h; cases h
  | ok cs =>
    rw [hc] at h
    simp only [bind, Except.bind, Except.ok.injEq] at h
    subst h
    have hst := fun l => sortedBy_stable (fun y : XSym => y.addr) false l
    refine ⟨by simpa using (hst _).sorted, ?_, ?_⟩
    all_goals
      intro y hy
      obtain ⟨p, hp, he⟩ := List.mem_filterMap.mp ((hst _).perm.mem_iff.mp hy)
      have h1 := hk p hp
      have h2 := hs p hp
      cases hcu : p.2.cuName with
      | none => rw [hcu] at he; cases he
      | some cu =>
        rw [hcu] at he
        simp only [] at he
        split at he
        · cases he
        · rename_i hn
          obtain ⟨c, _, rfl⟩ := Option.map_eq_some_iff.mp he
          simp only []
          first
          | exact h1
          | (have : p.2.size ≠ 0 := fun h => hn (.inl h)
             omega)

end EspSize
