import Verif.Model.TreeShow
import Verif.Props.Cells
import Verif.Props.DepsShown
/-! # C121: when a tree is shown -/
namespace EspSize

/-! ### Markup of a text followed by a number -/

/-- No tag goes over the start of the text, nor begins there. -/
structure StandsApart (T : Str) : Prop where
  body : tagBody T = none
  text : tagText T = none
  tag : tagAt T = none

theorem tagBody_step {c : Char} (h1 : c ≠ ']') (h2 : c ≠ '[') (u : Str) : tagBody (c :: u) = (tagBody u).map fun (b, r) => (c :: b, r) := by
  rw [tagBody.eq_def]
  split
  · rename_i heq; cases heq
  · rename_i heq; cases heq; exact absurd rfl h1
  · rename_i heq; cases heq; exact absurd rfl h2
  · rename_i heq; cases heq; rfl

theorem tagBody_apart {T : Str} (h : StandsApart T) (t : Str) : tagBody (t ++ T) = (tagBody t).map fun (b, r) => (b, r ++ T) := by
  induction t with
  | nil => exact h.body
  | cons c t ih =>
    rw [List.cons_append]
    by_cases h1 : c = ']'
    · subst h1; rfl
    · by_cases h2 : c = '['
      · subst h2; rfl
      · rw [tagBody_step h1 h2, tagBody_step h1 h2, ih]
        cases tagBody t <;> rfl

theorem tagText_apart {T : Str} (h : StandsApart T) (t : Str) : tagText (t ++ T) = (tagText t).map fun (b, r) => (b, r ++ T) := by
  cases t with
  | nil => exact h.text
  | cons c t =>
    simp only [List.cons_append, tagText]
    split
    · rw [tagBody_apart h]; cases tagBody t <;> rfl
    · rfl

theorem tagAt_apart {T : Str} (h : StandsApart T) (s : Str) : tagAt (s ++ T) = (tagAt s).map fun (k, b, r) => (k, b, r ++ T) := by
  induction s with
  | nil => exact h.tag
  | cons c t ih =>
    rw [List.cons_append]
    by_cases h1 : c = '\\'
    · subst h1
      show (tagAt (t ++ T)).map _ = ((tagAt t).map _).map _
      rw [ih]; cases tagAt t <;> rfl
    · by_cases h2 : c = '['
      · subst h2
        show (tagText (t ++ T)).map _ = ((tagText t).map _).map _
        rw [tagText_apart h]; cases tagText t <;> rfl
      · rw [tagAt_plain h2 h1, tagAt_plain h2 h1]; rfl

theorem tags_apart (norm : Str → Str) {T : Str} (h : StandsApart T) (o : List Str) (s : Str) : tags norm o (s ++ T) = (tags norm o s).bind fun o' => tags norm o' T := by
  have : ∀ n (o : List Str) (s : Str), s.length ≤ n → tagsN norm (n + T.length) o (s ++ T) = (tagsN norm n o s).bind fun o' => tags norm o' T := by
    intro n
    induction n with
    | zero =>
      intro o s hs
      have : s = [] := List.eq_nil_of_length_eq_zero (by omega)
      subst this
      simp only [Nat.zero_add, List.nil_append, tagsN, Option.bind_some]
      rfl
    | succ n ih =>
      intro o s hs
      cases s with
      | nil =>
        have e : tagsN norm (n + 1) o [] = some o := rfl
        rw [e]
        exact tagsN_fuel norm _ _ o T (by omega) (Nat.le_refl _)
      | cons c t =>
        rw [Nat.add_right_comm, tagsN.eq_def norm (n + T.length + 1) o (c :: t ++ T), tagsN.eq_def norm (n + 1) o (c :: t)]
        simp only
        rw [tagAt_apart h]
        cases ht : tagAt (c :: t) with
        | some p =>
          obtain ⟨k, tag, rest⟩ := p
          have hl := (tagAt_some ht).2
          simp only [Option.map_some]
          split
          · exact ih o rest (by omega)
          · cases stackTag norm o tag with
            | none => rfl
            | some st => exact ih st rest (by omega)
        | none =>
          simp only [Option.map_none]
          simp only [List.length_cons] at hs
          exact ih o t (by omega)
  have h := this s.length o s (Nat.le_refl _)
  unfold tags at h ⊢
  rw [List.length_append]
  exact h

/-- What follows a name does not change whether it can be rendered. -/
theorem render_apart (norm : Str → Str) {T : Str} (h : StandsApart T) (hn : NeverRaises norm T) (s : Str) : renderE norm (s ++ T) ≠ none ↔ renderE norm s ≠ none := by
  unfold renderE
  rw [tags_apart norm h]
  cases tags norm [] s with
  | none => exact ⟨fun h => absurd rfl h, fun h => absurd rfl h⟩
  | some o =>
    obtain ⟨o', ho⟩ := hn o []
    rw [List.append_nil] at ho
    have e : tags norm o' [] = some o' := rfl
    simp only [Option.bind_some, ho, e, Option.map_some, ne_eq, reduceCtorEq, not_false_eq_true]

theorem body_append {a t : Str} (h : ']' ∉ a) (ht : tagBody t = none) : tagBody (a ++ t) = none := by
  induction a with
  | nil => exact ht
  | cons c a ih =>
    have h1 : c ≠ ']' := fun e => h (by rw [e]; simp)
    by_cases h2 : c = '['
    · subst h2; rfl
    · rw [List.cons_append, tagBody_step h1 h2, ih fun hm => h (List.mem_cons_of_mem _ hm)]
      rfl

theorem apart_space {t : Str} (h : tagBody t = none) : StandsApart (' ' :: t) :=
  ⟨body_append (a := [' ']) (by decide) h, rfl, tagAt_plain (by decide) (by decide) t⟩

theorem close_int (z : Int) : ']' ∉ intStr z := fun h => by
  have := intStr_chars z _ h
  revert this; unfold NumChar; decide

theorem close_int6 (z : Int) : ']' ∉ int6 z := fun h => by
  unfold int6 padLeft at h
  rcases List.mem_append.mp h with h | h
  · exact absurd (List.eq_of_mem_replicate h) (by decide)
  · exact close_int z h

theorem body_colorDiff (z d : Int) (b : Bool) {t : Str} (ht : tagBody t = none) : tagBody (colorDiff z d b ++ t) = none := by
  unfold colorDiff
  split
  · exact body_append (close_int z) ht
  · split
    · simp only [List.append_assoc]; exact body_append (close_int z) rfl
    · split
      · simp only [List.append_assoc]; exact body_append (close_int z) rfl
      · simp only [List.append_assoc]
        exact body_append (close_int z) (body_append (by decide) (body_append (close_int6 d) ht))

theorem body_colorSize (z d : Int) (b : Bool) {t : Str} (ht : tagBody t = none) : tagBody (colorSize z d b ++ t) = none := by
  unfold colorSize
  split
  · exact body_append (close_int z) ht
  · split
    · simp only [List.append_assoc]; exact body_append (close_int z) rfl
    · split
      · simp only [List.append_assoc]; exact body_append (close_int z) rfl
      · simp only [List.append_assoc]
        exact body_append (close_int z) (body_append (by decide) (body_append (close_int6 d) ht))

theorem never_append {norm : Str → Str} {a b : Str} (ha : NeverRaises norm a) (hb : NeverRaises norm b) : NeverRaises norm (a ++ b) := fun o t => by
  obtain ⟨o1, h1⟩ := ha o (b ++ t)
  obtain ⟨o2, h2⟩ := hb o1 t
  exact ⟨o2, by rw [List.append_assoc, h1, h2]⟩

theorem never_space (norm : Str → Str) {t : Str} (h : NeverRaises norm t) : NeverRaises norm (' ' :: t) :=
  never_append (a := [' ']) (never_neutral norm (neutral_lit (by decide))) h

theorem treeLabel_iff (norm : Str → Str) (args : Args) (name : Str) (z d : Int) : renderE norm (treeLabel args name z d) ≠ none ↔ renderE norm name ≠ none := by
  have e : treeLabel args name z d = name ++ ' ' :: colorDiff z d (truthy args.diff) := by simp [treeLabel, str]
  rw [e]
  refine render_apart norm (apart_space ?_) (never_space norm (never_colorDiff norm z d _)) name
  have := body_colorDiff z d (truthy args.diff) (t := []) rfl
  rwa [List.append_nil] at this

theorem depLabel_iff (norm : Str → Str) (name : Str) (z : Int) : renderE norm (name ++ str " " ++ intStr z) ≠ none ↔ renderE norm name ≠ none := by
  have e : name ++ str " " ++ intStr z = name ++ ' ' :: intStr z := by simp [str]
  rw [e]
  refine render_apart norm (apart_space ?_) (never_space norm (never_neutral norm (intStr_neutral z))) name
  have := body_append (t := []) (close_int z) rfl
  rwa [List.append_nil] at this

theorem typeLabel_iff (norm : Str → Str) (args : Args) (p : Str × MType) : renderE norm (typeLabel args p) ≠ none ↔ renderE norm p.1 ≠ none := by
  unfold typeLabel
  simp only
  split
  · have e : p.1 ++ str " " ++ colorDiff p.2.used p.2.usedDiff (truthy args.diff) ++ str " / " ++ colorSize p.2.size p.2.sizeDiff (truthy args.diff) =
        p.1 ++ ' ' :: (colorDiff p.2.used p.2.usedDiff (truthy args.diff) ++ (str " / " ++ (colorSize p.2.size p.2.sizeDiff (truthy args.diff) ++ []))) := by simp [str]
    rw [e]
    refine render_apart norm (apart_space (body_colorDiff _ _ _ (body_append (by decide) (body_colorSize _ _ _ rfl)))) (never_space norm ?_) p.1
    rw [List.append_nil]
    exact never_append (never_colorDiff norm _ _ _) (never_append (never_neutral norm (neutral_lit (by decide))) (never_colorSize norm _ _ _))
  · exact treeLabel_iff norm args p.1 _ _

/-! ### Labels -/

theorem labels_kids {P : Str → Prop} (ts : List RTree) : (∀ l ∈ labelsOf ts, P l) ↔ ∀ t ∈ ts, ∀ l ∈ t.labels, P l := by
  induction ts with
  | nil => exact ⟨fun _ t h => (by cases h), fun _ l h => (by simp only [labelsOf] at h; cases h)⟩
  | cons t ts ih => simp only [labelsOf, List.forall_mem_append, List.forall_mem_cons, ih]

theorem labels_node {P : Str → Prop} (l : Str) (ts : List RTree) : (∀ x ∈ (RTree.node l ts).labels, P x) ↔ P l ∧ ∀ t ∈ ts, ∀ x ∈ t.labels, P x := by
  simp only [RTree.labels, List.forall_mem_cons, labels_kids]

theorem treePrint_iff (norm : Str → Str) (t : RTree) : treePrint norm t ≠ none ↔ ∀ l ∈ t.labels, renderE norm l ≠ none := mapM_isSome _ _

theorem map_all {α β : Type} {P : β → Prop} (f : α → β) (l : List α) : (∀ b ∈ l.map f, P b) ↔ ∀ a ∈ l, P (f a) := by
  simp only [List.mem_map, forall_exists_index, and_imp, forall_apply_eq_imp_iff₂]

/-- **C121** exactly when the tree of a memory map is shown: if the names of its memory types, sections, archives, object files and symbols, as shown, can
be rendered, each for itself. -/
theorem C121_map_iff (norm : Str → Str) (args : Args) (m : MemMap) :
    treePrint norm (mapTree args m) ≠ none ↔
      ∀ t ∈ m.memoryTypes, renderE norm t.1 ≠ none ∧ ∀ s ∈ t.2.sections, renderE norm (nameAs args s.2.abb s.1) ≠ none ∧
        ∀ a ∈ s.2.kids, renderE norm (nameAs args a.2.abb a.1) ≠ none ∧ ∀ f ∈ a.2.kids, renderE norm (nameAs args f.2.abb f.1) ≠ none ∧
          ∀ y ∈ f.2.kids, renderE norm y.1 ≠ none := by
  have hroot : renderE norm (str "Memory Types") ≠ none := by
    rw [C98_plain_partial norm _ (by decide)]; exact fun h => (by cases h)
  rw [treePrint_iff]
  simp only [mapTree, nodeTrees, symTrees, labels_node, map_all, typeLabel_iff, treeLabel_iff, hroot, nameAs, List.not_mem_nil, false_imp_iff, implies_true, and_true,
    true_and, ne_eq, not_false_eq_true]

/-- **C121** the same for the tree of dependencies; symbols only with `--dep-symbols`. -/
theorem C121_deps_iff (norm : Str → Str) (args : Args) (deps : Deps) :
    treePrint norm (depsTree args deps) ≠ none ↔
      ∀ a ∈ deps, renderE norm (nameAs args a.2.abb a.1) ≠ none ∧ ∀ d ∈ a.2.archives, renderE norm (nameAs args d.2.abb d.1) ≠ none ∧
        (args.depSymbols = true → ∀ s ∈ d.2.symbols, renderE norm s ≠ none) := by
  have hroot : renderE norm (if args.depReverse then str "Archive reverse dependencies" else str "Archive dependencies") ≠ none := by
    rw [C98_plain_partial norm _ (by cases args.depReverse <;> decide)]; exact fun h => (by cases h)
  rw [treePrint_iff]
  unfold depsTree
  rw [labels_node, map_all]
  simp only [hroot, ne_eq, not_false_eq_true, true_and]
  refine forall_congr' fun a => imp_congr_right fun _ => ?_
  rw [labels_node, map_all]
  refine and_congr (depLabel_iff norm _ _) (forall_congr' fun d => imp_congr_right fun _ => ?_)
  rw [labels_node]
  refine and_congr (depLabel_iff norm _ _) ?_
  cases args.depSymbols with
  | false => simp
  | true => simp only [if_true, map_all, labels_node, List.not_mem_nil, false_imp_iff, implies_true, and_true, true_imp_iff]

/-- **C121** names without tag never prevent a tree from being shown. -/
theorem C121_noTag {norm : Str → Str} {s : Str} (h : ¬ HasTag s) : renderE norm s ≠ none := by
  unfold renderE
  rw [tags_noTag h]
  exact fun h => (by cases h)

/-- **C121, violated:** a symbol whose name looks like the end of a style prevents it. -/
theorem C121_raises : treePrint id (depsTree { depSymbols := true } [(str "a.a", ⟨str "a.a", 1, [(str "b.a", ⟨str "b.a", 2, [str "f[/x]"]⟩)]⟩)]) = none ∧
    treePrint id (depsTree {} [(str "a.a", ⟨str "a.a", 1, [(str "b.a", ⟨str "b.a", 2, [str "f[/x]"]⟩)]⟩)]) =
      some [str "Archive dependencies", str "a.a 1", str "b.a 2"] := by decide +kernel

/-- An unclosed bracket of a name and a change in colours. -/
example : treePrint id (mapTree { diff := some (str "b.map") } { exFrameMap with memoryTypes := [(str "IRAM[x", { size := 9, sizeDiff := 1, used := 5, usedDiff := -2, sections := [] })] }) ≠ none := by
  decide +kernel

end EspSize
