import Verif.Props.Frame
/-!
# Which names are shown verbatim

Sharpens C64 and C98: a name may contain brackets (`operator[]`, `.text[1]`); it is shown as it is exactly if nothing in it is a
tag or an escaped bracket, and otherwise its text gets shorter.
-/
namespace EspSize

theorem renderN_length (n : Nat) (s : Str) (hn : s.length ≤ n) :
    (renderN n s).length ≤ s.length ∧ (HasTag s ∨ HasEscape s → (renderN n s).length < s.length) := by
  induction n generalizing s with
  | zero =>
    have : s = [] := List.eq_nil_of_length_eq_zero (by omega)
    subst this
    refine ⟨Nat.le_refl _, ?_⟩
    rintro (⟨a, x, b, r, h, _⟩ | ⟨a, r, h⟩) <;> cases a <;> cases h
  | succ n ih =>
    unfold renderN
    cases ht : tagAt s with
    | some p =>
      obtain ⟨k, tag, rest⟩ := p
      have hl := (tagAt_some ht).2
      have hr := (ih rest (by omega)).1
      have : (List.replicate (k / 2) '\\' ++ (if k % 2 = 1 then '[' :: tag ++ [']'] else []) ++ renderN n rest).length < s.length := by
        by_cases hk : k % 2 = 1
        · rw [if_pos hk]
          simp only [List.length_append, List.length_replicate, List.length_cons, List.length_nil]
          omega
        · rw [if_neg hk]
          simp only [List.length_append, List.length_replicate, List.length_nil]
          omega
      exact ⟨Nat.le_of_lt this, fun _ => this⟩
    | none =>
      simp only
      split
      · refine ⟨Nat.le_refl _, ?_⟩
        rintro (⟨a, x, b, r, h, _⟩ | ⟨a, r, h⟩) <;> cases a <;> cases h
      · rename_i t
        simp only [List.length_cons] at hn
        have := (ih t (by omega)).1
        simp only [List.length_cons]
        exact ⟨by omega, fun _ => by omega⟩
      · rename_i c t hne
        simp only [List.length_cons] at hn
        obtain ⟨h1, h2⟩ := ih t (by omega)
        simp only [List.length_cons]
        refine ⟨by omega, fun h => ?_⟩
        have : HasTag t ∨ HasEscape t := by
          rcases h with h | ⟨a, r, h⟩
          · exact .inl (h.tail ht)
          · cases a with
            | nil => rw [List.nil_append] at h; cases h; exact absurd rfl (hne r rfl)
            | cons y a => cases h; exact .inr ⟨a, r, rfl⟩
        have := h2 this
        omega

/-- **C64** exactly the names with neither a tag nor an escaped bracket are shown verbatim. -/
theorem C64_verbatim_iff (s : Str) : render s = s ↔ ¬ HasTag s ∧ ¬ HasEscape s := by
  constructor
  · intro h
    have := (renderN_length s.length s (Nat.le_refl _)).2
    have hl : (renderN s.length s).length = s.length := congrArg List.length h
    exact ⟨fun ht => by have := this (.inl ht); omega, fun ht => by have := this (.inr ht); omega⟩
  · exact fun h => renderN_plain _ s h.1 h.2

/-- **C64** the others are shown shorter. -/
theorem C64_shorter (s : Str) (h : HasTag s ∨ HasEscape s) : (render s).length < s.length :=
  (renderN_length s.length s (Nat.le_refl _)).2 h

theorem tags_noTag {norm : Str → Str} {s : Str} (h : ¬ HasTag s) (o : List Str) : tags norm o s = some o := by
  induction s with
  | nil => rfl
  | cons c s ih =>
    cases ht : tagAt (c :: s) with
    | some p => obtain ⟨k, tag, rest⟩ := p; exact absurd (tagAt_some ht).1 h
    | none =>
      rw [tags_cons ht, ih]
      rintro ⟨a, x, b, r, h', hh⟩
      exact h ⟨c :: a, x, b, r, by rw [h']; rfl, hh⟩

/-- **C98** a text without tag never prevents a report, and it is shown verbatim exactly if it has no escaped bracket either. -/
theorem C98_verbatim_iff (norm : Str → Str) (s : Str) : renderE norm s = some s ↔ ¬ HasTag s ∧ ¬ HasEscape s := by
  rw [← C64_verbatim_iff]
  constructor
  · intro h
    unfold renderE at h
    cases ht : tags norm [] s with
    | none => rw [ht] at h; cases h
    | some o => rw [ht] at h; exact Option.some.inj h
  · intro h
    unfold renderE
    rw [tags_noTag ((C64_verbatim_iff s).mp h).1]
    exact congrArg some h

/-! ### Which reports can be shown -/

theorem tagBody_quote (t : Str) : tagBody (t ++ ['"']) = (tagBody t).map fun (b, r) => (b, r ++ ['"']) := by
  induction t with
  | nil => rfl
  | cons c t ih =>
    rw [List.cons_append]
    by_cases h1 : c = ']'
    · subst h1; rfl
    · by_cases h2 : c = '['
      · subst h2; rfl
      · have e : ∀ u : Str, tagBody (c :: u) = (tagBody u).map fun (b, r) => (c :: b, r) := by
          intro u
          rw [tagBody.eq_def]
          split
          · rename_i heq; cases heq
          · rename_i heq; cases heq; exact absurd rfl h1
          · rename_i heq; cases heq; exact absurd rfl h2
          · rename_i heq; cases heq; rfl
        rw [e, e, ih]
        cases tagBody t <;> rfl

theorem tagText_quote (t : Str) : tagText (t ++ ['"']) = (tagText t).map fun (b, r) => (b, r ++ ['"']) := by
  cases t with
  | nil => decide
  | cons c t =>
    simp only [List.cons_append, tagText]
    split
    · rw [tagBody_quote]; cases tagBody t <;> rfl
    · rfl

theorem tagAt_quote (s : Str) : tagAt (s ++ ['"']) = (tagAt s).map fun (k, b, r) => (k, b, r ++ ['"']) := by
  induction s with
  | nil => rfl
  | cons c t ih =>
    rw [List.cons_append]
    by_cases h1 : c = '\\'
    · subst h1
      show (tagAt (t ++ ['"'])).map _ = ((tagAt t).map _).map _
      rw [ih]; cases tagAt t <;> rfl
    · by_cases h2 : c = '['
      · subst h2
        show (tagText (t ++ ['"'])).map _ = ((tagText t).map _).map _
        rw [tagText_quote]; cases tagText t <;> rfl
      · rw [tagAt_plain h2 h1, tagAt_plain h2 h1]; rfl

theorem tags_quote (norm : Str → Str) (o : List Str) (s : Str) : tags norm o (s ++ ['"']) = tags norm o s := by
  have : ∀ n (o : List Str) (s : Str), s.length ≤ n → tagsN norm (n + 1) o (s ++ ['"']) = tagsN norm n o s := by
    intro n
    induction n with
    | zero =>
      intro o s hs
      have : s = [] := List.eq_nil_of_length_eq_zero (by omega)
      subst this; rfl
    | succ n ih =>
      intro o s hs
      rw [tagsN.eq_def norm (n + 1 + 1) o (s ++ ['"']), tagsN.eq_def norm (n + 1) o s]
      simp only
      rw [tagAt_quote]
      cases ht : tagAt s with
      | some p =>
        obtain ⟨k, tag, rest⟩ := p
        have hl := (tagAt_some ht).2
        simp only [Option.map_some]
        split
        · exact ih o rest (by omega)
        · cases stackTag norm o tag with
          | none => rfl
          | some st => exact ih st rest (by omega)
      | none =>
        simp only [Option.map_none]
        cases s with
        | nil =>
          simp only [List.nil_append]
          rfl
        | cons c t =>
          simp only [List.length_cons] at hs
          exact ih o t (by omega)
  have h := this s.length o s (Nat.le_refl _)
  unfold tags
  rw [List.length_append]
  exact h

theorem projectLine_iff (norm : Str → Str) {b s : Str} (hb : Neutral b) (hs : Neutral s) (p : Str) :
    renderE norm (str "[bold]" ++ b ++ str "[/]" ++ (s ++ (p ++ str "\""))) ≠ none ↔ renderE norm p ≠ none := by
  have e : str "\"" = ['"'] := rfl
  unfold renderE
  rw [tags_bold norm hb, tags_neutral hs, e, tags_quote]
  cases tags norm [] p <;> simp

theorem runCalls_true (norm : Str → Str) (cs : List PrintCall) : (runCalls norm cs).2 = true ↔ ∀ c ∈ cs, c.run norm ≠ none := by
  constructor
  · intro h c hc hn
    rw [runCalls_any_fail norm cs ⟨c, hc, hn⟩] at h
    cases h
  · intro h
    induction cs with
    | nil => rfl
    | cons c t ih =>
      simp only [runCalls]
      cases hc : c.run norm with
      | none => exact absurd hc (h c (by simp))
      | some x => exact ih fun c hc => h c (List.mem_cons_of_mem _ hc)

theorem mapM_isSome {α β : Type} (f : α → Option β) (l : List α) : l.mapM f ≠ none ↔ ∀ a ∈ l, f a ≠ none := by
  constructor
  · exact fun h a ha hn => h (mapM_none f l a ha hn)
  · intro h
    induction l with
    | nil => intro hh; cases hh
    | cons a t ih =>
      rw [List.mapM_cons]
      have ht := ih fun a ha => h a (List.mem_cons_of_mem _ ha)
      have ha := h a (by simp)
      cases hx : f a with
      | none => exact absurd hx ha
      | some x =>
        cases hy : t.mapM f with
        | none => exact absurd hy ht
        | some y => intro hh; cases hh

theorem table_run_iff (norm : Str → Str) (t : Table) :
    (PrintCall.table t).run norm ≠ none ↔ ∀ r ∈ t.headers :: t.rows, ∀ c ∈ r, renderE norm c ≠ none := by
  have : (PrintCall.table t).run norm ≠ none ↔ ((t.headers :: t.rows).mapM fun (r : List Str) => r.mapM (renderE norm)) ≠ none := by
    simp only [PrintCall.run]
    cases (t.headers :: t.rows).mapM fun (r : List Str) => r.mapM (renderE norm) <;> simp
  rw [this, mapM_isSome]
  constructor
  · exact fun h r hr => (mapM_isSome _ r).mp (h r hr)
  · exact fun h r hr => (mapM_isSome _ r).mpr (h r hr)

theorem diffInfo_iff (norm : Str → Str) (m : MemMap) (args : Args) :
    (∀ c ∈ diffInfo m args, c.run norm ≠ none) ↔
      (truthy args.diff = true → renderE norm m.projectPath ≠ none ∧ renderE norm m.projectPathDiff ≠ none) := by
  have hm : ∀ s, (PrintCall.eprint s).run norm ≠ none ↔ renderE norm s ≠ none := by
    intro s
    simp only [PrintCall.run]
    cases renderE norm s <;> simp
  have h1 := projectLine_iff norm (b := str "CURRENT") (s := str "   project file: \"") (neutral_lit (by decide)) (neutral_lit (by decide)) m.projectPath
  have h2 := projectLine_iff norm (b := str "REFERENCE") (s := str " project file: \"") (neutral_lit (by decide)) (neutral_lit (by decide)) m.projectPathDiff
  unfold diffInfo
  cases truthy args.diff with
  | false => simp
  | true =>
    simp only [if_true, List.mem_cons, List.not_mem_nil, or_false, forall_eq_or_imp, forall_eq, hm, current_eq, reference_eq, h1, h2, explain_line]
    simp

/-- **C98** exactly when a report of sizes in the table format is shown completely: if the paths of a comparison, the titles and the
names can be rendered, each for itself. -/
theorem C98_shown_iff (norm : Str → Str) (R : RunIn) (hF : R.F.Plain) (crt : Option Crt) (elf : Option (List ElfSym)) (args : Args) (m : MemMap)
    (t : Table) (hd : args.archiveDependencies = false) (h : selectTable R crt elf args m = .ok t) :
    (runCalls norm (tableCalls m args t)).2 = true ↔
      (truthy args.diff = true → renderE norm m.projectPath ≠ none ∧ renderE norm m.projectPathDiff ≠ none) ∧
      (∀ title ∈ t.headers, renderE norm title ≠ none) ∧ ∀ r ∈ t.rows, ∀ name ∈ r.head?, renderE norm name ≠ none := by
  have hc := (C98_cells norm R hF crt elf args m t hd h).1
  have htab : (PrintCall.table t).run norm ≠ none ↔
      (∀ title ∈ t.headers, renderE norm title ≠ none) ∧ ∀ r ∈ t.rows, ∀ name ∈ r.head?, renderE norm name ≠ none := by
    rw [table_run_iff]
    constructor
    · refine fun h => ⟨h _ (by simp), fun r hr name hn => h r (by simp [hr]) name ?_⟩
      cases r with
      | nil => cases hn
      | cons a r => cases hn; simp
    · rintro ⟨h1, h2⟩ r hr c hcr
      rcases List.mem_cons.mp hr with rfl | hr
      · exact h1 c hcr
      · cases r with
        | nil => cases hcr
        | cons name rest =>
          rcases List.mem_cons.mp hcr with rfl | hcr
          · exact h2 _ hr c (by simp)
          · rw [(hc _ hr).2 c hcr]; simp
  rw [runCalls_true, ← htab, ← diffInfo_iff]
  have himg : (imageInfo m args).run norm ≠ none := by rw [C98_image]; simp
  have hnote : (PrintCall.eprint noteText).run norm ≠ none := by rw [note_run]; simp
  have hlist : (∀ c ∈ diffInfo m args ++ [.table t], c.run norm ≠ none) ↔
      (∀ c ∈ diffInfo m args, c.run norm ≠ none) ∧ (PrintCall.table t).run norm ≠ none := by
    simp only [List.mem_append, or_imp, forall_and, List.mem_singleton, forall_eq]
  unfold tableCalls
  split
  · exact hlist
  · split
    · exact hlist
    · rw [hd]
      simp only [Bool.false_eq_true, if_false]
      split
      · exact hlist
      · simp only [List.mem_append, or_imp, forall_and, List.mem_cons, List.not_mem_nil, false_imp_iff, and_true, forall_eq]
        exact ⟨fun h => ⟨h.1, h.2.1⟩, fun h => ⟨h.1, h.2, himg, hnote⟩⟩

/-- **C98** so names, titles and paths without tag never prevent a report from being shown. -/
theorem C98_noTag_partial (norm : Str → Str) (R : RunIn) (hF : R.F.Plain) (crt : Option Crt) (elf : Option (List ElfSym)) (args : Args) (m : MemMap)
    (t : Table) (hd : args.archiveDependencies = false) (h : selectTable R crt elf args m = .ok t)
    (h1 : ¬ HasTag m.projectPath) (h2 : ¬ HasTag m.projectPathDiff) (hh : ∀ title ∈ t.headers, ¬ HasTag title)
    (hn : ∀ r ∈ t.rows, ∀ name ∈ r.head?, ¬ HasTag name) : (runCalls norm (tableCalls m args t)).2 = true := by
  have key : ∀ s, ¬ HasTag s → renderE norm s ≠ none := by
    intro s hs
    unfold renderE
    rw [tags_noTag hs]
    simp
  exact (C98_shown_iff norm R hF crt elf args m t hd h).mpr
    ⟨fun _ => ⟨key _ h1, key _ h2⟩, fun c hc => key _ (hh c hc), fun r hr n hn' => key _ (hn r hr n hn')⟩

/-- Names with brackets that are shown, and one that is not. -/
example : render (str "std::map::operator[](K[3])") = str "std::map::operator[](K[3])" := by decide +kernel

example : ¬ HasTag (str "a[1]") ∧ ¬ HasEscape (str "a[1]") := (C64_verbatim_iff _).mp (by decide +kernel)

example : HasTag (str "f[abi:v1]") := ⟨str "f", 'a', str "bi:v1", [], by decide, by decide, .inl (by decide)⟩

end EspSize
