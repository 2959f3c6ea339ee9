import Verif.Spec.Cli
import Verif.Proofs.Split
import Verif.Props.Table
import Verif.Props.Run
/-! # C93: the options of the command line mean what they say, in any order -/
namespace EspSize

/-! ### Tables of names -/

theorem flag_name : ∀ f, ∀ s ∈ (flagNames f).1, dget longOpts (str s) = some (.flag f) := by
  intro f; cases f <;> decide +kernel

theorem valued_name : ∀ v, ∀ s ∈ (valuedNames v).1, dget longOpts (str s) = some (.valued v) := by
  intro v; cases v <;> decide +kernel

theorem flag_short : ∀ f, ∀ c ∈ (flagNames f).2, dget shortOpts c = some (.flag f) := by
  intro f; cases f <;> decide +kernel

theorem valued_short : ∀ v, ∀ c ∈ (valuedNames v).2, dget shortOpts c = some (.valued v) := by
  intro v; cases v <;> decide +kernel

/-- The names of an option. -/
def namesOf : Opt → List String × List Char
  | .flag f => flagNames f
  | .valued v => valuedNames v

theorem long_names : ∀ p ∈ longOpts, p.1 ∈ (namesOf p.2).1.map str := by decide +kernel

theorem short_names : ∀ p ∈ shortOpts, p.1 ∈ (namesOf p.2).2 := by decide +kernel

theorem long_iff {n : Str} {o : Opt} : dget longOpts n = some o ↔ LongName (namesOf o) n := by
  constructor
  · intro h
    obtain ⟨s, h1, h2⟩ := List.mem_map.mp (long_names _ (mem_of_dget h))
    exact ⟨s, h1, h2.symm⟩
  · rintro ⟨s, h1, rfl⟩
    cases o with
    | flag f => exact flag_name f s h1
    | valued v => exact valued_name v s h1

theorem short_iff {c : Char} {o : Opt} : dget shortOpts c = some o ↔ c ∈ (namesOf o).2 := by
  constructor
  · intro h
    exact short_names _ (mem_of_dget h)
  · intro h
    cases o with
    | flag f => exact flag_short f c h
    | valued v => exact valued_short v c h

theorem long_shape : ∀ p ∈ longOpts, '=' ∉ p.1 ∧ ∃ c s, p.1 = '-' :: '-' :: c :: s := by
  have h : ∀ p ∈ longOpts, '=' ∉ p.1 ∧ p.1.take 2 = ['-', '-'] ∧ 2 < p.1.length := by decide +kernel
  intro p hp
  obtain ⟨h1, h2, h3⟩ := h p hp
  refine ⟨h1, ?_⟩
  match e : p.1, h2, h3 with
  | c1 :: c2 :: c :: s, h2, _ =>
    obtain ⟨e1, e2⟩ := List.cons.inj h2
    obtain ⟨e2, _⟩ := List.cons.inj e2
    exact ⟨c, s, by rw [e1, e2]⟩

theorem longName_shape {o : Opt} {n : Str} (h : LongName (namesOf o) n) : '=' ∉ n ∧ ∃ c s, n = '-' :: '-' :: c :: s :=
  long_shape _ (mem_of_dget (long_iff.mpr h))

theorem short_shape : ∀ p ∈ shortOpts, p.1 ≠ '-' ∧ p.1 ≠ '=' := by decide

/-! ### One argument -/

theorem cutAt_iff {c : Char} {s a b : Str} : cutAt c s = some (a, b) ↔ s = a ++ c :: b ∧ c ∉ a := by
  constructor
  · intro h
    induction s generalizing a with
    | nil => cases h
    | cons d s ih =>
      rw [cutAt] at h
      split at h
      · rename_i e
        cases h
        exact ⟨by rw [e]; rfl, by simp⟩
      · rename_i e
        cases hc : cutAt c s with
        | none => rw [hc] at h; cases h
        | some q =>
          rw [hc] at h
          cases h
          obtain ⟨e1, e2⟩ := ih hc
          refine ⟨by rw [e1]; rfl, ?_⟩
          simp only [List.mem_cons, not_or]
          exact ⟨fun h => e h.symm, e2⟩
  · rintro ⟨rfl, h⟩
    exact cutAt_some h b

theorem matchLong_none {a : Str} {o : Opt} : matchLong a = some (o, none) ↔ LongName (namesOf o) a := by
  unfold matchLong
  constructor
  · intro h
    split at h
    · rename_i n v _
      cases hd : dget longOpts n <;> rw [hd] at h <;> simp at h
    · cases hd : dget longOpts a with
      | none => rw [hd] at h; cases h
      | some o' => rw [hd] at h; cases h; exact long_iff.mp hd
  · intro h
    rw [cutAt_none (longName_shape h).1]
    show (dget longOpts a).map _ = _
    rw [long_iff.mpr h]
    rfl

theorem matchLong_some {a v : Str} {o : Opt} : matchLong a = some (o, some v) ↔ ∃ n, LongName (namesOf o) n ∧ a = n ++ '=' :: v := by
  unfold matchLong
  constructor
  · intro h
    split at h
    · rename_i n v' hc
      cases hd : dget longOpts n with
      | none => rw [hd] at h; cases h
      | some o' =>
        rw [hd] at h
        cases h
        exact ⟨n, long_iff.mp hd, (cutAt_iff.mp hc).1⟩
    · cases hd : dget longOpts a <;> rw [hd] at h <;> simp at h
  · rintro ⟨n, h, rfl⟩
    rw [cutAt_some (longName_shape h).1]
    show (dget longOpts n).map _ = _
    rw [long_iff.mpr h]
    rfl

/-- The short options of an argument: flags, and an option with a value, which may be in the same argument. -/
def ShortForm (s : Str) (is : List CliItem) : Option (Valued × Option Str) → Prop
  | none => ∃ fs, ShortFlags s fs ∧ is = fs.map .flag
  | some (v, none) => ∃ fs s' c, ShortFlags s' fs ∧ c ∈ (valuedNames v).2 ∧ s = s' ++ [c] ∧ is = fs.map .flag
  | some (v, some x) => x ≠ [] ∧ ∃ fs s' c, ShortFlags s' fs ∧ c ∈ (valuedNames v).2 ∧ s = s' ++ c :: x ∧ is = fs.map .flag

theorem shortRun_form {s : Str} {is : List CliItem} {p : Option (Valued × Option Str)} (h : shortRun s = some (is, p)) : ShortForm s is p := by
  induction s generalizing is with
  | nil => cases h; exact ⟨[], .nil, rfl⟩
  | cons c s ih =>
    rw [shortRun] at h
    split at h
    · cases h
    · rename_i f hf
      have hc : c ∈ (flagNames f).2 := short_iff.mp hf
      cases hs : shortRun s with
      | none => rw [hs] at h; cases h
      | some q =>
        rw [hs] at h
        cases h
        have := ih hs
        match q.2, this with
        | none, ⟨fs, h1, h2⟩ => exact ⟨f :: fs, .cons hc h1, by rw [h2]; rfl⟩
        | some (v, none), ⟨fs, s', d, h1, h2, h3, h4⟩ => exact ⟨f :: fs, c :: s', d, .cons hc h1, h2, by rw [h3]; rfl, by rw [h4]; rfl⟩
        | some (v, some x), ⟨hx, fs, s', d, h1, h2, h3, h4⟩ =>
          exact ⟨hx, f :: fs, c :: s', d, .cons hc h1, h2, by rw [h3]; rfl, by rw [h4]; rfl⟩
    · rename_i v hv
      have hc : c ∈ (valuedNames v).2 := short_iff.mp hv
      cases h
      by_cases hs : s = []
      · rw [if_pos hs]
        exact ⟨[], [], c, .nil, hc, by rw [hs]; rfl, rfl⟩
      · rw [if_neg hs]
        exact ⟨hs, [], [], c, .nil, hc, rfl, rfl⟩

theorem shortRun_flags {s t : Str} {fs : List Flag} (h : ShortFlags s fs) :
    shortRun (s ++ t) = (shortRun t).map fun p => (fs.map CliItem.flag ++ p.1, p.2) := by
  induction h with
  | nil => cases h : shortRun t <;> simp [h]
  | @cons c f s fs hc _ ih =>
    rw [List.cons_append, shortRun, short_iff (o := .flag f) |>.mpr hc]
    show (shortRun (s ++ t)).map _ = _
    rw [ih]
    cases shortRun t <;> rfl

theorem shortRun_of {s : Str} {is : List CliItem} {p : Option (Valued × Option Str)} (h : ShortForm s is p) : shortRun s = some (is, p) := by
  match p, h with
  | none, ⟨fs, h1, h2⟩ =>
    have := shortRun_flags (t := []) h1
    rw [List.append_nil] at this
    rw [this, h2]
    simp [shortRun]
  | some (v, none), ⟨fs, s', c, h1, h2, h3, h4⟩ =>
    rw [h3, shortRun_flags h1, shortRun, short_iff (o := .valued v) |>.mpr h2, h4]
    simp
  | some (v, some x), ⟨hx, fs, s', c, h1, h2, h3, h4⟩ =>
    rw [h3, shortRun_flags h1, shortRun, short_iff (o := .valued v) |>.mpr h2, h4]
    simp [hx]

theorem shortFlags_head {c : Char} {s : Str} {fs : List Flag} (h : ShortFlags (c :: s) fs) : c ≠ '-' := by
  cases h with
  | @cons c f s fs hc _ => exact (short_shape _ (mem_of_dget (short_iff (o := .flag f) |>.mpr hc))).1

theorem valuedShort_head {c : Char} {v : Valued} (h : c ∈ (valuedNames v).2) : c ≠ '-' :=
  (short_shape _ (mem_of_dget (short_iff (o := .valued v) |>.mpr h))).1

theorem shortForm_head {c : Char} {s : Str} {is : List CliItem} {p : Option (Valued × Option Str)} (h : ShortForm (c :: s) is p) : c ≠ '-' := by
  match p, h with
  | none, ⟨fs, h1, _⟩ => exact shortFlags_head h1
  | some (v, none), ⟨fs, s', d, h1, h2, h3, _⟩ =>
    cases s' with
    | nil => cases h3; exact valuedShort_head h2
    | cons e s' => cases h3; exact shortFlags_head h1
  | some (v, some x), ⟨hx, fs, s', d, h1, h2, h3, _⟩ =>
    cases s' with
    | nil => cases h3; exact valuedShort_head h2
    | cons e s' => cases h3; exact shortFlags_head h1

theorem matchLong_hyphens {a : Str} {r : Opt × Option Str} (h : matchLong a = some r) : ∃ c s, a = '-' :: '-' :: c :: s := by
  obtain ⟨o, x⟩ := r
  cases x with
  | none => exact (longName_shape (matchLong_none.mp h)).2
  | some v =>
    obtain ⟨n, h1, rfl⟩ := matchLong_some.mp h
    obtain ⟨c, s, rfl⟩ := (longName_shape h1).2
    exact ⟨c, s ++ '=' :: v, rfl⟩

/-! ### All arguments -/

theorem written_of (n : Nat) : ∀ argv items, argv.length ≤ n → cliItems argv = some items → Written argv items := by
  induction n with
  | zero =>
    intro argv items hn h
    cases argv with
    | nil => cases h; exact .nil
    | cons a argv => simp at hn
  | succ n ih =>
    intro argv items hn h
    cases argv with
    | nil => cases h; exact .nil
    | cons a rest =>
      have hr : rest.length ≤ n := by simpa using hn
      unfold cliItems at h
      split at h
      · rename_i e
        cases h
        rw [e]
        exact .rest
      · split at h
        · rename_i b s hne
          split at h
          · rename_i f hm
            obtain ⟨is, hi, rfl⟩ := Option.map_eq_some_iff.mp h
            exact .flag (matchLong_none.mp hm) (ih _ _ hr hi)
          · cases h
          · rename_i v x hm
            obtain ⟨is, hi, rfl⟩ := Option.map_eq_some_iff.mp h
            obtain ⟨n, h1, h2⟩ := matchLong_some.mp hm
            rw [h2]
            exact .valueEq h1 (ih _ _ hr hi)
          · rename_i v hm
            split at h
            · cases h
            · rename_i x rest
              obtain ⟨is, hi, rfl⟩ := Option.map_eq_some_iff.mp h
              exact .value (matchLong_none.mp hm) (ih _ _ (by simp at hr; omega) hi)
          · split at h
            · cases h
            · split at h
              · cases h
              · rename_i fs hs
                obtain ⟨is, hi, rfl⟩ := Option.map_eq_some_iff.mp h
                obtain ⟨gs, h1, rfl⟩ := shortRun_form hs
                exact .short (by simp) h1 (ih _ _ hr hi)
              · rename_i fs v x hs
                obtain ⟨is, hi, rfl⟩ := Option.map_eq_some_iff.mp h
                obtain ⟨hx, gs, s', c, h1, h2, h3, rfl⟩ := shortRun_form hs
                rw [h3]
                exact .shortValue h1 h2 hx (ih _ _ hr hi)
              · rename_i fs v hs
                split at h
                · cases h
                · rename_i x rest
                  obtain ⟨is, hi, rfl⟩ := Option.map_eq_some_iff.mp h
                  obtain ⟨gs, s', c, h1, h2, h3, rfl⟩ := shortRun_form hs
                  rw [h3]
                  exact .shortNext h1 h2 (ih _ _ (by simp at hr; omega) hi)
        · rename_i hne hform
          obtain ⟨is, hi, rfl⟩ := Option.map_eq_some_iff.mp h
          refine .file ?_ (ih _ _ hr hi)
          intro s e
          cases s with
          | nil => rfl
          | cons b s => exact absurd e (hform b s)

theorem cliItems_long {a : Str} {r : Opt × Option Str} (h : matchLong a = some r) (rest : List Str) :
    cliItems (a :: rest) = match r with
      | (.flag f, none) => (cliItems rest).map (.flag f :: ·)
      | (.flag _, some _) => none
      | (.valued v, some x) => (cliItems rest).map (.value v x :: ·)
      | (.valued v, none) =>
        match rest with
        | [] => none
        | x :: rest => (cliItems rest).map (.value v x :: ·) := by
  obtain ⟨c, s, e⟩ := matchLong_hyphens h
  subst e
  rw [cliItems, if_neg (by simp [str])]
  simp only [h]
  obtain ⟨o, x⟩ := r
  cases o <;> cases x <;> rfl

theorem matchLong_single {b : Char} {s : Str} (h : b ≠ '-') : matchLong ('-' :: b :: s) = none := by
  cases hm : matchLong ('-' :: b :: s) with
  | none => rfl
  | some r =>
    obtain ⟨c, t, e⟩ := matchLong_hyphens hm
    simp only [List.cons.injEq] at e
    exact absurd e.2.1 h

theorem cliItems_short {b : Char} {s : Str} {is : List CliItem} {p : Option (Valued × Option Str)} (h : ShortForm (b :: s) is p)
    (rest : List Str) : cliItems (('-' :: b :: s) :: rest) = match p with
      | none => (cliItems rest).map (is ++ ·)
      | some (v, some x) => (cliItems rest).map (is ++ .value v x :: ·)
      | some (v, none) =>
        match rest with
        | [] => none
        | x :: rest => (cliItems rest).map (is ++ .value v x :: ·) := by
  have hb := shortForm_head h
  rw [cliItems, if_neg (by simp [str, hb])]
  simp only [matchLong_single hb, if_neg hb, shortRun_of h]
  match p with
  | none => rfl
  | some (_, none) => rfl
  | some (_, some _) => rfl

theorem items_of {argv : List Str} {items : List CliItem} (h : Written argv items) : cliItems argv = some items := by
  induction h with
  | nil => rfl
  | @file a argv items ha _ ih =>
    rw [cliItems, if_neg (fun e => by have := ha ['-'] e; simp at this), ih]
    · rfl
    · intro b s e
      have := ha _ e
      simp at this
  | @flag f n argv items hn _ ih =>
    rw [cliItems_long (r := (.flag f, none)) (matchLong_none.mpr hn), ih]; rfl
  | @valueEq v n s argv items hn _ ih =>
    rw [cliItems_long (r := (.valued v, some s)) (matchLong_some.mpr ⟨n, hn, rfl⟩), ih]; rfl
  | @value v n s argv items hn _ ih =>
    rw [cliItems_long (r := (.valued v, none)) (matchLong_none.mpr hn)]
    show (cliItems argv).map _ = _
    rw [ih]; rfl
  | @short s fs argv items hne hs _ ih =>
    cases s with
    | nil => exact absurd rfl hne
    | cons b s =>
      rw [cliItems_short (p := none) ⟨fs, hs, rfl⟩, ih]; rfl
  | @shortValue s fs c v x argv items hs hc hx _ ih =>
    have hf : ShortForm (s ++ c :: x) (fs.map .flag) (some (v, some x)) := ⟨hx, fs, s, c, hs, hc, rfl, rfl⟩
    cases e : s ++ c :: x with
    | nil => simp at e
    | cons b t =>
      rw [e] at hf
      rw [cliItems_short hf, ih]; rfl
  | @shortNext s fs c v x argv items hs hc _ ih =>
    have hf : ShortForm (s ++ [c]) (fs.map .flag) (some (v, none)) := ⟨fs, s, c, hs, hc, rfl, rfl⟩
    cases e : s ++ [c] with
    | nil => simp at e
    | cons b t =>
      rw [e] at hf
      rw [cliItems_short hf]
      show (cliItems argv).map _ = _
      rw [ih]; rfl
  | @rest argv => unfold cliItems; rw [if_pos rfl]

theorem items_iff {argv : List Str} {items : List CliItem} : cliItems argv = some items ↔ Written argv items :=
  ⟨written_of _ argv items (Nat.le_refl _), items_of⟩

/-! ### What is stored -/

theorem fold_flag {g : Cmd → Bool} {f : Flag} (hg : ∀ c i, g (setItem c i) = (g c || decide (i = .flag f))) (items : List CliItem) (c : Cmd) :
    g (items.foldl setItem c) = (g c || decide (.flag f ∈ items)) := by
  induction items generalizing c with
  | nil => simp
  | cons i items ih =>
    rw [List.foldl_cons, ih, hg, Bool.or_assoc]
    congr 1
    by_cases h : i = .flag f
    · simp [h]
    · have : CliItem.flag f ≠ i := fun e => h e.symm
      simp [h, this]

theorem fold_last {α : Type} {g : Cmd → α} {sel : CliItem → Option α} (hg : ∀ c i, g (setItem c i) = (sel i).getD (g c))
    (items : List CliItem) (c : Cmd) : g (items.foldl setItem c) = lastGiven (g c) (items.filterMap sel) := by
  induction items generalizing c with
  | nil => rfl
  | cons i items ih =>
    rw [List.foldl_cons, ih, hg]
    cases h : sel i with
    | none => rw [List.filterMap_cons_none h]; rfl
    | some x => rw [List.filterMap_cons_some h]; rfl

theorem fold_append {α : Type} {g : Cmd → List α} {sel : CliItem → Option α} (hg : ∀ c i, g (setItem c i) = g c ++ (sel i).toList)
    (items : List CliItem) (c : Cmd) : g (items.foldl setItem c) = g c ++ items.filterMap sel := by
  induction items generalizing c with
  | nil => simp
  | cons i items ih =>
    rw [List.foldl_cons, ih, hg]
    cases h : sel i with
    | none => rw [List.filterMap_cons_none h]; simp
    | some x => rw [List.filterMap_cons_some h]; simp

/-- All items one by one. -/
macro "each_item" : tactic => `(tactic| (rintro c (f | ⟨v, s⟩ | s) <;> first | (cases f <;> simp [setItem, setFlag]; done) | (cases v <;> simp [setItem, setValue]; done) | (simp [setItem]; done)))

theorem means_fold (items : List CliItem) : Means items (items.foldl setItem {}) where
  archives := by rw [fold_flag (g := fun c => c.args.archives) (f := .archives) (by each_item)]; simp
  archiveDependencies := by rw [fold_flag (g := fun c => c.args.archiveDependencies) (f := .archiveDependencies) (by each_item)]; simp
  depSymbols := by rw [fold_flag (g := fun c => c.args.depSymbols) (f := .depSymbols) (by each_item)]; simp
  depReverse := by rw [fold_flag (g := fun c => c.args.depReverse) (f := .depReverse) (by each_item)]; simp
  files := by rw [fold_flag (g := fun c => c.args.files) (f := .files) (by each_item)]; simp
  noAbbrev := by rw [fold_flag (g := fun c => c.args.noAbbrev) (f := .noAbbrev) (by each_item)]; simp
  unify := by rw [fold_flag (g := fun c => c.args.unify) (f := .unify) (by each_item)]; simp
  showUnused := by rw [fold_flag (g := fun c => c.args.showUnused) (f := .showUnused) (by each_item)]; simp
  showUnchanged := by rw [fold_flag (g := fun c => c.args.showUnchanged) (f := .showUnchanged) (by each_item)]; simp
  useFlashSize := by rw [fold_flag (g := fun c => c.args.useFlashSize) (f := .useFlashSize) (by each_item)]; simp
  useDwarf := by
    rw [fold_last (g := fun c => c.args.useDwarf)
      (sel := fun | .flag .lto => some (some true) | .flag .noLto => some (some false) | _ => none) (by each_item)]
    unfold ltoChoices
    rw [List.map_filterMap]
    congr 2
    funext i
    rcases i with (f | ⟨v, s⟩ | s) <;> first | (cases f <;> rfl) | rfl
  sortDiff := by rw [fold_flag (g := fun c => c.args.sortDiff) (f := .sortDiff) (by each_item)]; simp
  sortReverse := by
    have := fold_flag (g := fun c => !c.args.sortReverse) (f := .sortReverse) (by each_item) items {}
    have e : (items.foldl setItem {}).args.sortReverse = !decide (CliItem.flag .sortReverse ∈ items) := by simpa using this
    rw [e]
    simp
  debug := by rw [fold_flag (g := fun c => c.debug) (f := .debug) (by each_item)]; simp
  quiet := by rw [fold_flag (g := fun c => c.quiet) (f := .quiet) (by each_item)]; simp
  noColor := by rw [fold_flag (g := fun c => c.noColor) (f := .noColor) (by each_item)]; simp
  forceTerminal := by rw [fold_flag (g := fun c => c.forceTerminal) (f := .forceTerminal) (by each_item)]; simp
  archiveDetails := by
    rw [fold_last (g := fun c => c.args.archiveDetails) (sel := fun | .value .archiveDetails s => some (some s) | _ => none) (by each_item)]
    unfold valuesOf
    rw [List.map_filterMap]
    congr 2
    funext i
    rcases i with (f | ⟨v, s⟩ | s) <;> first | (cases v <;> rfl) | rfl
  diff := by
    rw [fold_last (g := fun c => c.args.diff) (sel := fun | .value .diff s => some (some s) | _ => none) (by each_item)]
    unfold valuesOf
    rw [List.map_filterMap]
    congr 2
    funext i
    rcases i with (f | ⟨v, s⟩ | s) <;> first | (cases v <;> rfl) | rfl
  outputFile := by
    rw [fold_last (g := fun c => c.args.outputFile) (sel := fun | .value .outputFile s => some (some s) | _ => none) (by each_item)]
    unfold valuesOf
    rw [List.map_filterMap]
    congr 2
    funext i
    rcases i with (f | ⟨v, s⟩ | s) <;> first | (cases v <;> rfl) | rfl
  sort := by
    rw [fold_last (g := fun c => c.args.sort) (sel := fun | .value .sort s => some s | _ => none) (by each_item)]
    unfold valuesOf
    congr 2
    funext i
    rcases i with (f | ⟨v, s⟩ | s) <;> first | (cases v <;> rfl) | rfl
  abbrev_ := by
    have := fold_last (g := fun c => c.args.abbrev_) (sel := fun _ => none) (by each_item) items {}
    have e : items.filterMap (fun _ => (none : Option Bool)) = [] := List.filterMap_eq_nil_iff.mpr fun _ _ => rfl
    rw [this, e]
    rfl
  filter := by
    have h : ∀ (items : List CliItem) (c : Cmd), (items.foldl setItem c).args.filter =
        if valuesOf .filter items = [] then c.args.filter else some (c.args.filter.getD [] ++ valuesOf .filter items) := by
      intro items
      induction items with
      | nil => intro c; rfl
      | cons i items ih =>
        intro c
        rw [List.foldl_cons, ih]
        by_cases hi : ∃ s, i = .value .filter s
        · obtain ⟨s, rfl⟩ := hi
          have hv : valuesOf .filter (.value .filter s :: items) = s :: valuesOf .filter items := rfl
          rw [hv, if_neg (c := s :: valuesOf .filter items = []) (by simp)]
          show (if _ then some (c.args.filter.getD [] ++ [s]) else some ((some (c.args.filter.getD [] ++ [s])).getD [] ++ _)) = _
          split
          · rename_i e; rw [e]
          · simp
        · have hv : valuesOf .filter (i :: items) = valuesOf .filter items := by
            rcases i with (f | ⟨v, s⟩ | s)
            · rfl
            · cases v <;> first | rfl | exact absurd ⟨s, rfl⟩ hi
            · rfl
          have hf : (setItem c i).args.filter = c.args.filter := by
            rcases i with (f | ⟨v, s⟩ | s)
            · cases f <;> rfl
            · cases v <;> first | rfl | exact absurd ⟨s, rfl⟩ hi
            · rfl
          rw [hv, hf]
    rw [h]
    rfl

theorem files_fold (items : List CliItem) : (items.foldl setItem {}).files = filesOf items := by
  rw [fold_append (g := fun c => c.files) (sel := fun | .file s => some s | _ => none) (by each_item)]
  rfl

theorem docs_fold (items : List CliItem) : (items.foldl setItem {}).docs = true ↔ .flag .doc ∈ items ∨ .flag .help ∈ items := by
  have h : ∀ (items : List CliItem) (c : Cmd), (items.foldl setItem c).docs = true ↔
      c.docs = true ∨ .flag .doc ∈ items ∨ .flag .help ∈ items := by
    intro items
    induction items with
    | nil => intro c; simp
    | cons i items ih =>
      intro c
      rw [List.foldl_cons, ih]
      rcases i with (f | ⟨v, s⟩ | s)
      · cases f <;> simp [setItem, setFlag]
      · cases v <;> simp [setItem, setValue]
      · simp [setItem]
  rw [h]
  simp

theorem format_fold (items : List CliItem) : (items.foldl setItem {}).args.format = lastGiven (str "table") (valuesOf .format items) := by
  rw [fold_last (g := fun c => c.args.format) (sel := fun | .value .format s => some s | _ => none) (by each_item)]
  unfold valuesOf
  congr 2
  funext i
  rcases i with (f | ⟨v, s⟩ | s) <;> first | (cases v <;> rfl) | rfl

theorem foldChar_iff {c l : Char} (hl : l ∈ formatNames.flatten) : foldChar c = l ↔ SameLetter c l := by
  unfold foldChar SameLetter
  by_cases h : c = Char.ofNat 0x17F
  · subst h
    have hne : ∀ l ∈ formatNames.flatten, (Char.ofNat 0x17F).toLower ≠ l := by decide
    rw [if_pos rfl]
    constructor
    · intro e; exact .inr ⟨rfl, e.symm⟩
    · rintro (e | e)
      · exact absurd e (hne l hl)
      · exact e.2.symm
  · rw [if_neg h]
    constructor
    · exact .inl
    · rintro (e | e)
      · exact e
      · exact absurd e.1 h

theorem spells_iff {s f : Str} : (f ∈ formatNames ∧ s.map foldChar = f) ↔ SpellsFormat s f := by
  unfold SpellsFormat
  constructor
  · rintro ⟨hf, h⟩
    refine ⟨hf, ?_⟩
    have hm : ∀ l ∈ f, l ∈ formatNames.flatten := fun l hl => List.mem_flatten.mpr ⟨f, hf, hl⟩
    clear hf
    induction s generalizing f with
    | nil => cases h; trivial
    | cons c s ih =>
      cases h
      exact ⟨(foldChar_iff (hm _ (by simp))).mp rfl, ih rfl fun l hl => hm l (by simp [hl])⟩
  · rintro ⟨hf, h⟩
    refine ⟨hf, ?_⟩
    have hm : ∀ l ∈ f, l ∈ formatNames.flatten := fun l hl => List.mem_flatten.mpr ⟨f, hf, hl⟩
    clear hf
    induction s generalizing f with
    | nil => cases f with
      | nil => rfl
      | cons => exact h.elim
    | cons c s ih =>
      cases f with
      | nil => exact h.elim
      | cons l f =>
        rw [List.map_cons, (foldChar_iff (hm _ (by simp))).mpr h.1, ih h.2 fun l hl => hm l (by simp [hl])]

theorem chooseFormat_iff {s f : Str} : chooseFormat s = some f ↔ SpellsFormat s f := by
  rw [← spells_iff]
  unfold chooseFormat
  constructor
  · intro h
    have h1 := List.mem_of_find?_eq_some h
    have h2 := List.find?_some h
    exact ⟨h1, by simpa using (of_decide_eq_true h2).symm⟩
  · rintro ⟨h1, rfl⟩
    cases hf : formatChoices.find? (· = s.map foldChar) with
    | none =>
      have := List.find?_eq_none.mp hf _ h1
      simp at this
    | some x =>
      have := List.find?_some hf
      rw [of_decide_eq_true this]

/-! ### C93 -/

/-- **C93** a run is made exactly if the arguments are options and one file, neither help nor documentation is asked for, and the last format
given is one of the formats; the options mean what they say. -/
theorem C93_run (argv : List Str) (input : Str) (c : Cmd) : askedBy argv = .run input c →
    ∃ items, Written argv items ∧ .flag .doc ∉ items ∧ .flag .help ∉ items ∧ filesOf items = [input] ∧
      SpellsFormat (lastGiven (str "table") (valuesOf .format items)) c.args.format ∧ Means items c := by
  intro h
  unfold askedBy at h
  split at h
  · cases h
  · rename_i items hi
    have hm := means_fold items
    have hd := docs_fold items
    have hf := files_fold items
    have ho := format_fold items
    dsimp only at h
    split at h
    · cases h
    · rename_i hdoc
      split at h
      · rename_i f x h1 h2
        cases h
        refine ⟨items, items_iff.mp hi, fun e => hdoc (hd.mpr (.inl e)), fun e => hdoc (hd.mpr (.inr e)), by rw [← hf]; exact h2,
          by rw [← ho]; exact chooseFormat_iff.mp h1, ?_⟩
        exact { hm with }
      · cases h

/-- **C93** conversely such arguments lead to a run. -/
theorem C93_accepted (argv : List Str) (items : List CliItem) (input f : Str) (hw : Written argv items) (h1 : .flag .doc ∉ items)
    (h2 : .flag .help ∉ items) (hf : filesOf items = [input])
    (ho : SpellsFormat (lastGiven (str "table") (valuesOf .format items)) f) :
    ∃ c, askedBy argv = .run input c ∧ c.args.format = f ∧ Means items c := by
  have hm := means_fold items
  refine ⟨{ items.foldl setItem {} with args := { (items.foldl setItem {}).args with format := f } }, ?_, rfl, { hm with }⟩
  unfold askedBy
  rw [items_of hw]
  dsimp only
  rw [if_neg, files_fold, format_fold, hf, chooseFormat_iff.mpr ho]
  rw [docs_fold]
  rintro (h | h)
  · exact h1 h
  · exact h2 h

/-- **C93** help and documentation are shown if asked for by well-formed arguments, and nothing else is done. -/
theorem C93_docs (argv : List Str) : askedBy argv = .docs ↔
    ∃ items, Written argv items ∧ (.flag .doc ∈ items ∨ .flag .help ∈ items) := by
  unfold askedBy
  constructor
  · intro h
    split at h
    · cases h
    · rename_i items hi
      dsimp only at h
      split at h
      · rename_i hd
        exact ⟨items, items_iff.mp hi, (docs_fold items).mp hd⟩
      · split at h <;> cases h
  · rintro ⟨items, hw, hd⟩
    rw [items_of hw]
    dsimp only
    rw [if_pos ((docs_fold items).mpr hd)]

/-- **C93** an argument list is read in one way. -/
theorem C93_unique (argv : List Str) (items items' : List CliItem) (h : Written argv items) (h' : Written argv items') : items = items' := by
  have := items_of h
  rw [items_of h'] at this
  cases this
  rfl

theorem means_unique {items items' : List CliItem} {c c' : Cmd} (h : Means items c) (h' : Means items' c')
    (hf : ∀ f, .flag f ∈ items ↔ .flag f ∈ items') (hl : ltoChoices items = ltoChoices items')
    (hv : ∀ v, valuesOf v items = valuesOf v items') (ha : c.args.format = c'.args.format) :
    c.args = c'.args := by
  have hbool : ∀ {a b : Bool} {P Q : Prop}, (a = true ↔ P) → (b = true ↔ Q) → (P ↔ Q) → a = b := by
    intro a b P Q h1 h2 h3
    rw [Bool.eq_iff_iff, h1, h2, h3]
  have e : ∀ a b : Args, a.format = b.format → a.archives = b.archives → a.archiveDependencies = b.archiveDependencies →
      a.depSymbols = b.depSymbols → a.depReverse = b.depReverse → a.archiveDetails = b.archiveDetails → a.files = b.files →
      a.diff = b.diff → a.noAbbrev = b.noAbbrev → a.abbrev_ = b.abbrev_ → a.unify = b.unify → a.showUnused = b.showUnused →
      a.showUnchanged = b.showUnchanged → a.useFlashSize = b.useFlashSize → a.useDwarf = b.useDwarf → a.outputFile = b.outputFile →
      a.sort = b.sort → a.filter = b.filter → a.sortDiff = b.sortDiff → a.sortReverse = b.sortReverse → a = b := by
    intro a b
    cases a; cases b
    simp only
    intros
    subst_vars
    rfl
  refine e _ _ ha (hbool h.archives h'.archives (hf _)) (hbool h.archiveDependencies h'.archiveDependencies (hf _))
    (hbool h.depSymbols h'.depSymbols (hf _)) (hbool h.depReverse h'.depReverse (hf _)) ?_ (hbool h.files h'.files (hf _)) ?_
    (hbool h.noAbbrev h'.noAbbrev (hf _)) (by rw [h.abbrev_, h'.abbrev_]) (hbool h.unify h'.unify (hf _)) (hbool h.showUnused h'.showUnused (hf _))
    (hbool h.showUnchanged h'.showUnchanged (hf _)) (hbool h.useFlashSize h'.useFlashSize (hf _)) ?_ ?_ ?_ ?_
    (hbool h.sortDiff h'.sortDiff (hf _)) ?_
  · rw [h.archiveDetails, h'.archiveDetails, hv]
  · rw [h.diff, h'.diff, hv]
  · rw [h.useDwarf, h'.useDwarf, hl]
  · rw [h.outputFile, h'.outputFile, hv]
  · rw [h.sort, h'.sort, hv]
  · rw [h.filter, h'.filter, hv]
  · have h1 := h.sortReverse
    have h2 := h'.sortReverse
    have h3 := hf .sortReverse
    cases ha : c.args.sortReverse <;> cases hb : c'.args.sortReverse <;> simp_all

/-- **C93** the order of the options and their spelling do not matter, except for the order of the values of one option. -/
theorem C93_order (argv argv' : List Str) (items items' : List CliItem) (hw : Written argv items) (hw' : Written argv' items')
    (hf : ∀ f, .flag f ∈ items ↔ .flag f ∈ items') (hl : ltoChoices items = ltoChoices items')
    (hv : ∀ v, valuesOf v items = valuesOf v items') (hfile : filesOf items = filesOf items') (input : Str) (c : Cmd)
    (h : askedBy argv = .run input c) : ∃ c', askedBy argv' = .run input c' ∧ c'.args = c.args := by
  obtain ⟨is, h1, h2, h3, h4, h5, h6⟩ := C93_run argv input c h
  cases C93_unique argv _ _ h1 hw
  obtain ⟨c', h7, h8, h9⟩ := C93_accepted argv' items' input c.args.format hw' (fun e => h2 ((hf _).mpr e)) (fun e => h3 ((hf _).mpr e))
    (by rw [← hfile]; exact h4) (by rw [← hv]; exact h5)
  exact ⟨c', h7, (means_unique h6 h9 hf hl hv h8.symm).symm⟩

/-- **C93** the exit status is 2 exactly for arguments that are not accepted, and then no file is touched; 0 is left exactly after showing
help or after a report was made, and written if asked for; in all other cases it is 1.  Only the output file is ever changed. -/
theorem C93_status (R : RunIn) (draw : Report → List UInt8) (wr : Writing) (fs fs' : Files) (argv : List Str) (s : Nat)
    (h : mainRun R draw wr fs argv = some (fs', s)) :
    (s = 2 ↔ askedBy argv = .usage) ∧ (s = 2 → fs' = fs) ∧
    (s = 0 ↔ askedBy argv = .docs ∨ ∃ input c rep, askedBy argv = .run input c ∧ makeReport R input c.args = some (.ok rep) ∧
      (truthy c.args.outputFile = true → wr = .fine)) ∧
    (s = 0 → ∀ input c rep fn, askedBy argv = .run input c → makeReport R input c.args = some (.ok rep) → c.args.outputFile = some fn →
      fn ≠ [] → fs' fn = some (draw rep)) ∧
    s ≤ 2 ∧ (∀ p, fs' p ≠ fs p → ∃ input c, askedBy argv = .run input c ∧ c.args.outputFile = some p) := by
  unfold mainRun at h
  cases ha : askedBy argv with
  | usage =>
    rw [ha] at h
    cases h
    simp
  | docs =>
    rw [ha] at h
    cases h
    simp
  | run input c =>
    rw [ha] at h
    dsimp only at h
    obtain ⟨rep, hr, he⟩ := Option.map_eq_some_iff.mp h
    cases rep with
    | error e =>
      cases he
      have h1 : exitStatus (finishRun (.error e) none draw wr fs c.args).2 = 1 := rfl
      have h2 : (finishRun (.error e) none draw wr fs c.args).1 = fs := rfl
      rw [h1, h2]
      refine ⟨by simp, by simp, ⟨by simp, ?_⟩, by simp, by simp, by simp⟩
      rintro (h3 | ⟨_, _, _, h3, h4, _⟩)
      · cases h3
      · cases h3
        rw [hr] at h4
        cases h4
    | ok rep =>
      have hcase : (finishRun (.ok rep) none draw wr fs c.args) = match c.args.outputFile with
          | some (d :: fn) => ((writeOutputFile fs (d :: fn) (draw rep) wr).1, (writeOutputFile fs (d :: fn) (draw rep) wr).2.mapError handled)
          | _ => (fs, .ok ()) := rfl
      cases hf : c.args.outputFile with
      | none =>
        rw [hcase, hf] at he
        cases he
        refine ⟨by simp [exitStatus], fun _ => rfl, ⟨fun _ => .inr ⟨input, c, rep, rfl, hr, by simp [truthy, hf]⟩, fun _ => rfl⟩, ?_,
          by simp [exitStatus], by simp⟩
        rintro - input' c' rep' fn' h3 - h5 -
        cases h3
        rw [hf] at h5
        cases h5
      | some fn =>
        cases fn with
        | nil =>
          rw [hcase, hf] at he
          cases he
          refine ⟨by simp [exitStatus], fun _ => rfl, ⟨fun _ => .inr ⟨input, c, rep, rfl, hr, by simp [truthy, hf]⟩, fun _ => rfl⟩, ?_,
            by simp [exitStatus], by simp⟩
          rintro - input' c' rep' fn' h3 - h5 h6
          cases h3
          rw [hf] at h5
          cases h5
          exact absurd rfl h6
        | cons d fn =>
          rw [hcase, hf] at he
          dsimp only at he
          cases wr with
          | fine =>
            cases he
            have h1 : exitStatus ((writeOutputFile fs (d :: fn) (draw rep) .fine).2.mapError handled) = 0 := rfl
            have h2 : (writeOutputFile fs (d :: fn) (draw rep) .fine).1 = fs.set (d :: fn) (draw rep) := rfl
            rw [h1, h2]
            refine ⟨by simp, by simp, ⟨fun _ => .inr ⟨input, c, rep, rfl, hr, fun _ => rfl⟩, fun _ => rfl⟩, ?_, by simp, ?_⟩
            · rintro - input' c' rep' fn' h3 h4 h5 -
              cases h3
              rw [hr] at h4
              cases h4
              rw [hf] at h5
              cases h5
              simp [Files.set]
            · intro p hp
              refine ⟨input, c, rfl, ?_⟩
              rw [hf]
              simp only [Files.set] at hp
              split at hp
              · rename_i e; rw [e]
              · exact absurd rfl hp
          | mkdir e =>
            cases he
            have h1 : exitStatus ((writeOutputFile fs (d :: fn) (draw rep) (.mkdir e)).2.mapError handled) = 1 := rfl
            have h2 : (writeOutputFile fs (d :: fn) (draw rep) (.mkdir e)).1 = fs := rfl
            rw [h1, h2]
            refine ⟨by simp, by simp, ⟨by simp, ?_⟩, by simp, by simp, by simp⟩
            rintro (h3 | ⟨_, _, _, h3, _, h4⟩)
            · cases h3
            · cases h3
              cases h4 (by rw [hf]; rfl)
          | opening e =>
            cases he
            have h1 : exitStatus ((writeOutputFile fs (d :: fn) (draw rep) (.opening e)).2.mapError handled) = 1 := rfl
            have h2 : (writeOutputFile fs (d :: fn) (draw rep) (.opening e)).1 = fs := rfl
            rw [h1, h2]
            refine ⟨by simp, by simp, ⟨by simp, ?_⟩, by simp, by simp, by simp⟩
            rintro (h3 | ⟨_, _, _, h3, _, h4⟩)
            · cases h3
            · cases h3
              cases h4 (by rw [hf]; rfl)
          | bytes k e =>
            cases he
            have h1 : exitStatus ((writeOutputFile fs (d :: fn) (draw rep) (.bytes k e)).2.mapError handled) = 1 := rfl
            have h2 : (writeOutputFile fs (d :: fn) (draw rep) (.bytes k e)).1 = fs.set (d :: fn) ((draw rep).take k) := rfl
            rw [h1, h2]
            refine ⟨by simp, by simp, ⟨by simp, ?_⟩, by simp, by simp, ?_⟩
            · rintro (h3 | ⟨_, _, _, h3, _, h4⟩)
              · cases h3
              · cases h3
                cases h4 (by rw [hf]; rfl)
            intro p hp
            refine ⟨input, c, rfl, ?_⟩
            rw [hf]
            simp only [Files.set] at hp
            split at hp
            · rename_i e; rw [e]
            · exact absurd rfl hp

/-- Options written in different ways and orders. -/
example : askedBy [str "--format=CSV", str "-qFx*", str "a.map", str "-s", str "-1", str "--archives", str "--filter", str "y"] =
    .run (str "a.map") { args := { format := str "csv", filter := some [str "x*", str "y"], sort := str "-1", archives := true },
                         files := [str "a.map"], quiet := true } ∧
    askedBy [str "--archives", str "-F", str "x*", str "--sort=-1", str "-q", str "--filter=y", str "--format", str "csv", str "--", str "a.map"] =
    .run (str "a.map") { args := { format := str "csv", filter := some [str "x*", str "y"], sort := str "-1", archives := true },
                         files := [str "a.map"], quiet := true } := by decide +kernel

/-- Usage errors: no file, two files, an unknown option or format, a missing value, a value for a flag. -/
example : ∀ argv ∈ [[], [str "a", str "b"], [str "a", str "--x"], [str "a", str "--format", str "xml"], [str "a", str "-s"],
    [str "a", str "--unify=1"]], askedBy argv = .usage := by decide +kernel

end EspSize
