import Verif.Spec.Get
/-! # Paths and leftmost matches -/
namespace EspSize

/-- A list is cut uniquely at the last `x`. -/
theorem last_cut {α : Type} {x : α} {a a' b b' : List α} (h : a ++ x :: b = a' ++ x :: b') (hb : x ∉ b) (hb' : x ∉ b') :
    a = a' ∧ b = b' := by
  rcases List.append_eq_append_iff.mp h with ⟨c, hc, he⟩ | ⟨c, hc, he⟩
  · cases c with
    | nil => simp at hc he; exact ⟨hc.symm, he⟩
    | cons y c =>
      exfalso
      simp only [List.cons_append, List.cons.injEq] at he
      apply hb; rw [he.2]; simp
  · cases c with
    | nil => simp at hc he; exact ⟨hc, he.symm⟩
    | cons y c =>
      exfalso
      simp only [List.cons_append, List.cons.injEq] at he
      apply hb'; rw [he.2]; simp

/-- Splitting a list at its last `x`. -/
theorem rev_cut {α : Type} [DecidableEq α] (x : α) (p : List α) :
    (x ∉ p ∧ p.reverse.takeWhile (· ≠ x) = p.reverse ∧ p.reverse.dropWhile (· ≠ x) = []) ∨
    ∃ a b, p = a ++ x :: b ∧ x ∉ b ∧ (p.reverse.takeWhile (· ≠ x)).reverse = b ∧
      p.reverse.dropWhile (· ≠ x) = x :: a.reverse := by
  generalize hr : p.reverse = r
  have hp : p = r.reverse := by rw [← hr]; simp
  subst hp
  clear hr
  induction r with
  | nil => left; simp
  | cons c r ih =>
    by_cases hc : c = x
    · right
      subst hc
      refine ⟨r.reverse, [], by simp, by simp, by simp, by simp⟩
    · have hd : decide (c ≠ x) = true := by simp [hc]
      rcases ih with ⟨h1, h2, h3⟩ | ⟨a, b, h1, h2, h3, h4⟩
      · left
        refine ⟨?_, ?_, ?_⟩
        · simp only [List.reverse_cons, List.mem_append, List.mem_singleton]
          rintro (h | h)
          · exact h1 h
          · exact hc h.symm
        · rw [List.takeWhile_cons, if_pos hd, h2]
        · rw [List.dropWhile_cons, if_pos hd, h3]
      · right
        refine ⟨a, b ++ [c], ?_, ?_, ?_, ?_⟩
        · rw [List.reverse_cons, h1]; simp
        · simp only [List.mem_append, List.mem_singleton]
          rintro (h | h)
          · exact h2 h
          · exact hc h.symm
        · rw [List.takeWhile_cons, if_pos hd, List.reverse_cons, h3]
        · rw [List.dropWhile_cons, if_pos hd, h4]

theorem basename_lastPart (p : Str) : LastPart p (basename p) := by
  unfold basename
  rcases rev_cut '/' p with ⟨h1, h2, _⟩ | ⟨a, b, h1, h2, h3, _⟩
  · rw [h2, List.reverse_reverse]
    exact ⟨h1, .inl rfl⟩
  · rw [h3]
    exact ⟨h2, .inr ⟨a, h1⟩⟩

theorem lastPart_unique {p b b' : Str} (h : LastPart p b) (h' : LastPart p b') : b = b' := by
  obtain ⟨h1, rfl | ⟨d, h2⟩⟩ := h <;> obtain ⟨h1', h2' | ⟨d', h2'⟩⟩ := h'
  · exact h2'
  · exfalso; apply h1; rw [h2']; simp
  · exfalso; apply h1'; rw [← h2', h2]; simp
  · exact (last_cut (h2.symm.trans h2') h1 h1').2

theorem dots_of {s' s ext ext' : Str} (h : s ++ '.' :: ext = s' ++ '.' :: ext') (h1 : '.' ∉ ext) (h2 : '.' ∉ ext') : s = s' :=
  (last_cut h h1 h2).1

theorem splitext_stemOf (p : Str) : StemOf p (splitextRoot p) := by
  unfold splitextRoot
  rcases rev_cut '.' p with ⟨h1, h2, h3⟩ | ⟨a, b, h1, h2, h3, h4⟩
  · rw [h3]
    right
    refine ⟨rfl, fun s' ext he _ => ?_⟩
    exfalso; apply h1; rw [he]; simp
  · rw [h4]
    simp only [List.drop_succ_cons, List.drop_zero, List.reverse_reverse]
    split
    · rename_i ha
      obtain ⟨c, hc, hd⟩ := List.any_eq_true.mp ha
      left
      exact ⟨b, h1, h2, c, hc, by simpa using hd⟩
    · rename_i ha
      right
      refine ⟨rfl, fun s' ext he hx c hc => ?_⟩
      rw [← dots_of (h1.symm.trans he) h2 hx] at hc
      apply Decidable.byContradiction
      intro hne
      exact ha (List.any_eq_true.mpr ⟨c, hc, by simpa using hne⟩)

theorem stemOf_unique {p s s' : Str} (h : StemOf p s) (h' : StemOf p s') : s = s' := by
  rcases h with ⟨ext, h1, h2, c, hc, hn⟩ | ⟨rfl, h1⟩ <;> rcases h' with ⟨ext', h1', h2', c', hc', hn'⟩ | ⟨rfl, h1'⟩
  · exact dots_of (h1.symm.trans h1') h2 h2'
  · exact absurd (h1' s ext h1 h2 c hc) hn
  · exact absurd (h1 s' ext' h1' h2' c' hc') hn'
  · rfl

theorem belongs_iff {base : Str} {d : ProjDesc} :
    Belongs base d ↔ splitextRoot base = splitextRoot (basename (d.appElf.getD [])) := by
  constructor
  · rintro ⟨app, stem, h1, h2, h3⟩
    rw [lastPart_unique (basename_lastPart _) h1]
    exact (stemOf_unique (splitext_stemOf base) h2).trans (stemOf_unique h3 (splitext_stemOf app))
  · intro h
    exact ⟨_, _, basename_lastPart _, splitext_stemOf base, h ▸ splitext_stemOf _⟩

theorem basename_of {dir base : Str} (hb : '/' ∉ base) : basename (dir ++ '/' :: base) = base :=
  lastPart_unique (basename_lastPart _) ⟨hb, .inr ⟨dir, rfl⟩⟩

theorem dirname_of {dir base : Str} (hd : DirPath dir) (hb : '/' ∉ base) : dirname (dir ++ '/' :: base) = dir := by
  unfold dirname
  rcases rev_cut '/' (dir ++ '/' :: base) with ⟨h1, _⟩ | ⟨a, b, h1, h2, _, h4⟩
  · exact absurd (by simp) h1
  · obtain ⟨rfl, rfl⟩ := last_cut h1 hb h2
    rw [h4]
    obtain ⟨hne, hl⟩ := hd
    obtain ⟨l, c, rfl⟩ : ∃ l c, dir = l ++ [c] := ⟨dir.dropLast, dir.getLast hne, (List.dropLast_concat_getLast hne).symm⟩
    have hc : c ≠ '/' := by
      rintro rfl
      exact hl (List.suffix_append _ _)
    rw [if_neg]
    · simp [hc]
    · simp [hc]

theorem join_of {dir x : Str} (hd : DirPath dir) (hx : ¬ ['/'] <+: x) : pathJoin dir x = dir ++ '/' :: x := by
  unfold pathJoin
  rw [if_neg (by rw [startsWith_iff]; exact hx), if_neg]
  rintro (h | h)
  · exact hd.1 h
  · exact hd.2 (endsWith_iff.mp h)

/-! ### `re.search` -/

/-- The leftmost position at which `f` matches. -/
theorem research_some {f : Str → Option Str} {s r : Str} :
    research f s = some r ↔ ∃ a b, s = a ++ b ∧ f b = some r ∧ ∀ a' b', s = a' ++ b' → a'.length < a.length → f b' = none := by
  induction s with
  | nil =>
    unfold research
    constructor
    · intro h
      refine ⟨[], [], rfl, h, fun a' b' _ hl => ?_⟩
      simp at hl
    · rintro ⟨a, b, h, hf, _⟩
      obtain ⟨rfl, rfl⟩ := List.append_eq_nil_iff.mp h.symm
      exact hf
  | cons c s ih =>
    unfold research
    constructor
    · intro h
      split at h
      · rename_i r' hr
        cases h
        refine ⟨[], _, rfl, hr, fun a' b' _ hl => ?_⟩
        simp at hl
      · rename_i hn
        obtain ⟨a, b, h1, h2, h3⟩ := ih.mp h
        refine ⟨c :: a, b, by rw [h1]; rfl, h2, fun a' b' he hl => ?_⟩
        cases a' with
        | nil => simp at he; rw [← he]; exact hn
        | cons d a' =>
          simp only [List.cons_append, List.cons.injEq] at he
          exact h3 a' b' he.2 (by simpa using hl)
    · rintro ⟨a, b, h1, h2, h3⟩
      cases a with
      | nil => simp at h1; rw [← h1] at h2; rw [h2]
      | cons d a =>
        simp only [List.cons_append, List.cons.injEq] at h1
        have hn := h3 [] (c :: s) rfl (by simp)
        rw [hn]
        refine ih.mpr ⟨a, b, h1.2, h2, fun a' b' he hl => h3 (c :: a') b' (by rw [he]; rfl) (by simpa using hl)⟩

theorem research_none {f : Str → Option Str} {s : Str} : research f s = none ↔ ∀ a b, s = a ++ b → f b = none := by
  induction s with
  | nil =>
    unfold research
    constructor
    · intro h a b hab
      obtain ⟨rfl, rfl⟩ := List.append_eq_nil_iff.mp hab.symm
      exact h
    · intro h; exact h [] [] rfl
  | cons c s ih =>
    unfold research
    constructor
    · intro h a b hab
      split at h
      · cases h
      · rename_i hn
        cases a with
        | nil => simp at hab; rw [← hab]; exact hn
        | cons d a =>
          simp only [List.cons_append, List.cons.injEq] at hab
          exact ih.mp h a b hab.2
    · intro h
      rw [h [] (c :: s) rfl]
      exact ih.mpr fun a b hab => h (c :: a) b (by rw [hab]; rfl)

theorem dropPrefix_some {p s t : Str} : dropPrefix? p s = some t ↔ s = p ++ t := by
  unfold dropPrefix?
  split
  · rename_i h
    obtain ⟨u, rfl⟩ := startsWith_iff.mp h
    simp
  · rename_i h
    simp only [reduceCtorEq, false_iff]
    rintro rfl
    exact h (startsWith_iff.mpr (List.prefix_append _ _))

theorem dropPrefix_none {p s : Str} (h : ¬ p <+: s) : dropPrefix? p s = none := by
  unfold dropPrefix?
  rw [if_neg (by rw [startsWith_iff]; exact h)]

theorem research_absent {p : Str} {f : Str → Option Str} (hf : ∀ s, ¬ p <+: s → f s = none) {s : Str} (h : ¬ p <:+: s) :
    research f s = none := by
  rw [research_none]
  rintro a b rfl
  apply hf
  rintro ⟨c, rfl⟩
  exact h ⟨a, c, by simp⟩

theorem matchTarget_absent {s : Str} (h : ¬ str "IDF_TARGET_" <+: s) : matchTarget s = none := by
  unfold matchTarget; rw [dropPrefix_none h]

theorem matchCMake4_absent {s : Str} (h : ¬ str "project_elf_src_" <+: s) : matchCMake4 s = none := by
  unfold matchCMake4; rw [dropPrefix_none h]

theorem matchMake_absent {s : Str} (h : ¬ str "LOAD " <+: s) : matchMake s = none := by
  unfold matchMake; rw [dropPrefix_none h]

theorem silent_none {l : Str} (h : SilentLine l) : lineTarget l = none := by
  unfold lineTarget
  rw [research_absent (fun s => matchTarget_absent) h.1, research_absent (fun s => matchCMake4_absent) h.2.1,
    matchMake_absent h.2.2.1]

theorem span_noBlank {x r : Str} (hx : NoBlank x) (hr : ∃ c t, r = c :: t ∧ isSpace c = true) :
    (x ++ r).takeWhile (fun c => !isSpace c) = x ∧ (x ++ r).dropWhile (fun c => !isSpace c) = r := by
  obtain ⟨c, t, rfl, hc⟩ := hr
  induction x with
  | nil => simp [hc]
  | cons y x ih =>
    have hy := hx y (by simp)
    obtain ⟨h1, h2⟩ := ih fun c hc => hx c (by simp [hc])
    simp only [List.cons_append, List.takeWhile_cons, List.dropWhile_cons, hy]
    simp [h1, h2]

theorem matchTarget_some {x b : Str} (hx : NoBlank x) : matchTarget (str "IDF_TARGET_" ++ x ++ str " =" ++ b) = some x := by
  unfold matchTarget
  rw [show str "IDF_TARGET_" ++ x ++ str " =" ++ b = str "IDF_TARGET_" ++ (x ++ (' ' :: '=' :: b)) by simp [str],
    dropPrefix_some.mpr rfl]
  obtain ⟨h1, h2⟩ := span_noBlank (r := ' ' :: '=' :: b) hx ⟨' ', _, rfl, by decide⟩
  simp only [h1, h2]
  rw [if_pos]
  rw [startsWith_iff]
  exact ⟨b, rfl⟩

/-- The first occurrence of the prefix is the leftmost match. -/
theorem research_first {p a r x : Str} {f : Str → Option Str} (hf : ∀ s, ¬ p <+: s → f s = none)
    (hfirst : FirstAt p a r) (h : f (p ++ r) = some x) : research f (a ++ p ++ r) = some x := by
  rw [research_some]
  refine ⟨a, p ++ r, by simp, h, fun a' b' he hl => hf _ ?_⟩
  rintro ⟨c, rfl⟩
  have := hfirst a' c (by rw [he]; simp)
  omega

end EspSize
