import Verif.Spec.MapMsg
import Verif.Props.MapErrors
import Verif.Props.MapRegions
import Verif.Props.Die
/-! # C114: messages about a link map file locate the problem -/
namespace EspSize

/-! ### Numbers of words -/

theorem splitN_step (n : Nat) (s : Str) : splitN n s = match lstrip s with
    | [] => []
    | t => match n with
      | 0 => [t]
      | n + 1 => t.takeWhile (fun c => !isSpace c) :: splitN n (t.dropWhile fun c => !isSpace c) := by
  rw [splitN.eq_def]
  dsimp only
  cases lstrip s <;> cases n <;> rfl

theorem splitN_length_le (n : Nat) : ∀ s : Str, (splitN n s).length ≤ n + 1 := by
  induction n with
  | zero =>
    intro s
    rw [splitN_step]
    cases lstrip s <;> simp
  | succ n ih =>
    intro s
    rw [splitN_step]
    cases lstrip s with
    | nil => simp
    | cons c t => simpa using ih _

theorem splitN_length_min (n : Nat) : ∀ (m : Nat) (s : Str), n ≤ m → (splitN n s).length = min (n + 1) (splitN m s).length := by
  induction n with
  | zero =>
    intro m s _
    rw [splitN_step 0, splitN_step m]
    cases lstrip s with
    | nil => simp
    | cons c t => cases m <;> simp <;> omega
  | succ n ih =>
    intro m s h
    obtain ⟨m, rfl⟩ : ∃ k, m = k + 1 := ⟨m - 1, by omega⟩
    rw [splitN_step (n + 1), splitN_step (m + 1)]
    cases lstrip s with
    | nil => simp
    | cons c t =>
      have := ih m ((c :: t).dropWhile fun c => !isSpace c) (by omega)
      simp only [List.length_cons, this]
      omega

theorem splitN_length (n : Nat) (s : Str) : (splitN n s).length = min (n + 1) (split s).length := by
  by_cases h : n ≤ s.length
  · exact splitN_length_min n _ s h
  · have h1 : splitN n s = split s := splitN_ge s.length s n s.length (Nat.le_refl _) (by omega) (Nat.le_refl _)
    have h2 : (split s).length ≤ s.length + 1 := splitN_length_le _ s
    rw [h1]
    omega

/-! ### Which lines are rejected -/

theorem int0_not_mapFile {s : Str} : int0 s ≠ .error .mapFile := by
  intro h
  have := int0_raises s .mapFile h
  simp at this

theorem bind_mapFile {α β : Type} {x : Except Err α} {f : α → Except Err β} (h : (x >>= f) = .error .mapFile) :
    x = .error .mapFile ∨ ∃ a, x = .ok a ∧ f a = .error .mapFile := by
  cases x with
  | error e => left; cases h; rfl
  | ok a => exact .inr ⟨a, rfl, h⟩

theorem addFillRev_not_mapFile {v : Option Int} {l : List PSec} : addFillRev v l ≠ .error .mapFile := by
  induction l with
  | nil => intro h; cases h
  | cons s t ih =>
    intro h
    unfold addFillRev at h
    split at h
    · split at h <;> cases h
    · rcases bind_mapFile h with h | ⟨a, _, h⟩
      · exact ih h
      · cases h

theorem flush_not_mapFile {o : POut} {i : Option PSec} {v : Option Int} : flush o i v ≠ .error .mapFile := by
  intro h
  unfold flush at h
  cases i with
  | none => cases h
  | some i =>
    simp only at h
    unfold addInput at h
    split at h
    · cases h
    · split at h
      · rename_i a oa os _ _ _
        simp only at h
        generalize (if a < oa ∨ a ≥ oa + os then ({ i with size := some 0 } : PSec) else i) = j at h
        split at h
        · rcases bind_mapFile h with h | ⟨a, _, h⟩
          · exact addFillRev_not_mapFile h
          · cases h
        · cases h
      · cases h

theorem int0_pair {α : Type} {a s : Str} {f : Int → Int → Except Err α} (h : (do let x ← int0 a; let y ← int0 s; f x y) = .error .mapFile) :
    ∃ x y, f x y = .error .mapFile := by
  rcases bind_mapFile h with h | ⟨x, _, h⟩
  · exact absurd h int0_not_mapFile
  · rcases bind_mapFile h with h | ⟨y, _, h⟩
    · exact absurd h int0_not_mapFile
    · exact ⟨x, y, h⟩

theorem region_misfit {l : Str} (h : regionLine l = .error .mapFile) : Misfit .region l := by
  unfold regionLine at h
  split at h
  · cases h
  · obtain ⟨_, _, h⟩ := int0_pair h; cases h
  · obtain ⟨_, _, h⟩ := int0_pair h; cases h
  · rename_i h0 h4 h3
    show (split l).length ∉ [0, 3, 4]
    match hs : split l with
    | [] => exact absurd hs h0
    | [_] => simp
    | [_, _] => simp
    | [_, _, _] => exact absurd hs (h3 _ _ _)
    | [_, _, _, _] => exact absurd hs (h4 _ _ _ _)
    | _ :: _ :: _ :: _ :: _ :: _ => simp

theorem input_misfit {st : PState} {o : POut} {l : Str} (h : newInput st o l = .error .mapFile) : l = [] ∨ (split l).length = 0 ∨ (split l).length ∈ [2, 3] := by
  unfold newInput at h
  rcases bind_mapFile h with h | ⟨o', _, h⟩
  · exact absurd h flush_not_mapFile
  · have hl := splitN_length 3 l
    split at h
    · cases h
    · obtain ⟨_, _, h⟩ := int0_pair h; cases h
    · rename_i h1 h4
      right
      match hs : splitN 3 l with
      | [] => left; rw [hs] at hl; simp at hl; omega
      | [_] => exact absurd hs (h1 _)
      | [_, _] => right; rw [hs] at hl; simp at hl ⊢; omega
      | [_, _, _] => right; rw [hs] at hl; simp at hl ⊢; omega
      | [_, _, _, _] => exact absurd hs (h4 _ _ _ _)
      | _ :: _ :: _ :: _ :: _ :: _ => rw [hs] at hl; simp at hl; omega

theorem inner_misfit {st : PState} {i : PSec} {l : Str} (h : inputLine st i l = .error .mapFile) :
    (i.address = none ∧ Misfit .cont l) ∨ (i.address ≠ none ∧ Misfit .fill l) := by
  unfold inputLine at h
  split at h
  · rename_i ha
    left
    refine ⟨ha, ?_⟩
    have hl := splitN_length 2 l
    split at h
    · obtain ⟨_, _, h⟩ := int0_pair h; cases h
    · rename_i h3
      show (split l).length < 3
      match hs : splitN 2 l with
      | [] => rw [hs] at hl; simp at hl; omega
      | [_] => rw [hs] at hl; simp at hl; omega
      | [_, _] => rw [hs] at hl; simp at hl; omega
      | [_, _, _] => exact absurd hs (h3 _ _ _)
      | _ :: _ :: _ :: _ :: _ => rw [hs] at hl; simp at hl; omega
  · rename_i ha
    split at h
    · rename_i hp
      right
      refine ⟨ha, startsWith_iff.mp hp, ?_⟩
      split at h
      · obtain ⟨_, _, h⟩ := int0_pair h; cases h
      · rename_i h3
        match hs : split l with
        | [] => simp
        | [_] => simp
        | [_, _] => simp
        | [_, _, _] => exact absurd hs (h3 _ _ _)
        | _ :: _ :: _ :: _ :: _ => simp
    · split at h
      · split at h
        · split at h
          · rcases bind_mapFile h with h | ⟨_, _, h⟩
            · exact absurd h int0_not_mapFile
            · cases h
          · cases h
        · cases h
      · cases h

theorem output_misfit {st : PState} {l : Str} (h : newOutput st l = .error .mapFile) : (split l).length ∉ [1, 3] := by
  unfold newOutput at h
  split at h
  · cases h
  · obtain ⟨_, _, h⟩ := int0_pair h; cases h
  · rename_i h1 h3
    match hs : split l with
    | [] => simp
    | [_] => exact absurd hs (h1 _)
    | [_, _] => simp
    | [_, _, _] => exact absurd hs (h3 _ _ _)
    | _ :: _ :: _ :: _ :: _ => simp

theorem split_pos {l p : Str} {c : Char} (h : c :: p <+: l) (hc : isSpace c = false) : (split l).length ≠ 0 := by
  obtain ⟨t, rfl⟩ := h
  rw [show split (c :: p ++ t) = splitN (c :: p ++ t).length (c :: p ++ t) from rfl, splitN_step]
  have : lstrip (c :: p ++ t) = c :: p ++ t := lstrip_of_head rfl hc
  rw [this]
  simp

theorem starts_any {l : Str} (h : startsWithAny l [str ".", str "COMMON"] = true) : str "." <+: l ∨ str "COMMON" <+: l := by
  unfold startsWithAny at h
  simp only [List.any_cons, List.any_nil, Bool.or_false, Bool.or_eq_true] at h
  exact h.imp startsWith_iff.mp startsWith_iff.mp

/-- The place at which a line is rejected fits the line. -/
theorem step_misfit {st : PState} {l : Str} (h : stepLine st l = .error .mapFile) :
    Quotes (stepKind st l) l (stepQuoted st l) ∧ Misfit (stepKind st l) (stepQuoted st l) ∧ st.found = true ∧ stepKind st l ≠ .region := by
  unfold stepLine at h
  split at h
  · cases h
  · rename_i hf
    have hf : st.found = true := by simpa using hf
    cases ho : st.osec with
    | none =>
      rw [ho] at h
      simp only at h
      split at h
      · rename_i hd
        have hk : stepKind st l = .output := by unfold stepKind; rw [ho]
        have hq : stepQuoted st l = l := by unfold stepQuoted; rw [if_pos ho]
        rw [hk, hq]
        exact ⟨rfl, ⟨startsWith_iff.mp hd, output_misfit h⟩, hf, by simp⟩
      · cases h
    | some o =>
      rw [ho] at h
      have hq : stepQuoted st l = strip l := by unfold stepQuoted; rw [if_neg (by rw [ho]; simp)]
      rw [hq]
      simp only at h
      unfold outputLine at h
      simp only at h
      split at h
      · rcases bind_mapFile h with h | ⟨_, _, h⟩
        · exact absurd h flush_not_mapFile
        · cases h
      · rename_i hne
        split at h
        · cases h
        · split at h
          · rename_i hs
            have hk : stepKind st l = .input := by unfold stepKind; rw [ho]; simp only; rw [if_pos hs]
            rw [hk]
            refine ⟨rfl, ⟨starts_any hs, ?_⟩, hf, by simp⟩
            have h0 : (split (strip l)).length ≠ 0 := by
              rcases starts_any hs with hp | hp
              · exact split_pos hp (by decide)
              · exact split_pos hp (by decide)
            rcases input_misfit h with h | h | h
            · exact absurd h hne
            · exact absurd h h0
            · exact h
          · rename_i hs
            split at h
            · cases hi : st.isec with
              | none => rw [hi] at h; cases h
              | some i =>
                rw [hi] at h
                rcases inner_misfit h with ⟨ha, hm⟩ | ⟨ha, hm⟩
                · have hk : stepKind st l = .cont := by unfold stepKind; rw [ho]; simp only; rw [if_neg hs, hi]; simp only; rw [if_pos ha]
                  rw [hk]
                  exact ⟨rfl, hm, hf, by simp⟩
                · have hk : stepKind st l = .fill := by unfold stepKind; rw [ho]; simp only; rw [if_neg hs, hi]; simp only; rw [if_neg ha]
                  rw [hk]
                  exact ⟨rfl, hm, hf, by simp⟩
            · cases h

/-! ### The loops -/

theorem regionsProblem_line {ls : List Str} : ∀ {ln : Nat} {f h : Bool} {k : LineKind} {q : Str} {n : Nat},
    regionsProblem ln ls f h = some (.line k q n) → ∃ pre l suf, ls = pre ++ l :: suf ∧ n = ln + pre.length + 1 ∧ Quotes k l q ∧ Misfit k q ∧
      ∀ post, regionsProblem ln (pre ++ l :: post) f h = some (.line k q n) := by
  induction ls with
  | nil => intro ln f h k q n hp; unfold regionsProblem at hp; split at hp <;> cases hp
  | cons l ls ih =>
    intro ln f h k q n hp
    have next : ∀ {f' h' : Bool}, regionsProblem (ln + 1) ls f' h' = some (.line k q n) →
        (∀ post, regionsProblem ln (l :: post) f h = regionsProblem (ln + 1) post f' h') →
        ∃ pre l' suf, l :: ls = pre ++ l' :: suf ∧ n = ln + pre.length + 1 ∧ Quotes k l' q ∧ Misfit k q ∧
          ∀ post, regionsProblem ln (pre ++ l' :: post) f h = some (.line k q n) := by
      intro f' h' hn he
      obtain ⟨pre, l', suf, e, hn, hq, hm, hpost⟩ := ih hn
      exact ⟨l :: pre, l', suf, by rw [e]; rfl, by rw [hn]; simp; omega, hq, hm, fun post => by rw [List.cons_append, he, hpost]⟩
    rw [regionsProblem.eq_def] at hp
    simp only at hp
    split at hp
    · split at hp <;> cases hp
    · rename_i h1
      split at hp
      · rename_i h2
        exact next hp fun post => by rw [regionsProblem.eq_def]; simp only; rw [if_neg h1, if_pos h2]
      · rename_i h2
        split at hp
        · rename_i h3
          exact next hp fun post => by rw [regionsProblem.eq_def]; simp only; rw [if_neg h1, if_neg h2, if_pos h3]
        · rename_i h3
          cases hr : regionLine l with
          | ok x =>
            rw [hr] at hp
            exact next hp fun post => by rw [regionsProblem.eq_def]; simp only; rw [if_neg h1, if_neg h2, if_neg h3, hr]
          | error e =>
            rw [hr] at hp
            cases e <;> simp only at hp <;> try cases hp
            refine ⟨[], l, ls, rfl, by simp, rfl, region_misfit hr, fun post => ?_⟩
            rw [List.nil_append, regionsProblem.eq_def]
            simp only
            rw [if_neg h1, if_neg h2, if_neg h3, hr]

theorem sectionsProblem_line {ls : List Str} : ∀ {ln : Nat} {st : PState} {k : LineKind} {q : Str} {n : Nat},
    sectionsProblem ln ls st = some (.line k q n) → ∃ pre l suf, ls = pre ++ l :: suf ∧ n = ln + pre.length + 1 ∧ Quotes k l q ∧ Misfit k q ∧
      ∀ post, sectionsProblem ln (pre ++ l :: post) st = some (.line k q n) := by
  induction ls with
  | nil => intro ln st k q n hp; unfold sectionsProblem at hp; split at hp <;> cases hp
  | cons l ls ih =>
    intro ln st k q n hp
    rw [sectionsProblem.eq_def] at hp
    simp only at hp
    split at hp
    · split at hp <;> cases hp
    · rename_i h1
      cases hr : stepLine st l with
      | ok st' =>
        rw [hr] at hp
        obtain ⟨pre, l', suf, e, hn, hq, hm, hpost⟩ := ih hp
        refine ⟨l :: pre, l', suf, by rw [e]; rfl, by rw [hn]; simp; omega, hq, hm, fun post => ?_⟩
        rw [List.cons_append, sectionsProblem.eq_def]
        simp only
        rw [if_neg h1, hr]
        exact hpost post
      | error e =>
        rw [hr] at hp
        cases e <;> simp only at hp <;> try cases hp
        obtain ⟨hq, hm, _⟩ := step_misfit hr
        refine ⟨[], l, ls, rfl, by simp, hq, hm, fun post => ?_⟩
        rw [List.nil_append, sectionsProblem.eq_def]
        simp only
        rw [if_neg h1, hr]

theorem restFrom_split (p : Str) (ls : List Str) :
    (∃ a L b, ls = a ++ L :: b ∧ (∀ l ∈ a, ¬ p <+: l) ∧ p <+: L ∧ restFrom p ls = L :: b) ∨
      ((∀ l ∈ ls, ¬ p <+: l) ∧ (restFrom p ls = [] ∨ ∃ l ∈ ls, restFrom p ls = [l])) := by
  induction ls with
  | nil => exact .inr ⟨by simp, .inl rfl⟩
  | cons l ls ih =>
    by_cases h : startsWith l p = true
    · exact .inl ⟨[], l, ls, rfl, by simp, startsWith_iff.mp h, by rw [restFrom, if_pos h]⟩
    · have hl : ¬ p <+: l := fun hx => h (startsWith_iff.mpr hx)
      cases ls with
      | nil => exact .inr ⟨by simpa using hl, .inr ⟨l, by simp, by rw [restFrom, if_neg h]; rfl⟩⟩
      | cons l2 ls =>
        have e : restFrom p (l :: l2 :: ls) = restFrom p (l2 :: ls) := by rw [restFrom, if_neg h, if_neg (by simp)]
        rw [e]
        rcases ih with ⟨a, L, b, h1, h2, h3, h4⟩ | ⟨h1, h2⟩
        · exact .inl ⟨l :: a, L, b, by rw [h1]; rfl, List.forall_mem_cons.mpr ⟨hl, h2⟩, h3, h4⟩
        · refine .inr ⟨List.forall_mem_cons.mpr ⟨hl, h1⟩, ?_⟩
          rcases h2 with h2 | ⟨x, hx, h2⟩
          · exact .inl h2
          · exact .inr ⟨x, List.mem_cons_of_mem _ hx, h2⟩

theorem regionsProblem_stop {L : Str} (hL : linkerScript <+: L) (b b' : List Str) (a : List Str) : ∀ (ln : Nat) (f h : Bool),
    regionsProblem ln (a ++ L :: b) f h = regionsProblem ln (a ++ L :: b') f h := by
  induction a with
  | nil => intro ln f h; simp only [List.nil_append, regionsProblem, if_pos (startsWith_iff.mpr hL)]
  | cons l a ih =>
    intro ln f h
    simp only [List.cons_append]
    rw [regionsProblem, regionsProblem, ih, ih]
    cases regionLine l with
    | ok x => simp only [ih]
    | error e => cases e <;> rfl

theorem regionsLoop_stop {L : Str} (hL : linkerScript <+: L) (b b' : List Str) (a : List Str) : ∀ (f h : Bool) (acc : List Region),
    regionsLoop (a ++ L :: b) f h acc = regionsLoop (a ++ L :: b') f h acc := by
  induction a with
  | nil => intro f h acc; simp only [List.nil_append, regionsLoop, if_pos (startsWith_iff.mpr hL)]
  | cons l a ih =>
    intro f h acc
    simp only [List.cons_append, regionsLoop, ih]

/-- How the loop over the regions ends. -/
theorem regionsProblem_iff {ls : List Str} : ∀ {ln : Nat} {f h : Bool} {acc : List Region},
    (regionsProblem ln ls f h = none ∧ ((∃ r, regionsLoop ls f h acc = .ok (r, true)) ∨ regionsLoop ls f h acc = .error .valueError)) ∨
      ((∃ p, regionsProblem ln ls f h = some p) ∧ ((∃ r, regionsLoop ls f h acc = .ok (r, false)) ∨ regionsLoop ls f h acc = .error .mapFile)) := by
  induction ls with
  | nil =>
    intro ln f h acc
    unfold regionsProblem regionsLoop
    cases f <;> cases h <;> simp
  | cons l ls ih =>
    intro ln f h acc
    rw [regionsProblem, regionsLoop]
    by_cases h1 : startsWith l linkerScript = true
    · rw [if_pos h1, if_pos h1]
      cases f <;> cases h <;> simp
    · rw [if_neg h1, if_neg h1]
      by_cases h2 : (!f) = true
      · rw [if_pos h2, if_pos h2]; exact ih
      · rw [if_neg h2, if_neg h2]
        by_cases h3 : (!h) = true
        · rw [if_pos h3, if_pos h3]; exact ih
        · rw [if_neg h3, if_neg h3]
          cases hr : regionLine l with
          | ok x =>
            cases x with
            | none => exact ih
            | some r => exact ih
          | error e =>
            have := regionLine_raises l e hr
            simp only [List.mem_cons, List.not_mem_nil, or_false] at this
            rcases this with rfl | rfl
            · exact .inr ⟨⟨_, rfl⟩, .inr rfl⟩
            · exact .inl ⟨rfl, .inr rfl⟩

/-- How the loop over the sections ends. -/
theorem sectionsProblem_iff {ls : List Str} : ∀ {ln : Nat} {st : PState},
    (sectionsProblem ln ls st = none ∧ ((∃ r, sectionsLoop ls st = .ok r ∧ r.found = true) ∨ ∃ e, e ≠ .mapFile ∧ sectionsLoop ls st = .error e)) ∨
      ((∃ p, sectionsProblem ln ls st = some p) ∧ ((∃ r, sectionsLoop ls st = .ok r ∧ r.found = false) ∨ sectionsLoop ls st = .error .mapFile)) := by
  induction ls with
  | nil =>
    intro ln st
    unfold sectionsProblem sectionsLoop
    cases hf : st.found <;> simp [hf]
  | cons l ls ih =>
    intro ln st
    rw [sectionsProblem, sectionsLoop]
    by_cases h1 : startsWith l crossRef = true
    · rw [if_pos h1, if_pos h1]
      cases hf : st.found <;> simp [hf]
    · rw [if_neg h1, if_neg h1]
      cases hr : stepLine st l with
      | ok st' => exact ih
      | error e =>
        by_cases he : e = .mapFile
        · subst he; exact .inr ⟨⟨_, rfl⟩, .inr rfl⟩
        · left
          refine ⟨?_, .inr ⟨e, he, rfl⟩⟩
          cases e <;> first | rfl | exact absurd rfl he

theorem getCrt_not_mapFile {ls : List Str} : getCrt ls ≠ .error .mapFile := by
  intro h
  unfold getCrt at h
  rcases bind_mapFile h with h | ⟨_, _, h⟩
  · have := crtLoop_raises _ _ _ _ _ .mapFile h
    simp at this
  · cases h

/-! ### The whole file -/

theorem regions_fill {lines : List Str} (h : regionsProblem 0 lines false false = none) :
    (∃ r, getMemoryRegions lines = .ok (r, restFrom linkerScript lines)) ∨ getMemoryRegions lines = .error .valueError := by
  unfold getMemoryRegions
  rcases regionsProblem_iff (ls := lines) (ln := 0) (f := false) (h := false) (acc := []) with ⟨_, ⟨r, hr⟩ | hr⟩ | ⟨⟨p, hp⟩, _⟩
  · rw [hr]; exact .inl ⟨r, rfl⟩
  · rw [hr]; exact .inr rfl
  · rw [h] at hp; cases hp

/-- A link map file is refused by the parser exactly if there is a problem to report. -/
theorem C114_iff (lines : List Str) : parseMap lines = .error .mapFile ↔ ∃ p, mapProblem lines = some p := by
  unfold mapProblem parseMap
  cases hp : regionsProblem 0 lines false false with
  | some p =>
    have hg : getMemoryRegions lines = .error .mapFile := by
      unfold getMemoryRegions
      rcases regionsProblem_iff (ls := lines) (ln := 0) (f := false) (h := false) (acc := []) with ⟨hn, _⟩ | ⟨_, ⟨r, hr⟩ | hr⟩
      · rw [hp] at hn; cases hn
      · rw [hr]; rfl
      · rw [hr]; rfl
    rw [hg]
    exact ⟨fun _ => ⟨p, rfl⟩, fun _ => rfl⟩
  | none =>
    rcases regions_fill hp with ⟨r, hg⟩ | hg
    · rw [hg]
      simp only
      generalize restFrom linkerScript lines = rest
      show ((do
        let (sections, rest') ← getSections rest
        let crt ← getCrt rest'
        .ok { regions := r, target := getTarget rest, sections := sections, crt := crt } : Except Err MapFile) = _) ↔ _
      unfold getSections
      rcases sectionsProblem_iff (ls := rest) (ln := lines.length - rest.length) (st := {}) with ⟨hn, ⟨s, hs, hf⟩ | ⟨e, he, hs⟩⟩ | ⟨hn, ⟨s, hs, hf⟩ | hs⟩
      · rw [hn, hs]
        refine ⟨fun h => ?_, fun ⟨p, h⟩ => by cases h⟩
        simp only [bind, Except.bind, hf, if_true] at h
        split at h
        · rename_i e hc
          cases h
          exact absurd hc getCrt_not_mapFile
        · cases h
      · rw [hn, hs]
        refine ⟨fun h => ?_, fun ⟨p, h⟩ => by cases h⟩
        cases h
        exact absurd rfl he
      · rw [hs]
        refine ⟨fun _ => hn, fun _ => ?_⟩
        simp only [bind, Except.bind, hf, Bool.false_eq_true, if_false]
      · rw [hs]
        exact ⟨fun _ => hn, fun _ => rfl⟩
    · rw [hg]
      exact ⟨fun h => (by cases h), fun ⟨p, h⟩ => by cases h⟩

/-- No listing: nothing is said about a line. -/
theorem sections_unstarted {l : Str} (h : ¬ linkerScript <+: l) (ln : Nat) : sectionsProblem ln [l] {} = some .script := by
  rw [sectionsProblem]
  have hs : startsWith l linkerScript = false := startsWith_false h
  split
  · rfl
  · have : stepLine {} l = .ok { ({} : PState) with found := false } := by unfold stepLine; rw [hs]; rfl
    rw [this]
    rfl

/-- With a listing it is started by its title. -/
theorem sections_started {L : Str} (h : linkerScript <+: L) (ln : Nat) (b : List Str) :
    sectionsProblem ln (L :: b) {} = sectionsProblem (ln + 1) b { found := true } := by
  rw [sectionsProblem]
  have hx : startsWith L crossRef = false := startsWith_false (prefix_ne h (by decide))
  have : stepLine {} L = .ok { found := true } := by unfold stepLine; rw [startsWith_iff.mpr h]; rfl
  rw [hx, this]
  rfl

theorem sectionsProblem_found {ls : List Str} : ∀ {ln : Nat} {st : PState}, st.found = true → sectionsProblem ln ls st ≠ some .script := by
  induction ls with
  | nil => intro ln st h; unfold sectionsProblem; rw [h]; simp
  | cons l ls ih =>
    intro ln st h
    rw [sectionsProblem]
    by_cases hc : startsWith l crossRef = true
    · rw [if_pos hc, h]; simp
    · rw [if_neg hc]
      cases hr : stepLine st l with
      | ok st' =>
        refine ih ?_
        unfold stepLine at hr
        rw [h] at hr
        simp only [Bool.not_true, Bool.false_eq_true, if_false] at hr
        have keep : ∀ {o l' st'}, outputLine st o l' = .ok st' → st'.found = st.found := by
          intro o l' st' hr
          unfold outputLine at hr
          simp only at hr
          split at hr
          · obtain ⟨_, _, hr⟩ := bind_ok hr; cases hr; rfl
          · split at hr
            · cases hr
              unfold outputCont
              split
              · split <;> rfl
              · rfl
            · split at hr
              · unfold newInput at hr
                obtain ⟨_, _, hr⟩ := bind_ok hr
                split at hr
                · cases hr; rfl
                · obtain ⟨_, _, hr⟩ := bind_ok hr
                  obtain ⟨_, _, hr⟩ := bind_ok hr
                  cases hr; rfl
                · cases hr
              · split at hr
                · split at hr
                  · unfold inputLine at hr
                    split at hr
                    · split at hr
                      · obtain ⟨_, _, hr⟩ := bind_ok hr
                        obtain ⟨_, _, hr⟩ := bind_ok hr
                        cases hr; rfl
                      · cases hr
                    · split at hr
                      · split at hr
                        · obtain ⟨_, _, hr⟩ := bind_ok hr
                          obtain ⟨_, _, hr⟩ := bind_ok hr
                          cases hr; rfl
                        · cases hr
                      · split at hr
                        · split at hr
                          · split at hr
                            · obtain ⟨_, _, hr⟩ := bind_ok hr; cases hr; rfl
                            · cases hr; rfl
                          · cases hr; rfl
                        · cases hr; rfl
                  · cases hr; rfl
                · cases hr; rfl
        split at hr
        · rw [keep hr, h]
        · split at hr
          · unfold newOutput at hr
            split at hr
            · cases hr; exact h
            · obtain ⟨_, _, hr⟩ := bind_ok hr
              obtain ⟨_, _, hr⟩ := bind_ok hr
              cases hr; exact h
            · cases hr
          · cases hr; exact h
      | error e => cases e <;> simp

theorem mapProblem_line {lines : List Str} {k : LineKind} {q : Str} {n : Nat} (h : mapProblem lines = some (.line k q n)) :
    ∃ pre l suf, lines = pre ++ l :: suf ∧ n = pre.length + 1 ∧ Quotes k l q ∧ Misfit k q ∧
      ∀ post, mapProblem (pre ++ l :: post) = some (.line k q n) := by
  unfold mapProblem at h
  cases hp : regionsProblem 0 lines false false with
  | some p =>
    rw [hp] at h
    cases h
    obtain ⟨pre, l, suf, e, hn, hq, hm, hpost⟩ := regionsProblem_line hp
    exact ⟨pre, l, suf, e, by omega, hq, hm, fun post => by unfold mapProblem; rw [hpost]⟩
  | none =>
    rw [hp] at h
    rcases regions_fill hp with ⟨r, hg⟩ | hg
    · rw [hg] at h
      simp only at h
      rcases restFrom_split linkerScript lines with ⟨a, L, b, e, ha, hL, hr⟩ | ⟨hno, hr | ⟨l, hl, hr⟩⟩
      · rw [hr] at h
        have hlen : lines.length - (L :: b).length = a.length := by rw [e, List.length_append]; omega
        rw [hlen] at h
        obtain ⟨pre, l, suf, e2, hn, hq, hm, hpost⟩ := sectionsProblem_line h
        refine ⟨a ++ pre, l, suf, by rw [e, e2, List.append_assoc], by simp; omega, hq, hm, fun post => ?_⟩
        obtain ⟨b', hb'⟩ : ∃ b', pre ++ l :: post = L :: b' := by
          cases pre with
          | nil => cases e2; exact ⟨post, rfl⟩
          | cons x pre => cases e2; exact ⟨_, rfl⟩
        have hpb := hpost post
        rw [List.append_assoc, hb']
        rw [hb'] at hpb
        unfold mapProblem
        have h1 : regionsProblem 0 (a ++ L :: b') false false = none := by rw [regionsProblem_stop hL b' b, ← e, hp]
        rw [h1]
        have h2 : getMemoryRegions (a ++ L :: b') = .ok (r, L :: b') := by
          unfold getMemoryRegions at hg ⊢
          rw [regionsLoop_stop hL b' b, ← e]
          obtain ⟨⟨x, ok⟩, h3, h4⟩ := bind_ok hg
          rw [h3]
          simp only at h4
          cases ok with
          | false => cases h4
          | true =>
            cases h4
            show Except.ok (r, restFrom linkerScript (a ++ L :: b')) = _
            rw [restFrom_eq ha hL]
        rw [h2]
        simp only
        rw [show (a ++ L :: b').length - (L :: b').length = a.length by rw [List.length_append]; omega]
        exact hpb
      · rw [hr] at h
        unfold sectionsProblem at h
        cases h
      · rw [hr, sections_unstarted (hno l hl)] at h
        cases h
    · rw [hg] at h
      cases h

/-- The line with the reported number is what is quoted, without the space around it inside of an output section, and it does not have the words it should
have. -/
theorem C114_line {lines : List Str} {k : LineKind} {q : Str} {n : Nat} (h : mapProblem lines = some (.line k q n)) :
    1 ≤ n ∧ ∃ raw, lines[n - 1]? = some raw ∧ Quotes k raw q ∧ Misfit k q := by
  obtain ⟨pre, l, suf, e, hn, hq, hm, _⟩ := mapProblem_line h
  subst hn
  exact ⟨by omega, l, by rw [e]; simp, hq, hm⟩

/-- It is the first one: what follows it does not matter, and up to a line before it no line is reported. -/
theorem C114_first {lines : List Str} {k : LineKind} {q : Str} {n : Nat} (h : mapProblem lines = some (.line k q n)) :
    (∀ post, mapProblem (lines.take n ++ post) = some (.line k q n)) ∧
      ∀ j, j < n → ∀ k' q' n', mapProblem (lines.take j) ≠ some (.line k' q' n') := by
  have key : ∀ {lines : List Str} {k : LineKind} {q : Str} {n : Nat}, mapProblem lines = some (.line k q n) →
      n ≤ lines.length ∧ ∀ post, mapProblem (lines.take n ++ post) = some (.line k q n) := by
    intro lines k q n h
    obtain ⟨pre, l, suf, e, hn, _, _, hpost⟩ := mapProblem_line h
    subst hn
    refine ⟨by rw [e]; simp, fun post => ?_⟩
    have : lines.take (pre.length + 1) = pre ++ [l] := by
      rw [e, show pre ++ l :: suf = (pre ++ [l]) ++ suf by simp]
      exact List.take_left' (by simp)
    rw [this, List.append_assoc]
    exact hpost post
  refine ⟨(key h).2, fun j hj k' q' n' h' => ?_⟩
  obtain ⟨hl, hpost⟩ := key h'
  have hj' : n' ≤ j := by rw [List.length_take] at hl; omega
  have := hpost (lines.drop n')
  rw [List.take_take, Nat.min_eq_left hj', List.take_append_drop, h] at this
  cases this
  omega

/-- The listing is said to be missing only if it is. -/
theorem C114_no_listing {lines : List Str} (h : mapProblem lines = some .script) : ∀ l ∈ lines, ¬ linkerScript <+: l := by
  unfold mapProblem at h
  cases hp : regionsProblem 0 lines false false with
  | some p =>
    rw [hp] at h
    cases h
    exfalso
    have : ∀ (ls : List Str) (ln : Nat) (f g : Bool), regionsProblem ln ls f g ≠ some .script := by
      intro ls
      induction ls with
      | nil => intro ln f g; unfold regionsProblem; split <;> simp
      | cons l ls ih =>
        intro ln f g
        rw [regionsProblem]
        split
        · split <;> simp
        · split
          · exact ih _ _ _
          · split
            · exact ih _ _ _
            · cases regionLine l with
              | ok x => exact ih _ _ _
              | error e => cases e <;> simp
    exact this _ _ _ _ hp
  | none =>
    rw [hp] at h
    rcases regions_fill hp with ⟨r, hg⟩ | hg
    · rw [hg] at h
      simp only at h
      rcases restFrom_split linkerScript lines with ⟨a, L, b, e, ha, hL, hr⟩ | ⟨hno, _⟩
      · rw [hr, sections_started hL] at h
        exact absurd h (sectionsProblem_found rfl)
      · exact hno
    · rw [hg] at h
      cases h

theorem regions_config {ls : List Str} : ∀ {ln : Nat} {f g : Bool}, regionsProblem ln ls f g = some .config →
    (f = false → ¬ HasConfig ls) ∧
      (f = true → g = false ∧ ¬ ∃ (b : List Str) (h : Str) (c : List Str), ls = b ++ h :: c ∧ str "Name" <+: h ∧ ∀ l ∈ b ++ [h], ¬ linkerScript <+: l) := by
  induction ls with
  | nil =>
    intro ln f g h
    unfold regionsProblem at h
    refine ⟨fun _ ⟨a, m, b, h, c, e, _⟩ => by simp at e, fun hf => ⟨?_, fun ⟨b, h, c, e, _⟩ => by simp at e⟩⟩
    subst hf
    cases g <;> simp_all
  | cons l ls ih =>
    intro ln f g h
    rw [regionsProblem] at h
    split at h
    · rename_i h1
      have h1 := startsWith_iff.mp h1
      refine ⟨fun _ ⟨a, m, b, x, c, e, _, _, hn⟩ => ?_, fun hf => ⟨?_, fun ⟨b, x, c, e, _, hn⟩ => ?_⟩⟩
      · refine hn l ?_ h1
        cases a <;> cases e <;> simp
      · subst hf
        cases g <;> simp_all
      · refine hn l ?_ h1
        cases b <;> cases e <;> simp
    · split at h
      · rename_i h1 h2
        have hf : f = false := by simpa using h2
        subst hf
        refine ⟨fun _ ⟨a, m, b, x, c, e, hm, hx, hn⟩ => ?_, fun hf => (by cases hf)⟩
        cases a with
        | nil =>
          cases e
          have hs : startsWith l memConfig = true := startsWith_iff.mpr hm
          rw [hs] at h
          exact ((ih h).2 rfl).2 ⟨b, x, c, rfl, hx, fun y hy => hn y (List.mem_cons_of_mem _ hy)⟩
        | cons y a =>
          cases e
          cases hs : startsWith l memConfig with
          | false =>
            rw [hs] at h
            exact (ih h).1 rfl ⟨a, m, b, x, c, rfl, hm, hx, fun z hz => hn z (List.mem_cons_of_mem _ hz)⟩
          | true =>
            rw [hs] at h
            refine ((ih h).2 rfl).2 ⟨a ++ m :: b, x, c, by simp, hx, fun z hz => hn z (List.mem_cons_of_mem _ ?_)⟩
            simpa using hz
      · rename_i h1 h2
        have hf : f = true := by simpa using h2
        subst hf
        split at h
        · rename_i h3
          have hg : g = false := by simpa using h3
          subst hg
          refine ⟨fun hf => (by cases hf), fun _ => ⟨rfl, fun ⟨b, x, c, e, hx, hn⟩ => ?_⟩⟩
          have hs := ((ih h).2 rfl).1
          cases b with
          | nil =>
            cases e
            rw [startsWith_iff.mpr hx] at hs
            cases hs
          | cons y b =>
            cases e
            exact ((ih h).2 rfl).2 ⟨b, x, c, rfl, hx, fun z hz => hn z (List.mem_cons_of_mem _ hz)⟩
        · rename_i h3
          cases hr : regionLine l with
          | ok x =>
            rw [hr] at h
            have := ((ih h).2 rfl).1
            rw [this] at h3
            simp at h3
          | error e => rw [hr] at h; cases e <;> cases h

/-- The table of regions is said to be missing only if it is. -/
theorem C114_no_config {lines : List Str} (h : mapProblem lines = some .config) : ¬ HasConfig lines := by
  unfold mapProblem at h
  cases hp : regionsProblem 0 lines false false with
  | some p =>
    rw [hp] at h
    cases h
    exact (regions_config hp).1 rfl
  | none =>
    rw [hp] at h
    exfalso
    have : ∀ (ls : List Str) (ln : Nat) (st : PState), sectionsProblem ln ls st ≠ some .config := by
      intro ls
      induction ls with
      | nil => intro ln st; unfold sectionsProblem; split <;> simp
      | cons l ls ih =>
        intro ln st
        rw [sectionsProblem]
        split
        · split <;> simp
        · cases stepLine st l with
          | ok x => exact ih _ _
          | error e => cases e <;> simp
    rcases regions_fill hp with ⟨r, hg⟩ | hg
    · rw [hg] at h
      exact this _ _ _ h
    · rw [hg] at h
      cases h

/-! ### The texts -/

/-- The line, its number and the name of the file are in the text; the rest depends on the place only, and the places have different texts. -/
theorem C114_locates : (∀ k fn line n, Locates (startOf k) (placeOf k) fn line n (MapProblem.text fn (.line k line n))) ∧
    ∀ k k', startOf k = startOf k' → k = k' := by
  refine ⟨fun k fn line n => ?_, fun k k' h => ?_⟩
  · show lineText fn k line n = _
    cases k <;> simp [lineText, startOf, placeOf, str]
  · cases k <;> cases k' <;> first | rfl | exact absurd h (by decide)

/-- The message as shown, if neither the line nor the name of the file looks like markup. -/
theorem C114_shown_partial {k : LineKind} {fn line : Str} (n : Nat) (hl : NoMarkup line) (hf : NoMarkup fn) :
    render (MapProblem.text fn (.line k line n)) = MapProblem.text fn (.line k line n) := by
  have lit : ∀ {s : Str}, s.all (fun c => c != '[' && c != '\\') = true → ∀ t, render (s ++ t) = s ++ render t := fun h t => render_neutral (neutral_lit h) t
  have hs : (startOf k).all (fun c => c != '[' && c != '\\') = true := by cases k <;> decide
  have hp : (placeOf k).all (fun c => c != '[' && c != '\\') = true := by cases k <;> decide
  have e : MapProblem.text fn (.line k line n) =
      startOf k ++ (str "\"" ++ (line ++ '"' :: (str " at line " ++ (intStr n ++ (placeOf k ++ (str "\"" ++ (fn ++ '"' :: str " map file"))))))) := by
    rw [C114_locates.1 k fn line n]
    simp [str]
  rw [e, lit hs, lit (by decide), render_noMarkup hl (by decide) (by decide) (by decide), lit (by decide), render_neutral (intStr_neutral _), lit hp,
    lit (by decide), render_noMarkup hf (by decide) (by decide) (by decide), shown_lit (by decide)]

/-- The name of the file is missing in the message that there is no listing. -/
theorem C114_script_unnamed : (∀ fn fn', MapProblem.text fn .script = MapProblem.text fn' .script) ∧
    render (MapProblem.text (str "a.map") .script) = str "cannot parse \"Linker script and memory map\" section in \"{self.fn}\" map file" ∧
    mapProblem [str "Memory Configuration", str "Name"] = some .script :=
  ⟨fun _ _ => rfl, shown_lit (by decide), by decide⟩

/-- A file with a line the message hides a part of. -/
def hiddenMap : List Str := [str "Memory Configuration", str "Name", str "Linker script and memory map", str ".text[x] 0x10"]

/-- Text in brackets is not shown. -/
theorem C114_hidden : mapProblem hiddenMap = some (.line .output (str ".text[x] 0x10") 4) ∧
    render (MapProblem.text (str "a.map") (.line .output (str ".text[x] 0x10") 4)) =
      MapProblem.text (str "a.map") (.line .output (str ".text 0x10") 4) := by
  constructor <;> decide +kernel

/-- Of every kind of problem there is a file. -/
example : mapProblem [str "Memory Configuration", str "Name", str "iram 0x10"] = some (.line .region (str "iram 0x10") 3) := by decide
example : mapProblem [str "Memory Configuration", str "Name", str "Linker script and memory map", str ".text 0x10 0x10", str " .text.a 0x10"] =
    some (.line .input (str ".text.a 0x10") 5) := by decide
example : mapProblem [str "Memory Configuration", str "Name", str "Linker script and memory map", str ".text 0x10 0x10", str " .text.a", str "  0x10 "] =
    some (.line .cont (str "0x10") 6) := by decide
example : mapProblem [str "Memory Configuration", str "Name", str "Linker script and memory map", str ".text 0x10 0x10", str " .text.a 0x10 0x1 a.o",
    str " *fill* 0x10"] = some (.line .fill (str "*fill* 0x10") 6) := by decide
example : mapProblem [str "Memory Configuration", str "iram 0x10"] = some .config := by decide

end EspSize
