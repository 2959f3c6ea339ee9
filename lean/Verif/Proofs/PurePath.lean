import Verif.Proofs.Parts
import Verif.Spec.PurePath
/-! # Paths as lists of names: the model -/
namespace EspSize

theorem rootOf_slashes (p : Str) : RootOf p (slashes p) := by
  unfold RootOf slashes
  by_cases h : ['/'] <+: p
  · rw [if_pos (startsWith_iff.mpr h)]
    by_cases h2 : ['/', '/'] <+: p
    · by_cases h3 : ['/', '/', '/'] <+: p
      · rw [if_neg (by simp [startsWith_iff.mpr h3])]
        exact .inr (.inl ⟨h, fun e => e.2 h3, rfl⟩)
      · rw [if_pos (by
          have : startsWith p ['/', '/', '/'] = false := by rw [← Bool.not_eq_true, startsWith_iff]; exact h3
          simp [startsWith_iff.mpr h2, this])]
        exact .inr (.inr ⟨h2, h3, rfl⟩)
    · rw [if_neg (by
        have : startsWith p ['/', '/'] = false := by rw [← Bool.not_eq_true, startsWith_iff]; exact h2
        simp [this])]
      exact .inr (.inl ⟨h, fun e => h2 e.1, rfl⟩)
  · rw [if_neg (by rw [startsWith_iff]; exact h)]
    exact .inl ⟨h, rfl⟩

theorem rootOf_unique {p : Str} {r r' : Nat} (h : RootOf p r) (h' : RootOf p r') : r = r' := by
  have h1 : ∀ {q : Str}, ['/', '/'] <+: q → ['/'] <+: q := fun h => (List.prefix_append ['/'] ['/']).trans h
  rcases h with ⟨a, rfl⟩ | ⟨a, b, rfl⟩ | ⟨a, b, rfl⟩ <;> rcases h' with ⟨c, rfl⟩ | ⟨c, d, rfl⟩ | ⟨c, d, rfl⟩
  · rfl
  · exact absurd c a
  · exact absurd (h1 c) a
  · exact absurd a c
  · rfl
  · exact absurd ⟨c, d⟩ b
  · exact absurd (h1 a) c
  · exact absurd ⟨a, b⟩ d
  · rfl

theorem pathOf_model (p : Str) : PathOf p (slashes p) (pathParts p) := ⟨rootOf_slashes p, _, splitSlash_parts p, rfl⟩

theorem pathOf_unique {p : Str} {r r' : Nat} {cs cs' : List Str} (h : PathOf p r cs) (h' : PathOf p r' cs') : r = r' ∧ cs = cs' := by
  obtain ⟨h1, ps, h2, rfl⟩ := h
  obtain ⟨h3, qs, h4, rfl⟩ := h'
  exact ⟨rootOf_unique h1 h3, by rw [parts_unique h2 h4]⟩

theorem pathOf_iff {p : Str} {r : Nat} {cs : List Str} : PathOf p r cs ↔ r = slashes p ∧ cs = pathParts p :=
  ⟨fun h => pathOf_unique h (pathOf_model p), fun ⟨h1, h2⟩ => by rw [h1, h2]; exact pathOf_model p⟩

/-- A name in a path. -/
def PathName (c : Str) : Prop := c ≠ [] ∧ c ≠ str "." ∧ '/' ∉ c

theorem pathParts_names (p : Str) : ∀ c ∈ pathParts p, PathName c := by
  intro c hc
  obtain ⟨h1, h2⟩ := List.mem_filter.mp hc
  have h2 := of_decide_eq_true h2
  exact ⟨h2.1, h2.2, parts_noSlash (splitSlash_parts p) c h1⟩

theorem join_parts {c : Str} {cs : List Str} (h : ∀ x ∈ c :: cs, '/' ∉ x) : Parts (join ['/'] (c :: cs)) (c :: cs) := by
  induction cs generalizing c with
  | nil => exact .last (h c (by simp))
  | cons d ds ih =>
    show Parts (c ++ ['/'] ++ join ['/'] (d :: ds)) _
    rw [List.append_assoc]
    exact .more (h c (by simp)) (ih fun x hx => h x (List.mem_cons_of_mem _ hx))

theorem names_kept {cs : List Str} (h : ∀ c ∈ cs, PathName c) : cs.filter (fun c => decide (c ≠ [] ∧ c ≠ str ".")) = cs :=
  List.filter_eq_self.mpr fun c hc => decide_eq_true ⟨(h c hc).1, (h c hc).2.1⟩

theorem join_head {cs : List Str} (h : ∀ c ∈ cs, PathName c) : ¬ ['/'] <+: join ['/'] cs := by
  cases cs with
  | nil => simp [join]
  | cons c cs =>
    obtain ⟨h1, _, h3⟩ := h c (by simp)
    cases c with
    | nil => exact absurd rfl h1
    | cons x c =>
      have hx : x ≠ '/' := fun e => h3 (by rw [e]; simp)
      have : ∃ t, join ['/'] ((x :: c) :: cs) = x :: t := by
        cases cs with
        | nil => exact ⟨_, rfl⟩
        | cons d ds => exact ⟨_, rfl⟩
      obtain ⟨t, ht⟩ := this
      rw [ht]
      simpa using fun e => hx e.symm

theorem pathText_of {r : Nat} {cs : List Str} (hr : r ≤ 2) (h : ∀ c ∈ cs, PathName c) : PathOf (pathText r cs) r cs := by
  have hj := join_head h
  have hf := names_kept h
  have hsl : ∀ x ∈ cs, '/' ∉ x := fun x hx => (h x hx).2.2
  have hp : ∀ j, j = join ['/'] cs → ∃ ps, Parts j ps ∧ cs = ps.filter fun c => decide (c ≠ [] ∧ c ≠ str ".") := by
    rintro j rfl
    cases cs with
    | nil => exact ⟨[[]], .last (by simp [join]), rfl⟩
    | cons c t => exact ⟨c :: t, join_parts hsl, hf.symm⟩
  obtain ⟨ps, hps, hcs⟩ := hp _ rfl
  unfold pathText
  simp only
  have hr' : r = 0 ∨ r = 1 ∨ r = 2 := by omega
  rcases hr' with rfl | rfl | rfl
  · simp only [List.replicate_zero, List.nil_append]
    split
    · rename_i he
      have : cs = [] := by
        cases cs with
        | nil => rfl
        | cons c t =>
          have := (h c (by simp)).1
          cases t <;> simp [join, this] at he
      rw [this]
      exact ⟨.inl ⟨by decide, rfl⟩, [str "."], .last (by decide), by decide⟩
    · exact ⟨.inl ⟨hj, rfl⟩, ps, hps, hcs⟩
  · simp only [List.replicate_one, List.cons_append, List.nil_append, reduceCtorEq, if_false]
    refine ⟨.inr (.inl ⟨by simp, ?_, rfl⟩), [] :: ps, .more (c := []) (by simp) hps, by rw [List.filter_cons]; simpa using hcs⟩
    rintro ⟨h2, _⟩
    apply hj
    simpa using h2
  · simp only [List.replicate_succ, List.replicate_zero, List.cons_append, List.nil_append, reduceCtorEq, if_false]
    refine ⟨.inr (.inr ⟨by simp, ?_, rfl⟩), [] :: [] :: ps, .more (c := []) (by simp) (.more (c := []) (by simp) hps), by
      rw [List.filter_cons, List.filter_cons]; simpa using hcs⟩
    intro h2
    apply hj
    simpa using h2

theorem slashes_le (p : Str) : slashes p ≤ 2 := by
  unfold slashes
  split
  · split <;> omega
  · omega

theorem asPosix_of (p : Str) : PathOf (asPosix p) (slashes p) (pathParts p) := pathText_of (slashes_le p) (pathParts_names p)

theorem inDir_iff {d p : Str} : InDir d p ↔ slashes d = slashes p ∧ pathParts d <+: pathParts p := by
  constructor
  · rintro ⟨r, ds, cs, h1, h2⟩
    obtain ⟨e1, e2⟩ := pathOf_iff.mp h1
    obtain ⟨e3, e4⟩ := pathOf_iff.mp h2
    exact ⟨by rw [← e1, e3], cs, by rw [← e2, e4]⟩
  · rintro ⟨h1, cs, h2⟩
    exact ⟨_, _, cs, pathOf_model d, by rw [h1, h2]; exact pathOf_model p⟩

theorem plainPath_iff {a : Str} {cs : List Str} (h : ∀ c ∈ cs, PathName c) : PlainPath a cs ↔ a = pathText 0 cs := by
  unfold PlainPath pathText
  simp only [List.replicate_zero, List.nil_append]
  cases cs with
  | nil =>
    constructor
    · rintro (⟨_, h⟩ | ⟨h, _⟩)
      · exact h
      · exact absurd rfl h
    · intro h
      exact .inl ⟨rfl, h⟩
  | cons c t =>
    have hp := join_parts fun x hx => (h x hx).2.2
    have hne : join ['/'] (c :: t) ≠ [] := by
      have := (h c (by simp)).1
      cases t <;> simp [join, this]
    rw [if_neg hne]
    constructor
    · rintro (⟨h, _⟩ | ⟨_, h⟩)
      · cases h
      · have key : ∀ {p q : Str} {cs : List Str}, Parts p cs → Parts q cs → p = q := by
          intro p q cs h1 h2
          induction h1 generalizing q with
          | last _ =>
            cases h2 with
            | last _ => rfl
            | more _ h => cases h
          | more h0 h1 ih =>
            cases h2 with
            | last _ => cases h1
            | more _ h2 => rw [ih h2]
        exact key h hp
    · rintro rfl
      exact .inr ⟨by simp, hp⟩

theorem relativeTo_ok {file build a : Str} : relativeTo file build = .ok a ↔ RelTo build file a := by
  unfold relativeTo
  constructor
  · intro h
    split at h
    · rename_i hc
      injection h with h
      obtain ⟨cs, hcs⟩ := List.isPrefixOf_iff_prefix.mp hc.2
      have hd : (pathParts file).drop (pathParts build).length = cs := by rw [← hcs]; simp
      rw [hd] at h
      exact ⟨_, _, cs, pathOf_model build, by rw [← hc.1, hcs]; exact pathOf_model file,
        (plainPath_iff fun c hc' => pathParts_names file c (by rw [← hcs]; simp [hc'])).mpr h.symm⟩
    · cases h
  · rintro ⟨r, ds, cs, h1, h2, h3⟩
    obtain ⟨rfl, rfl⟩ := pathOf_iff.mp h1
    obtain ⟨e3, e4⟩ := pathOf_iff.mp h2
    rw [if_pos ⟨e3.symm, List.isPrefixOf_iff_prefix.mpr ⟨cs, e4⟩⟩, ← e4]
    rw [(plainPath_iff fun c hc' => pathParts_names file c (by rw [← e4]; simp [hc'])).mp h3]
    simp

theorem relativeTo_error {file build : Str} {x : Err} (h : relativeTo file build = .error x) : x = .valueError ∧ ¬ InDir build file := by
  unfold relativeTo at h
  split at h
  · cases h
  · rename_i hc
    injection h with h
    refine ⟨h.symm, fun hi => hc ?_⟩
    obtain ⟨h1, h2⟩ := inDir_iff.mp hi
    exact ⟨h1.symm, List.isPrefixOf_iff_prefix.mpr h2⟩

theorem join_append {as bs : List Str} (ha : as ≠ []) (hb : bs ≠ []) : join ['/'] (as ++ bs) = join ['/'] as ++ '/' :: join ['/'] bs := by
  induction as with
  | nil => exact absurd rfl ha
  | cons a as ih =>
    cases as with
    | nil =>
      cases bs with
      | nil => exact absurd rfl hb
      | cons b bs => simp [join]
    | cons a' as =>
      have := ih (by simp)
      show a ++ ['/'] ++ join ['/'] (a' :: as ++ bs) = _
      rw [this]
      simp [join]

/-- The text of a directory begins the texts of the paths in it, and is shorter. -/
theorem pathText_prefix {r : Nat} {ds cs : List Str} (hcs : ∀ c ∈ cs, PathName c) (h : ¬ (r = 0 ∧ ds = [])) (hd : ∀ c ∈ ds, PathName c) :
    pathText r ds <+: pathText r (ds ++ cs) ∧ (cs ≠ [] → (pathText r ds).length < (pathText r (ds ++ cs)).length) := by
  have hne : ∀ xs : List Str, (∀ c ∈ xs, PathName c) → xs ≠ [] → join ['/'] xs ≠ [] := by
    intro xs hx h0
    cases xs with
    | nil => exact absurd rfl h0
    | cons c t =>
      have := (hx c (by simp)).1
      cases t <;> simp [join, this]
  have ht : ∀ xs : List Str, (∀ c ∈ xs, PathName c) → ¬ (r = 0 ∧ xs = []) → pathText r xs = List.replicate r '/' ++ join ['/'] xs := by
    intro xs hx h0
    unfold pathText
    simp only
    rw [if_neg]
    intro he
    obtain ⟨h1, h2⟩ := List.append_eq_nil_iff.mp he
    refine h0 ⟨by simpa using h1, ?_⟩
    by_cases hxs : xs = []
    · exact hxs
    · exact absurd h2 (hne xs hx hxs)
  have hall : ∀ c ∈ ds ++ cs, PathName c := by
    intro c hc
    rcases List.mem_append.mp hc with hc | hc
    · exact hd c hc
    · exact hcs c hc
  rw [ht ds hd h, ht (ds ++ cs) hall (fun e => h ⟨e.1, (List.append_eq_nil_iff.mp e.2).1⟩)]
  by_cases hc0 : cs = []
  · subst hc0
    rw [List.append_nil]
    exact ⟨List.prefix_refl _, fun h => absurd rfl h⟩
  · by_cases hd0 : ds = []
    · subst hd0
      refine ⟨⟨join ['/'] cs, by simp [join]⟩, fun _ => ?_⟩
      have := List.length_pos_iff.mpr (hne cs hcs hc0)
      simp [join]
      exact this
    · rw [join_append hd0 hc0]
      exact ⟨⟨'/' :: join ['/'] cs, by simp⟩, fun _ => by simp⟩

theorem pathName_ends (p : Str) : EndsIn p (pathName p) := by
  refine ⟨_, _, pathOf_model p, ?_⟩
  unfold pathName
  rcases List.eq_nil_or_concat (pathParts p) with h | ⟨l, x, h⟩
  · rw [h]; exact .inl ⟨rfl, rfl⟩
  · rw [h]
    simp

end EspSize
