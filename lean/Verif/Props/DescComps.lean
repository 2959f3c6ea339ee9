import Verif.Props.DescJson
/-! # C105: truth values of JSON and components of any type -/
namespace EspSize

/-- **C105** debug information is used exactly if the configuration has a value for the option that does not count as false. -/
theorem C105_lto (zero : Str → Bool) (json : Str → Option JVal) (fn : Str) (b : Bool) (h : wantDwarfJ zero json fn none = .ok b) :
    b = true ↔ ∃ d v, json (configPath fn) = some (.obj d) ∧ dget d (str "COMPILER_LTO_LINKTIME") = some v ∧ ¬ Falsy zero v := by
  unfold wantDwarfJ at h
  simp only [] at h
  unfold configPath
  have hno : ∀ {P : Prop}, ¬ P → ((false = true) ↔ P) := fun hp => ⟨(fun h => by cases h), fun h => absurd h hp⟩
  split at h
  · rename_i h1
    cases h
    exact hno fun ⟨d, v, h2, _⟩ => by rw [h1] at h2; cases h2
  · rename_i h1
    cases h
    exact hno fun ⟨d, v, h2, _⟩ => by rw [h1] at h2; cases h2
  · rename_i d h1
    split at h
    · rename_i h2
      cases h
      refine hno fun ⟨d', v, h3, h4, _⟩ => ?_
      rw [h1] at h3
      cases h3
      rw [h2] at h4
      cases h4
    · rename_i v h2
      cases h
      rw [h1]
      constructor
      · intro ht
        refine ⟨d, v, rfl, h2, fun hf => ?_⟩
        rw [(C105_truth zero v).mpr hf] at ht
        cases ht
      · intro ⟨d', v', h3, h4, h5⟩
        cases h3
        rw [h2] at h4
        cases h4
        cases ht : v.truthy zero with
        | true => rfl
        | false => exact absurd ((C105_truth zero v).mp ht) h5
  · cases h

theorem item_ok {k : Str} {c v : JVal} (h : c.item k = .ok v) : ∃ d, c = .obj d ∧ dget d k = some v := by
  cases c with
  | obj d =>
    refine ⟨d, rfl, ?_⟩
    simp only [JVal.item, getKey] at h
    split at h
    · cases h
      assumption
    · cases h
  | _ => cases h

theorem item_error {k : Str} {c : JVal} {x : Err} (h : c.item k = .error x) : NoItem c x ∧ ∀ d, c = .obj d → dget d k = none := by
  cases c with
  | obj d =>
    simp only [JVal.item, getKey] at h
    split at h
    · cases h
    · rename_i h1
      cases h
      exact ⟨.key, fun d' hd => by cases hd; exact h1⟩
  | _ => cases h; exact ⟨.type (by intro d h; cases h), by intro d h; cases h⟩

theorem items_ok {l : List (Str × JVal)} {fs : List (JVal × JVal)}
    (h : (l.mapM fun p => (do let f ← p.2.item (str "file"); (.ok (p.2, f) : Except Err (JVal × JVal)))) = .ok fs) :
    fs.map (·.1) = l.map (·.2) ∧ ∀ p ∈ fs, FileOf p.1 p.2 := by
  induction l generalizing fs with
  | nil => cases h; exact ⟨rfl, by simp⟩
  | cons p t ih =>
    rw [List.mapM_cons] at h
    obtain ⟨q, h1, h⟩ := bind_ok h
    obtain ⟨r, h2, h⟩ := bind_ok h
    cases h
    obtain ⟨f, h3, h4⟩ := bind_ok h1
    cases h4
    obtain ⟨i1, i2⟩ := ih h2
    refine ⟨by simp [i1], fun y hy => ?_⟩
    rcases List.mem_cons.mp hy with rfl | hy
    · exact item_ok h3
    · exact i2 y hy

/-- **C105** the components that matter are, in order, those with a value of `file` that does not count as false. -/
theorem C105_components (zero : Str → Bool) (v : Option JVal) (r : List JVal) (h : compsJ zero v = .ok r) :
    ∃ l : Dict Str JVal, v = some (.obj l) ∧ (∀ p ∈ l, ∃ f, FileOf p.2 f) ∧
      ∀ P : JVal → Bool, (∀ c f, FileOf c f → (P c = true ↔ ¬ Falsy zero f)) → r = (l.map (·.2)).filter P := by
  unfold compsJ at h
  split at h
  · cases h
  · rename_i l
    obtain ⟨fs, h1, h2⟩ := bind_ok h
    cases h2
    obtain ⟨i1, i2⟩ := items_ok h1
    refine ⟨l, rfl, fun p hp => ?_, fun P hP => ?_⟩
    · have : p.2 ∈ fs.map (·.1) := by rw [i1]; exact List.mem_map.mpr ⟨p, hp, rfl⟩
      obtain ⟨q, hq, he⟩ := List.mem_map.mp this
      exact ⟨q.2, he ▸ i2 q hq⟩
    · rw [← i1, List.filter_map]
      congr 1
      apply List.filter_congr
      intro q hq
      simp only [Function.comp]
      have h3 := hP q.1 q.2 (i2 q hq)
      rw [← C105_truth] at h3
      cases hp : P q.1 <;> cases hq : q.2.truthy zero <;> simp [hp, hq] at h3 ⊢
  · cases h

/-- **C105** (violated) the first component without `file` raises `KeyError`, or `TypeError` if it is no dictionary; components that are no dictionary of
components raise `AttributeError`, and a description without components `KeyError`. -/
theorem C105_component_error (zero : Str → Bool) (v : Option JVal) (x : Err) (h : compsJ zero v = .error x) :
    (v = none ∧ x = .keyError) ∨ (∃ c, v = some c ∧ (∀ d, c ≠ .obj d) ∧ x = .attributeError) ∨
      ∃ (pre : Dict Str JVal) (k : Str) (c : JVal) (post : Dict Str JVal), v = some (.obj (pre ++ (k, c) :: post)) ∧ (∀ p ∈ pre, ∃ f, FileOf p.2 f) ∧
        (∀ f, ¬ FileOf c f) ∧ NoItem c x := by
  unfold compsJ at h
  split at h
  · cases h; exact .inl ⟨rfl, rfl⟩
  · rename_i l
    refine .inr (.inr ?_)
    have key : ∀ l : List (Str × JVal), ∀ x, (l.mapM fun p => (do let f ← p.2.item (str "file"); (.ok (p.2, f) : Except Err (JVal × JVal)))) = .error x →
        ∃ pre k c post, l = pre ++ (k, c) :: post ∧ (∀ p ∈ pre, ∃ f, FileOf p.2 f) ∧ (∀ f, ¬ FileOf c f) ∧ NoItem c x := by
      intro l
      induction l with
      | nil => intro x h; cases h
      | cons p t ih =>
        intro x h
        rw [List.mapM_cons] at h
        cases hp : p.2.item (str "file") with
        | error y =>
          simp only [hp, bind, Except.bind] at h
          cases h
          obtain ⟨g1, g2⟩ := item_error hp
          refine ⟨[], p.1, p.2, t, rfl, by simp, fun f ⟨d, hd, hf⟩ => ?_, g1⟩
          rw [g2 d hd] at hf
          cases hf
        | ok f =>
          simp only [hp, bind, Except.bind] at h
          split at h
          · rename_i e he
            cases h
            obtain ⟨pre, k, c, post, g1, g2, g3, g4⟩ := ih _ he
            refine ⟨p :: pre, k, c, post, by rw [g1]; rfl, fun q hq => ?_, g3, g4⟩
            rcases List.mem_cons.mp hq with rfl | hq
            · exact ⟨f, item_ok hp⟩
            · exact g2 q hq
          · cases h
    simp only [bind, Except.bind] at h
    split at h
    · rename_i e he
      cases h
      obtain ⟨pre, k, c, post, g1, g2⟩ := key l _ he
      exact ⟨pre, k, c, post, by rw [g1], g2⟩
    · cases h
  · rename_i c hc
    cases h
    exact .inr (.inl ⟨c, rfl, hc, rfl⟩)

/-- **C105** a component that matters has paths for `dir` and `file`, and its archive is the file relative to the build directory; otherwise the exception
tells what is missing first: `KeyError` no such key, `TypeError` no string, `ValueError` a file outside of the build directory. -/
theorem C105_component (build : Str) (d : Dict Str JVal) :
    compJ build (.obj d) = match dget d (str "dir"), dget d (str "file") with
      | none, _ => .error .keyError
      | some (.str dir), some (.str file) => (relativeTo file build).map fun rel => (asPosix dir, rel)
      | some (.str _), none => .error .keyError
      | some _, _ => .error .typeError := by
  unfold compJ
  simp only [JVal.item]
  cases h1 : dget d (str "dir") with
  | none => rfl
  | some a =>
    cases a with
    | str s =>
      cases h2 : dget d (str "file") with
      | none => rfl
      | some b =>
        cases b with
        | str f =>
          simp only [getKey, bind, Except.bind, JVal.asStr]
          cases relativeTo f build <;> rfl
        | _ => rfl
    | _ => rfl

/-- Values of every kind occur. -/
example : Falsy (fun _ => false) (.int 0) ∧ ¬ Falsy (fun _ => false) (.arr [.null]) ∧ (compsJ (fun _ => false) (some (.obj
    [(str "a", .obj [(str "file", .str [])]), (str "b", .obj [(str "file", .int 3)])]))).toOption.map List.length = some 1 ∧
    NoItem (.int 3) .typeError :=
  ⟨.int, (fun h => by cases h), by decide +kernel, .type (by intro d h; cases h)⟩

end EspSize
