import Verif.Props.MapErrors
/-! # C32: `validate` for all lists of sections, also with unknown addresses and sizes -/
namespace EspSize

/-- The size is known and not 0. -/
def HasSize (i : PSec) : Prop := ∃ z, i.size = some z ∧ z ≠ 0

instance (i : PSec) : Decidable (HasSize i) :=
  match h : i.size with
  | none => .isFalse fun ⟨z, hz, _⟩ => by rw [h] at hz; cases hz
  | some z => if h0 : z = 0 then .isFalse fun ⟨y, hy, hn⟩ => by rw [h] at hy; cases hy; exact hn h0 else .isTrue ⟨z, h, h0⟩

/-- Bytes of the counted sections, with their padding. -/
def countedSize (l : List PSec) : Int := ((l.filter fun x => decide (HasSize x)).map fun x => x.size.getD 0 + x.fill).sum

/-- A counted section after `pre` starts where the counted ones before it end, counted from `start`. -/
def InPlace (start : Option Int) (pre : List PSec) (i : PSec) : Prop := ∃ s, start = some s ∧ i.address = some (s + countedSize pre)

/-- Every counted section is in its place. -/
def AllInPlace (start : Option Int) (l : List PSec) : Prop := ∀ pre i post, l = pre ++ i :: post → HasSize i → InPlace start pre i

/-- The address of the first input section. -/
def POut.start (o : POut) : Option Int := o.inputs.head?.bind (·.address)

/-- The first section out of its place, with the exception: `TypeError` if an address that is needed is not known. -/
def FirstWrong (start : Option Int) (l : List PSec) (x : Err) : Prop :=
  ∃ pre i post, l = pre ++ i :: post ∧ AllInPlace start pre ∧ HasSize i ∧ ¬ InPlace start pre i ∧
    x = if start = none ∨ i.address = none then .typeError else .mapFile

theorem countedSize_cons (x : PSec) (l : List PSec) :
    countedSize (x :: l) = (if HasSize x then x.size.getD 0 + x.fill else 0) + countedSize l := by
  unfold countedSize
  rw [List.filter_cons]
  by_cases h : HasSize x
  · simp [h]
  · simp [h]

theorem truthy_counted (i : PSec) : truthyInt i.size = decide (HasSize i) := by
  unfold truthyInt
  cases h : i.size with
  | none => simp [HasSize, h]
  | some z => simp [HasSize, h]

/-- The walk from an offset. -/
theorem validateInputs_walk (start : Option Int) (done l : List PSec) (h : AllInPlace start done) :
    (validateInputs start l (countedSize done) = .ok () ∧ AllInPlace start (done ++ l)) ∨
      ∃ x, validateInputs start l (countedSize done) = .error x ∧ FirstWrong start (done ++ l) x := by
  induction l generalizing done with
  | nil => exact .inl ⟨rfl, by simpa using h⟩
  | cons i t ih =>
    have hone : countedSize (done ++ [i]) = countedSize done + if HasSize i then i.size.getD 0 + i.fill else 0 := by
      unfold countedSize
      rw [List.filter_append, List.map_append, List.sum_append, List.filter_cons]
      by_cases h : HasSize i <;> simp [h]
    have hsnoc : (HasSize i → InPlace start done i) → AllInPlace start (done ++ [i]) := by
      intro hi pre j post he hj
      rcases List.eq_nil_or_concat post with hp | ⟨q, y, hq⟩
      · subst hp
        obtain ⟨h1, h2⟩ := List.append_inj' he rfl
        cases h2
        subst h1
        exact hi hj
      · rw [hq] at he
        have he' : done ++ [i] = (pre ++ j :: q) ++ [y] := by simpa using he
        obtain ⟨h1, -⟩ := List.append_inj' he' rfl
        exact h pre j q h1 hj
    have hwrong : ∀ x, HasSize i → ¬ InPlace start done i → (x = if start = none ∨ i.address = none then .typeError else .mapFile) →
        FirstWrong start (done ++ i :: t) x := fun x hc hn hx => ⟨done, i, t, rfl, h, hc, hn, hx⟩
    unfold validateInputs
    rw [truthy_counted]
    by_cases hc : HasSize i
    · simp only [hc, decide_true, Bool.not_true, Bool.false_eq_true, if_false]
      rw [if_pos hc] at hone
      cases hs : start with
      | none =>
        refine .inr ⟨.typeError, rfl, ?_⟩
        rw [← hs]
        exact hwrong _ hc (fun ⟨s, h1, _⟩ => by rw [hs] at h1; cases h1) (by simp [hs])
      | some s =>
        cases ha : i.address with
        | none =>
          refine .inr ⟨.typeError, by cases i.size <;> rfl, ?_⟩
          rw [← hs]
          exact hwrong _ hc (fun ⟨s, _, h2⟩ => by rw [ha] at h2; cases h2) (by simp [ha])
        | some a =>
          obtain ⟨z, hz, hz0⟩ := hc
          rw [hz]
          simp only []
          by_cases hsa : s + countedSize done = a
          · rw [if_neg (by simpa using hsa)]
            have := ih (done ++ [i]) (hsnoc fun _ => ⟨s, hs, by rw [ha, hsa]⟩)
            rw [hone, hz, hs, List.append_assoc] at this
            exact this
          · rw [if_pos hsa]
            refine .inr ⟨.mapFile, rfl, ?_⟩
            rw [← hs]
            refine hwrong _ ⟨z, hz, hz0⟩ (fun ⟨s', h1, h2⟩ => ?_) (by simp [ha, hs])
            rw [hs] at h1
            cases h1
            rw [ha] at h2
            cases h2
            exact hsa rfl
    · simp only [hc, decide_false, Bool.not_false, if_true]
      rw [if_neg hc, Int.add_zero] at hone
      have := ih (done ++ [i]) (hsnoc fun h => absurd h hc)
      rw [hone, List.append_assoc] at this
      exact this

/-- **C32** `validate` for all lists of sections: it returns exactly if in every output section every counted input section is in its place, and
otherwise raises the exception of the first one that is not. -/
theorem C32_validate_all (os : List POut) :
    (validateSections os = .ok () ∧ ∀ o ∈ os, AllInPlace o.start o.inputs) ∨
      ∃ x pre o post, validateSections os = .error x ∧ os = pre ++ o :: post ∧ (∀ p ∈ pre, AllInPlace p.start p.inputs) ∧
        FirstWrong o.start o.inputs x := by
  induction os with
  | nil => exact .inl ⟨rfl, by simp⟩
  | cons o os ih =>
    have hskip : (validateSections (o :: os) = validateSections os ∧ AllInPlace o.start o.inputs) ∨
        ∃ x, validateSections (o :: os) = .error x ∧ FirstWrong o.start o.inputs x := by
      cases hin : o.inputs with
      | nil => exact .inl ⟨by rw [validateSections.eq_def]; simp only [hin], fun pre i post h => by simp at h⟩
      | cons i is =>
        have e : validateSections (o :: os) = (validateInputs i.address (i :: is) 0).bind fun _ => validateSections os := by
          rw [validateSections.eq_def]; simp only [hin]; rfl
        rw [e]
        have hst : o.start = i.address := by simp [POut.start, hin]
        have := validateInputs_walk i.address [] (i :: is) (fun pre j post h => by simp at h)
        rw [show countedSize [] = 0 from rfl, List.nil_append] at this
        rw [hst]
        rcases this with ⟨h1, h2⟩ | ⟨x, h1, h2⟩
        · exact .inl ⟨by rw [h1]; rfl, h2⟩
        · exact .inr ⟨x, by rw [h1]; rfl, h2⟩
    rcases hskip with ⟨h1, h2⟩ | ⟨x, h1, h2⟩
    · rw [h1]
      rcases ih with ⟨h3, h4⟩ | ⟨x, pre, p, post, h3, h4, h5, h6⟩
      · refine .inl ⟨h3, fun p hp => ?_⟩
        rcases List.mem_cons.mp hp with rfl | hp
        · exact h2
        · exact h4 p hp
      · refine .inr ⟨x, o :: pre, p, post, h3, by rw [h4]; rfl, fun q hq => ?_, h6⟩
        rcases List.mem_cons.mp hq with rfl | hq
        · exact h2
        · exact h5 q hq
    · exact .inr ⟨x, [], o, os, h1, rfl, by simp, h2⟩

/-- **C32** (violated) of the sections of a parsed link map file, `validate` raises something else than `MapFileException` only for an output section
whose first input section has no address and whose others have contents. -/
theorem C32_parsed {ls : List Str} {m : MapFile} (h : parseMap ls = .ok m) {x : Err} (hx : validateSections m.sections = .error x) :
    x = .mapFile ∨ x = .typeError ∧ ∃ o ∈ m.sections, o.start = none ∧ ∃ i ∈ o.inputs, HasSize i := by
  rcases C32_validate_all m.sections with ⟨h1, -⟩ | ⟨y, pre, o, post, h1, h2, -, p, i, q, h3, -, h5, -, h7⟩
  · rw [h1] at hx; cases hx
  rw [h1] at hx
  cases hx
  by_cases hc : o.start = none ∨ i.address = none
  · rw [if_pos hc] at h7
    have ho : o ∈ m.sections := by rw [h2]; simp
    refine .inr ⟨h7, o, ho, ?_, i, by rw [h3]; simp, h5⟩
    rcases hc with hc | hc
    · exact hc
    cases p with
    | nil => simp [POut.start, h3, hc]
    | cons y p =>
      obtain ⟨a, _, _, ha, _⟩ := C31_inside h ho h3 (by simp) (fun h0 => by obtain ⟨z, hz, hz0⟩ := h5; rw [h0] at hz; cases hz; exact hz0 rfl)
      rw [hc] at ha
      cases ha
  · rw [if_neg hc] at h7
    exact .inl h7

/-- A section without address alone is accepted. -/
example : (parseMap (okConfig ++ [str "Linker script and memory map", str ".text 0x100 0x10", str " .text.a", str ""])).bind
    (fun m => validateSections m.sections) = .ok () := by decide +kernel

end EspSize
