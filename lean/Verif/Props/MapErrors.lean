import Verif.Model.MapFile
import Verif.Proofs.List
/-! # C30, C31, C32: errors of the parser, invariant of the parsed sections, validation -/
namespace EspSize

/-- The only exceptions are those in `es`. -/
def Raises {α : Type} (es : List Err) (x : Except Err α) : Prop := ∀ e, x = .error e → e ∈ es

theorem Raises.ok {α : Type} {es : List Err} {x : α} : Raises es (.ok x : Except Err α) := by
  intro e h; cases h

theorem Raises.error {α : Type} {es : List Err} {e : Err} (h : e ∈ es) : Raises es (.error e : Except Err α) := by
  intro e' h'; cases h'; exact h

theorem Raises.bind {α β : Type} {es : List Err} {x : Except Err α} {f : α → Except Err β} (hx : Raises es x)
    (hf : ∀ a, x = .ok a → Raises es (f a)) : Raises es (x >>= f) := by
  cases x with
  | error e => intro e' h; exact hx e' (by simpa [Bind.bind, Except.bind] using h)
  | ok a => exact hf a rfl

theorem Raises.mono {α : Type} {es es' : List Err} {x : Except Err α} (h : Raises es x) (hs : es ⊆ es') : Raises es' x :=
  fun e he => hs (h e he)

theorem int0_raises (s : Str) : Raises [.valueError] (int0 s) := by
  unfold int0
  split
  · exact .ok
  · exact .error (by simp)

/-! ### C30 -/

theorem regionLine_raises (l : Str) : Raises [.mapFile, .valueError] (regionLine l) := by
  unfold regionLine
  split
  · exact .ok
  · refine ((int0_raises _).mono (by decide)).bind fun _ _ => ((int0_raises _).mono (by decide)).bind fun _ _ => .ok
  · refine ((int0_raises _).mono (by decide)).bind fun _ _ => ((int0_raises _).mono (by decide)).bind fun _ _ => .ok
  · exact .error (by simp)

theorem regionsLoop_raises (ls : List Str) (f h : Bool) (acc : List Region) : Raises [.mapFile, .valueError] (regionsLoop ls f h acc) := by
  induction ls generalizing f h acc with
  | nil => unfold regionsLoop; exact .ok
  | cons l ls ih =>
    unfold regionsLoop
    split
    · exact .ok
    · split
      · exact ih _ _ _
      · split
        · exact ih _ _ _
        · refine (regionLine_raises l).bind fun r _ => ?_
          split
          · exact ih _ _ _
          · exact ih _ _ _

theorem C30_regions_partial (ls : List Str) : Raises [.mapFile, .valueError] (getMemoryRegions ls) := by
  unfold getMemoryRegions
  refine (regionsLoop_raises ls _ _ _).bind fun ⟨r, b⟩ _ => ?_
  simp only []
  split
  · exact .ok
  · exact .error (by simp)

/-- Exceptions of the section parser. -/
def sectionErrs : List Err := [.mapFile, .valueError, .typeError, .nameError]

theorem addFillRev_raises (v : Option Int) (l : List PSec) : Raises sectionErrs (addFillRev v l) := by
  induction l with
  | nil => exact .ok
  | cons s t ih =>
    unfold addFillRev
    split
    · split
      · exact .ok
      · exact .error (by simp [sectionErrs])
    · exact ih.bind fun _ _ => .ok

theorem addInput_raises (o : POut) (i : PSec) (v : Option Int) : Raises sectionErrs (addInput o i v) := by
  unfold addInput
  split
  · exact .ok
  · split
    · rename_i a oa os _ _ _
      simp only []
      generalize (if a < oa ∨ a ≥ oa + os then { i with size := some 0 } else i) = i'
      split
      · exact (addFillRev_raises _ _).bind fun _ _ => .ok
      · exact .ok
    · exact .error (by simp [sectionErrs])

theorem flush_raises (o : POut) (i : Option PSec) (v : Option Int) : Raises sectionErrs (flush o i v) := by
  unfold flush
  split
  · exact .ok
  · exact addInput_raises _ _ _

theorem int0_raises' (s : Str) : Raises sectionErrs (int0 s) := (int0_raises s).mono (by decide)

theorem newInput_raises (st : PState) (o : POut) (l : Str) : Raises sectionErrs (newInput st o l) := by
  unfold newInput
  refine (flush_raises _ _ _).bind fun o' _ => ?_
  split
  · exact .ok
  · exact (int0_raises' _).bind fun _ _ => (int0_raises' _).bind fun _ _ => .ok
  · exact .error (by simp [sectionErrs])

theorem inputLine_raises (st : PState) (i : PSec) (l : Str) : Raises sectionErrs (inputLine st i l) := by
  unfold inputLine
  split
  · split
    · exact (int0_raises' _).bind fun _ _ => (int0_raises' _).bind fun _ _ => .ok
    · exact .error (by simp [sectionErrs])
  · split
    · split
      · exact (int0_raises' _).bind fun _ _ => (int0_raises' _).bind fun _ _ => .ok
      · exact .error (by simp [sectionErrs])
    · split
      · split
        · split
          · exact (int0_raises' _).bind fun _ _ => .ok
          · exact .ok
        · exact .ok
      · exact .ok

theorem stepLine_raises (st : PState) (l : Str) : Raises sectionErrs (stepLine st l) := by
  unfold stepLine
  split
  · exact .ok
  · split
    · unfold outputLine
      simp only []
      split
      · exact (flush_raises _ _ _).bind fun _ _ => .ok
      · split
        · exact .ok
        · split
          · exact newInput_raises _ _ _
          · split
            · split
              · exact inputLine_raises _ _ _
              · exact .ok
            · exact .ok
    · split
      · unfold newOutput
        split
        · exact .ok
        · exact (int0_raises' _).bind fun _ _ => (int0_raises' _).bind fun _ _ => .ok
        · exact .error (by simp [sectionErrs])
      · exact .ok

theorem sectionsLoop_raises (ls : List Str) (st : PState) : Raises sectionErrs (sectionsLoop ls st) := by
  induction ls generalizing st with
  | nil => exact .ok
  | cons l ls ih =>
    unfold sectionsLoop
    split
    · exact .ok
    · exact (stepLine_raises st l).bind fun _ _ => ih _

theorem C30_sections_partial (ls : List Str) : Raises sectionErrs (getSections ls) := by
  unfold getSections
  refine (sectionsLoop_raises ls _).bind fun r _ => ?_
  split
  · exact .ok
  · exact .error (by simp [sectionErrs])

theorem crtLoop_raises (ls : List Str) (f h : Bool) (s : Option Str) (crt : Crt) : Raises [.indexError] (crtLoop ls f h s crt) := by
  induction ls generalizing f h s crt with
  | nil => unfold crtLoop; exact .ok
  | cons l ls ih =>
    unfold crtLoop
    split
    · exact ih _ _ _ _
    · split
      · exact ih _ _ _ _
      · split
        · exact .ok
        · split
          · split
            · exact ih _ _ _ _
            · exact .error (by simp)
          · split
            · exact ih _ _ _ _
            · exact ih _ _ _ _

/-- C30: for any text the parser returns or raises one of five exceptions.  Partial: besides `MapFileException` there are
`ValueError`, `TypeError`, `NameError` and `IndexError`, each possible by the counterexamples below. -/
theorem C30_errors_partial (ls : List Str) : Raises [.mapFile, .valueError, .typeError, .nameError, .indexError] (parseMap ls) := by
  unfold parseMap
  refine ((C30_regions_partial ls).mono (by decide)).bind fun ⟨r, rest⟩ _ => ?_
  refine ((C30_sections_partial rest).mono (by decide)).bind fun ⟨s, rest'⟩ _ => ?_
  refine Raises.bind (Raises.mono (es := [.indexError]) ?_ (by decide)) fun c _ => .ok
  exact (crtLoop_raises rest' _ _ _ _).bind fun _ _ => .ok

def okConfig : List Str := [str "Memory Configuration", str "Name Origin Length"]

/-- C30 fails: a number that is none gives `ValueError`. -/
theorem C30_value_error : parseMap (okConfig ++ [str "iram zero 0x100", str "Linker script and memory map"]) = .error .valueError := by decide

/-- C30 fails: an input section without address that is followed by another one gives `TypeError`. -/
theorem C30_type_error : parseMap (okConfig ++ [str "Linker script and memory map", str ".text 0x100 0x10", str " .text.a 0x100 0x10 a.o",
    str " .text.b", str " .text.c 0x110 0x4 c.o", str ""]) = .error .typeError := by decide

/-- C30 fails: explicit data after an empty section gives `NameError`, if no `*fill*` was seen before. -/
theorem C30_name_error : parseMap (okConfig ++ [str "Linker script and memory map", str ".text 0x100 0x10", str " .text.a 0x100 0x10 a.o",
    str " .text.b 0x110 0x0 b.o", str " 0x110 0x4 LONG 0x0", str ""]) = .error .nameError := by decide

/-- C30 fails: a symbol of the cross reference table without definition gives `IndexError`. -/
theorem C30_index_error : parseMap (okConfig ++ [str "Linker script and memory map", str "Cross Reference Table", str "Symbol File",
    str "main"]) = .error .indexError := by decide

example : parseMap [str "hello"] = .error .mapFile := by decide

/-! ### C31 -/

/-- What holds for each parsed output section. -/
structure GoodOut (o : POut) : Prop where
  inside : ∀ pre i post, o.inputs = pre ++ i :: post → pre ≠ [] → i.size ≠ some 0 →
    ∃ a oa os, i.address = some a ∧ o.address = some oa ∧ o.size = some os ∧ oa ≤ a ∧ a < oa + os
  once : ∀ pre i j post, o.inputs = pre ++ i :: j :: post → i.address = j.address → i.size = some 0
  filled : ∀ pre i post, o.inputs = pre ++ i :: post → pre ≠ [] → i.size = some 0 → i.fill = 0 ∨
    ∃ j post', post = j :: post' ∧ j.address = i.address

/-- Same sections but for the padding. -/
inductive SameButFill : List PSec → List PSec → Prop
  | nil : SameButFill [] []
  | cons {a b s t} : b.address = a.address → b.size = a.size → (a.size = some 0 → b.fill = a.fill) → SameButFill s t →
      SameButFill (a :: s) (b :: t)

theorem SameButFill.refl (l : List PSec) : SameButFill l l := by
  induction l with
  | nil => exact .nil
  | cons a l ih => exact .cons rfl rfl (fun _ => rfl) ih

theorem SameButFill.append {a b c d : List PSec} (h : SameButFill a b) (h' : SameButFill c d) : SameButFill (a ++ c) (b ++ d) := by
  induction h with
  | nil => exact h'
  | cons h1 h2 h3 _ ih => exact .cons h1 h2 h3 ih

theorem SameButFill.reverse {a b : List PSec} (h : SameButFill a b) : SameButFill a.reverse b.reverse := by
  induction h with
  | nil => exact .nil
  | cons h1 h2 h3 _ ih =>
    rw [List.reverse_cons, List.reverse_cons]
    exact ih.append (.cons h1 h2 h3 .nil)

theorem SameButFill.split {a b pre : List PSec} {i : PSec} {post : List PSec} (h : SameButFill a b) (hb : b = pre ++ i :: post) :
    ∃ pre' i' post', a = pre' ++ i' :: post' ∧ i.address = i'.address ∧ i.size = i'.size ∧ (i'.size = some 0 → i.fill = i'.fill) ∧
      (pre' = [] ↔ pre = []) ∧ SameButFill post' post := by
  induction h generalizing pre with
  | nil => simp at hb
  | @cons x y s t h1 h2 h3 hst ih =>
    cases pre with
    | nil =>
      simp only [List.nil_append, List.cons.injEq] at hb
      obtain ⟨rfl, rfl⟩ := hb
      exact ⟨[], x, s, rfl, h1, h2, h3, Iff.rfl, hst⟩
    | cons z pre =>
      simp only [List.cons_append, List.cons.injEq] at hb
      obtain ⟨rfl, hb⟩ := hb
      obtain ⟨pre', i', post', k1, k2, k3, k4, _, k6⟩ := ih hb
      exact ⟨x :: pre', i', post', by rw [k1]; rfl, k2, k3, k4, by simp, k6⟩

theorem addFillRev_same {v : Option Int} {l l' : List PSec} (h : addFillRev v l = .ok l') : SameButFill l l' := by
  induction l generalizing l' with
  | nil => cases h; exact .nil
  | cons s t ih =>
    unfold addFillRev at h
    split at h
    · rename_i ht
      split at h
      · cases h
        refine .cons rfl rfl (fun h0 => ?_) (.refl _)
        rw [h0] at ht; simp [truthyInt] at ht
      · cases h
    · cases hr : addFillRev v t with
      | error e => rw [hr] at h; cases h
      | ok t' =>
        rw [hr] at h
        cases h
        exact .cons rfl rfl (fun _ => rfl) (ih hr)

theorem GoodOut.of_same {o : POut} {l : List PSec} (h : GoodOut o) (hs : SameButFill o.inputs l) : GoodOut { o with inputs := l } := by
  refine ⟨?_, ?_, ?_⟩
  · intro pre i post hl hp hz
    obtain ⟨pre', i', post', h1, h2, h3, _, h5, _⟩ := hs.split hl
    obtain ⟨a, oa, os, k1, k⟩ := h.inside pre' i' post' h1 (fun e => hp (h5.mp e)) (by rw [← h3]; exact hz)
    exact ⟨a, oa, os, by rw [h2]; exact k1, k⟩
  · intro pre i j post hl ha
    obtain ⟨pre', i', post', h1, h2, h3, _, _, h6⟩ := hs.split hl
    cases h6 with
    | @cons j' _ s t e1 e2 _ _ =>
      rw [h3]
      exact h.once pre' i' j' s h1 (by rw [← h2, ha, e1])
  · intro pre i post hl hp hz
    obtain ⟨pre', i', post', h1, h2, h3, h4, h5, h6⟩ := hs.split hl
    rcases h.filled pre' i' post' h1 (fun e => hp (h5.mp e)) (by rw [← h3]; exact hz) with k | ⟨j, q, rfl, k⟩
    · left; rw [h4 (by rw [← h3]; exact hz), k]
    · cases h6 with
      | @cons _ j' _ t e1 _ _ _ => exact .inr ⟨j', t, rfl, by rw [e1, k, h2]⟩

theorem zeroLast_snoc (l : List PSec) (s : PSec) : zeroLast (l ++ [s]) = l ++ [{ s with size := some 0 }] := by
  unfold zeroLast
  simp

theorem nil_or_snoc {α : Type} (l : List α) : l = [] ∨ ∃ t y, l = t ++ [y] := by
  rcases l.eq_nil_or_concat with h | ⟨t, y, h⟩
  · exact .inl h
  · exact .inr ⟨t, y, by rw [h, List.concat_eq_append]⟩

/-- Last element of a list with two decompositions. -/
theorem split_snoc {α : Type} {l pre post : List α} {x i : α} (h : l ++ [x] = pre ++ i :: post) :
    (post = [] ∧ pre = l ∧ i = x) ∨ ∃ post', post = post' ++ [x] ∧ l = pre ++ i :: post' := by
  rcases nil_or_snoc post with rfl | ⟨post', y, rfl⟩
  · left
    have := List.append_inj' h rfl
    exact ⟨rfl, this.1.symm, by simpa using this.2.symm⟩
  · right
    rw [show pre ++ i :: (post' ++ [y]) = (pre ++ i :: post') ++ [y] by simp] at h
    have := List.append_inj' h rfl
    have hy : x = y := by simpa using this.2
    exact ⟨post', by rw [hy], this.1⟩

theorem GoodOut.snoc {o : POut} (h : GoodOut o) {i : PSec}
    (h1 : o.inputs ≠ [] → i.size ≠ some 0 → ∃ a oa os, i.address = some a ∧ o.address = some oa ∧ o.size = some os ∧ oa ≤ a ∧ a < oa + os)
    (h2 : ∀ s, o.inputs.getLast? = some s → s.address = i.address → s.size = some 0)
    (h3 : o.inputs ≠ [] → i.size = some 0 → i.fill = 0) : GoodOut { o with inputs := o.inputs ++ [i] } := by
  refine ⟨?_, ?_, ?_⟩
  · intro pre x post hl hp hz
    rcases split_snoc hl with ⟨_, rfl, rfl⟩ | ⟨post', _, hl'⟩
    · exact h1 hp hz
    · exact h.inside _ _ _ hl' hp hz
  · intro pre x j post hl ha
    rcases split_snoc hl with ⟨e, _⟩ | ⟨post', hpost, hl'⟩
    · cases e
    · rcases nil_or_snoc post with rfl | ⟨post2, y, rfl⟩
      · have : post' = [] ∧ j = i := by
          have := congrArg List.length hpost
          simp at this
          subst this
          exact ⟨rfl, by simpa using hpost⟩
        obtain ⟨rfl, rfl⟩ := this
        exact h2 x (by rw [hl']; simp) ha
      · have : post' = j :: post2 := by
          rw [show j :: (post2 ++ [y]) = (j :: post2) ++ [y] by simp] at hpost
          exact (List.append_inj' hpost rfl).1.symm
        subst this
        exact h.once _ _ _ _ hl' ha
  · intro pre x post hl hp hz
    rcases split_snoc hl with ⟨_, rfl, rfl⟩ | ⟨post', rfl, hl'⟩
    · exact .inl (h3 hp hz)
    · rcases h.filled _ _ _ hl' hp hz with k | ⟨j, q, rfl, k⟩
      · exact .inl k
      · exact .inr ⟨j, q ++ [i], rfl, k⟩

/-- The last section is emptied because the next one, `i`, is at its address. -/
theorem GoodOut.zero_snoc {o : POut} {l : List PSec} {s : PSec} (h : GoodOut { o with inputs := l ++ [s] }) {i : PSec} (hne : s.address = i.address)
    (h1 : i.size ≠ some 0 → ∃ a oa os, i.address = some a ∧ o.address = some oa ∧ o.size = some os ∧ oa ≤ a ∧ a < oa + os)
    (h3 : i.size = some 0 → i.fill = 0) : GoodOut { o with inputs := (l ++ [{ s with size := some 0 }]) ++ [i] } := by
  refine ⟨?_, ?_, ?_⟩
  · intro pre x post hl hp hz
    rcases split_snoc hl with ⟨_, _, rfl⟩ | ⟨post', _, hl1⟩
    · exact h1 hz
    · rcases split_snoc hl1 with ⟨_, _, rfl⟩ | ⟨post2, _, hl2⟩
      · exact absurd rfl hz
      · exact h.inside pre x (post2 ++ [s]) (by simp [hl2]) hp hz
  · intro pre x j post hl ha
    rcases split_snoc hl with ⟨e, _⟩ | ⟨post', hpost, hl'⟩
    · cases e
    · rcases split_snoc hl' with ⟨_, _, rfl⟩ | ⟨post2, hp2, hl2⟩
      · rfl
      · cases post2 with
        | nil =>
          subst hp2
          have hj : j = { s with size := some 0 } := by
            cases post with
            | nil => simp at hpost
            | cons y q => exact (List.cons.inj hpost).1
          refine h.once pre x s [] (by simp [hl2]) ?_
          rw [ha, hj]
        | cons y post2 =>
          subst hp2
          have : j = y := by
            simp only [List.cons_append, List.cons.injEq] at hpost
            exact hpost.1
          subst this
          exact h.once pre x j (post2 ++ [s]) (by simp [hl2]) ha
  · intro pre x post hl hp hz
    rcases split_snoc hl with ⟨_, _, rfl⟩ | ⟨post', rfl, hl1⟩
    · exact .inl (h3 hz)
    · rcases split_snoc hl1 with ⟨rfl, _, rfl⟩ | ⟨post2, rfl, hl2⟩
      · exact .inr ⟨i, [], rfl, hne.symm⟩
      · rcases h.filled pre x (post2 ++ [s]) (by simp [hl2]) hp hz with k | ⟨j, q, hq, k⟩
        · exact .inl k
        · cases post2 with
          | nil =>
            simp only [List.nil_append, List.cons.injEq] at hq
            obtain ⟨rfl, rfl⟩ := hq
            exact .inr ⟨_, [i], rfl, k⟩
          | cons y post2 =>
            simp only [List.cons_append, List.cons.injEq] at hq
            obtain ⟨rfl, rfl⟩ := hq
            exact .inr ⟨_, _, rfl, k⟩

theorem addInput_good {o o' : POut} {i : PSec} {v : Option Int} (h : GoodOut o) (he : addInput o i v = .ok o') : GoodOut o' := by
  unfold addInput at he
  cases hl : o.inputs.getLast? with
  | none =>
    rw [hl] at he
    simp only [Except.ok.injEq] at he
    have hnil : o.inputs = [] := List.getLast?_eq_none_iff.mp hl
    subst he
    have := h.snoc (i := i) (fun hh => absurd hnil hh) (fun s hs => by rw [hl] at hs; cases hs) (fun hh => absurd hnil hh)
    rw [hnil] at this
    exact this
  | some last =>
    rw [hl] at he
    obtain ⟨pre, hpre⟩ : ∃ pre, o.inputs = pre ++ [last] := List.getLast?_eq_some_iff.mp hl
    have hne : o.inputs ≠ [] := by rw [hpre]; simp
    simp only [] at he
    split at he
    · rename_i a oa os ha hoa hos
      -- the new section after the range check
      generalize hi' : (if a < oa ∨ a ≥ oa + os then { i with size := some 0 } else i) = i' at he
      have hia' : i'.address = some a := by rw [← hi']; split <;> exact ha
      have hin : i'.size ≠ some 0 → ∃ a oa os, i'.address = some a ∧ o.address = some oa ∧ o.size = some os ∧ oa ≤ a ∧ a < oa + os := by
        intro hz
        refine ⟨a, oa, os, hia', hoa, hos, ?_⟩
        rw [← hi'] at hz
        split at hz
        · exact absurd rfl hz
        · omega
      have hfin : ∀ (l : List PSec) (x : PSec), x.address = i'.address → x.size = i'.size → (i'.size = some 0 → x.fill = 0) →
          SameButFill (if last.address = i'.address then zeroLast o.inputs else o.inputs) l → GoodOut { o with inputs := l ++ [x] } := by
        intro l x hxa hxs hxf hsame
        have hbase : GoodOut { o with inputs := (if last.address = i'.address then zeroLast o.inputs else o.inputs) ++ [x] } := by
          split
          · rename_i hsm
            rw [hpre, zeroLast_snoc]
            refine GoodOut.zero_snoc (o := o) (by rw [← hpre]; exact h) (by rw [hxa]; exact hsm) ?_ ?_
            · intro hz; rw [hxa]; exact hin (by rw [← hxs]; exact hz)
            · intro hz; exact hxf (by rw [← hxs]; exact hz)
          · rename_i hsm
            refine h.snoc (fun _ hz => by rw [hxa]; exact hin (by rw [← hxs]; exact hz)) ?_ (fun _ hz => hxf (by rw [← hxs]; exact hz))
            intro s hs hsa
            rw [hl] at hs
            cases hs
            exact absurd (by rw [hsa, hxa]) hsm
        exact hbase.of_same (hsame.append (.cons rfl rfl (fun _ => rfl) .nil))
      split at he
      · rename_i hcond
        cases hr : addFillRev v (if last.address = i'.address then zeroLast o.inputs else o.inputs).reverse with
        | error e => rw [hr] at he; cases he
        | ok l =>
          rw [hr] at he
          cases he
          have hs := (addFillRev_same hr).reverse
          rw [List.reverse_reverse] at hs
          exact hfin _ _ rfl rfl (fun _ => rfl) hs
      · rename_i hcond
        cases he
        refine hfin _ _ rfl rfl (fun hz => ?_) (.refl _)
        rw [hz] at hcond
        simpa [truthyInt] using hcond
    · cases he

theorem flush_good {o o' : POut} {i : Option PSec} {v : Option Int} (h : GoodOut o) (he : flush o i v = .ok o') : GoodOut o' := by
  unfold flush at he
  split at he
  · cases he; exact h
  · exact addInput_good h he

/-- State of the parser. -/
def GoodState (st : PState) : Prop := (∀ o ∈ st.done, GoodOut o) ∧ ∀ o, st.osec = some o → GoodOut o ∧ (o.address = none → o.inputs = [])

theorem addInput_address {o o' : POut} {i : PSec} {v : Option Int} (he : addInput o i v = .ok o') : o'.address = o.address := by
  unfold addInput at he
  split at he
  · cases he; rfl
  · rename_i last _
    split at he
    · rename_i a oa os _ _ _
      simp only [] at he
      generalize (if a < oa ∨ a ≥ oa + os then { i with size := some 0 } else i) = i' at he
      split at he
      · cases hr : addFillRev v (if last.address = i'.address then zeroLast o.inputs else o.inputs).reverse with
        | error e => rw [hr] at he; cases he
        | ok l => rw [hr] at he; cases he; rfl
      · cases he; rfl
    · cases he

theorem flush_address {o o' : POut} {i : Option PSec} {v : Option Int} (he : flush o i v = .ok o') : o'.address = o.address := by
  unfold flush at he
  split at he
  · cases he; rfl
  · exact addInput_address he

theorem goodOut_nil (n : Str) (a s : Option Int) : GoodOut ⟨n, a, s, []⟩ := by
  refine ⟨?_, ?_, ?_⟩
  · intro pre i post h; simp at h
  · intro pre i j post h; simp at h
  · intro pre i post h; simp at h

theorem bind_ok {α β : Type} {x : Except Err α} {f : α → Except Err β} {b : β} (h : (x >>= f) = .ok b) : ∃ a, x = .ok a ∧ f a = .ok b := by
  cases x with
  | error e => cases h
  | ok a => exact ⟨a, rfl, h⟩

theorem newInput_good {st st' : PState} {o : POut} {l : Str} (h : GoodState st) (ho : st.osec = some o) (hoa : o.address ≠ none)
    (he : newInput st o l = .ok st') : GoodState st' := by
  obtain ⟨h1, h2⟩ := h
  unfold newInput at he
  obtain ⟨o', hfl, he⟩ := bind_ok he
  have hg := flush_good (h2 o ho).1 hfl
  have ha := flush_address hfl
  have key : ∀ st'', st''.done = st.done → st''.osec = some o' → GoodState st'' := by
    intro st'' e1 e2
    refine ⟨by rw [e1]; exact h1, fun x hx => ?_⟩
    rw [e2] at hx; cases hx
    exact ⟨hg, fun hn => absurd (ha ▸ hn) hoa⟩
  split at he
  · cases he; exact key _ rfl rfl
  · obtain ⟨_, _, he⟩ := bind_ok he
    obtain ⟨_, _, he⟩ := bind_ok he
    cases he; exact key _ rfl rfl
  · cases he

theorem inputLine_keeps {st st' : PState} {i : PSec} {l : Str} (he : inputLine st i l = .ok st') :
    st'.done = st.done ∧ st'.osec = st.osec := by
  unfold inputLine at he
  split at he
  · split at he
    · obtain ⟨_, _, he⟩ := bind_ok he
      obtain ⟨_, _, he⟩ := bind_ok he
      cases he; exact ⟨rfl, rfl⟩
    · cases he
  · split at he
    · split at he
      · obtain ⟨_, _, he⟩ := bind_ok he
        obtain ⟨_, _, he⟩ := bind_ok he
        cases he; exact ⟨rfl, rfl⟩
      · cases he
    · split at he
      · split at he
        · split at he
          · obtain ⟨_, _, he⟩ := bind_ok he
            cases he; exact ⟨rfl, rfl⟩
          · cases he; exact ⟨rfl, rfl⟩
        · cases he; exact ⟨rfl, rfl⟩
      · cases he; exact ⟨rfl, rfl⟩

theorem stepLine_good {st st' : PState} {l : Str} (h : GoodState st) (he : stepLine st l = .ok st') : GoodState st' := by
  have h1 := h.1
  have h2 := h.2
  unfold stepLine at he
  split at he
  · cases he; exact ⟨h1, h2⟩
  · cases ho : st.osec with
    | some o =>
      rw [ho] at he
      simp only [] at he
      unfold outputLine at he
      simp only [] at he
      split at he
      · obtain ⟨o', hfl, he⟩ := bind_ok he
        cases he
        refine ⟨fun x hx => ?_, fun x hx => by cases hx⟩
        rcases List.mem_append.mp hx with hx | hx
        · exact h1 x hx
        · have : x = o' := by simpa using hx
          subst this
          exact flush_good (h2 o ho).1 hfl
      · split at he
        · rename_i hoa
          cases he
          have hnil := (h2 o ho).2 hoa
          have key : ∀ (a s : Option Int), GoodOut { o with address := a, size := s } := by
            intro a s
            have := goodOut_nil o.name a s
            rw [← hnil] at this; exact this
          unfold outputCont
          split
          · split
            · refine ⟨h1, fun x hx => ?_⟩
              cases hx
              exact ⟨key _ _, fun hn => by cases hn⟩
            · refine ⟨h1, fun x hx => ?_⟩
              cases hx
              exact ⟨key _ _, fun hn => by cases hn⟩
          · refine ⟨h1, fun x hx => ?_⟩
            cases hx
            exact ⟨key _ _, fun hn => by cases hn⟩
        · rename_i hoa
          split at he
          · exact newInput_good h ho hoa he
          · split at he
            · split at he
              · obtain ⟨e1, e2⟩ := inputLine_keeps he
                refine ⟨by rw [e1]; exact h1, fun x hx => h2 x (by rw [← e2]; exact hx)⟩
              · cases he; exact h
            · cases he; exact h
    | none =>
      rw [ho] at he
      simp only [] at he
      split at he
      · unfold newOutput at he
        split at he
        · cases he
          refine ⟨h1, fun x hx => ?_⟩
          cases hx; exact ⟨goodOut_nil _ _ _, fun _ => rfl⟩
        · obtain ⟨_, _, he⟩ := bind_ok he
          obtain ⟨_, _, he⟩ := bind_ok he
          cases he
          refine ⟨h1, fun x hx => ?_⟩
          cases hx; exact ⟨goodOut_nil _ _ _, fun _ => rfl⟩
        · cases he
      · cases he; exact h

theorem sectionsLoop_good {ls : List Str} {st st' : PState} (h : GoodState st) (he : sectionsLoop ls st = .ok st') : GoodState st' := by
  induction ls generalizing st with
  | nil => cases he; exact h
  | cons l ls ih =>
    unfold sectionsLoop at he
    split at he
    · cases he; exact h
    · obtain ⟨st1, h1, he⟩ := bind_ok he
      exact ih (stepLine_good h h1) he

theorem getSections_good {ls rest : List Str} {os : List POut} (h : getSections ls = .ok (os, rest)) : ∀ o ∈ os, GoodOut o := by
  unfold getSections at h
  obtain ⟨st, h1, h⟩ := bind_ok h
  split at h
  · cases h
    exact (sectionsLoop_good (st := {}) ⟨fun o ho => (by cases ho), fun o ho => (by cases ho)⟩ h1).1
  · cases h

theorem parseMap_sections {ls : List Str} {m : MapFile} (h : parseMap ls = .ok m) : ∀ o ∈ m.sections, GoodOut o := by
  unfold parseMap at h
  obtain ⟨⟨r, rest⟩, _, h⟩ := bind_ok h
  obtain ⟨⟨s, rest'⟩, hs, h⟩ := bind_ok h
  obtain ⟨c, _, h⟩ := bind_ok h
  cases h
  exact getSections_good hs

/-- C31: in every map file that is parsed, every section but the first of an output section that has contents starts in the
output section. -/
theorem C31_inside {ls : List Str} {m : MapFile} (h : parseMap ls = .ok m) {o : POut} (ho : o ∈ m.sections) {pre post : List PSec} {i : PSec}
    (hi : o.inputs = pre ++ i :: post) (hp : pre ≠ []) (hz : i.size ≠ some 0) :
    ∃ a oa os, i.address = some a ∧ o.address = some oa ∧ o.size = some os ∧ oa ≤ a ∧ a < oa + os :=
  (parseMap_sections h o ho).inside pre i post hi hp hz

/-- C31: of two consecutive sections at the same address the first is not counted. -/
theorem C31_once {ls : List Str} {m : MapFile} (h : parseMap ls = .ok m) {o : POut} (ho : o ∈ m.sections) {pre post : List PSec} {i j : PSec}
    (hi : o.inputs = pre ++ i :: j :: post) (ha : i.address = j.address) : i.size = some 0 :=
  (parseMap_sections h o ho).once pre i j post hi ha

/-- C31: a section without contents has no padding, but for the first one and for one with the same address as the next. -/
theorem C31_padding {ls : List Str} {m : MapFile} (h : parseMap ls = .ok m) {o : POut} (ho : o ∈ m.sections) {pre post : List PSec} {i : PSec}
    (hi : o.inputs = pre ++ i :: post) (hp : pre ≠ []) (hz : i.size = some 0) :
    i.fill = 0 ∨ ∃ j post', post = j :: post' ∧ j.address = i.address :=
  (parseMap_sections h o ho).filled pre i post hi hp hz

/-! ### C32 -/

/-- Every section with contents starts where the ones with contents before it end, counted from `start`. -/
def Contiguous (start : Int) (is : List PSec) : Prop :=
  ∀ pre i post, is = pre ++ i :: post → i.size ≠ some 0 → i.address =
    some (start + ((pre.filter fun x => decide (x.size ≠ some 0)).map fun x => x.size.getD 0 + x.fill).sum)

/-- All addresses and sizes are known. -/
def Known (o : POut) : Prop := ∀ i ∈ o.inputs, i.address ≠ none ∧ i.size ≠ none

theorem validateInputs_iff (s : Int) (is : List PSec) (k : Int) (hk : ∀ i ∈ is, i.address ≠ none ∧ i.size ≠ none) :
    (validateInputs (some s) is k = .ok () ↔ Contiguous (s + k) is) ∧
      (validateInputs (some s) is k = .ok () ∨ validateInputs (some s) is k = .error .mapFile) := by
  induction is generalizing k with
  | nil =>
    refine ⟨⟨fun _ => ?_, fun _ => rfl⟩, .inl rfl⟩
    intro pre i post h; simp at h
  | cons x is ih =>
    replace ih := fun k => ih k fun i hi => hk i (by simp [hi])
    obtain ⟨ha, hz⟩ := hk x (by simp)
    obtain ⟨a, ha⟩ := Option.ne_none_iff_exists'.mp ha
    obtain ⟨z, hz⟩ := Option.ne_none_iff_exists'.mp hz
    rw [validateInputs.eq_def]
    simp only []
    by_cases h0 : z = 0
    · rw [if_pos (by simp [truthyInt, hz, h0])]
      refine ⟨(ih k).1.trans ⟨?_, ?_⟩, (ih k).2⟩
      · intro h pre i post he hi
        cases pre with
        | nil =>
          simp only [List.nil_append, List.cons.injEq] at he
          rw [← he.1, hz, h0] at hi; exact absurd rfl hi
        | cons y pre =>
          simp only [List.cons_append, List.cons.injEq] at he
          have := h pre i post he.2 hi
          rw [← he.1]
          simpa [hz, h0] using this
      · intro h pre i post he hi
        have := h (x :: pre) i post (by rw [he]; rfl) hi
        simpa [hz, h0] using this
    · rw [if_neg (by simp [truthyInt, hz, h0]), ha, hz]
      simp only []
      by_cases hsa : s + k ≠ a
      · rw [if_pos hsa]
        refine ⟨⟨fun h => (by cases h), fun h => ?_⟩, .inr rfl⟩
        have := h [] x is rfl (by rw [hz]; simpa using h0)
        rw [ha] at this
        simp at this
        exact absurd this.symm hsa
      · rw [if_neg hsa]
        have hsa : s + k = a := Decidable.not_not.mp hsa
        refine ⟨(ih _).1.trans ⟨?_, ?_⟩, (ih _).2⟩
        · intro h pre i post he hi
          cases pre with
          | nil =>
            simp only [List.nil_append, List.cons.injEq] at he
            rw [← he.1, ha, ← hsa]; simp
          | cons y pre =>
            simp only [List.cons_append, List.cons.injEq] at he
            have := h pre i post he.2 hi
            rw [← he.1]
            rw [this]
            simp [hz, h0]
            omega
        · intro h pre i post he hi
          have := h (x :: pre) i post (by rw [he]; rfl) hi
          rw [this]
          simp [hz, h0]
          omega

/-- C32: `validate` accepts exactly the maps in which every section with contents starts where the ones before it end; all others
are rejected with `MapFileException`. -/
theorem C32_validate (os : List POut) (hk : ∀ o ∈ os, Known o) :
    (validateSections os = .ok () ↔ ∀ o ∈ os, ∀ i is a, o.inputs = i :: is → i.address = some a → Contiguous a o.inputs) ∧
      (validateSections os = .ok () ∨ validateSections os = .error .mapFile) := by
  induction os with
  | nil => exact ⟨⟨fun _ o ho => (by cases ho), fun _ => rfl⟩, .inl rfl⟩
  | cons o os ih =>
    replace ih := ih fun x hx => hk x (by simp [hx])
    have hko := hk o (by simp)
    unfold validateSections
    cases hin : o.inputs with
    | nil =>
      simp only []
      refine ⟨ih.1.trans ⟨fun h x hx => ?_, fun h x hx => h x (by simp [hx])⟩, ih.2⟩
      rcases List.mem_cons.mp hx with rfl | hx
      · intro i is a h; rw [hin] at h; cases h
      · exact h x hx
    | cons i is =>
      simp only []
      obtain ⟨a, ha⟩ := Option.ne_none_iff_exists'.mp (hko i (by rw [hin]; simp)).1
      have hv := validateInputs_iff a (i :: is) 0 (by rw [← hin]; exact hko)
      rw [Int.add_zero] at hv
      rw [ha]
      rcases hv.2 with he | he
      · rw [he]
        show ((validateSections os = .ok () ↔ _) ∧ (validateSections os = .ok () ∨ validateSections os = .error .mapFile))
        refine ⟨ih.1.trans ⟨fun h x hx => ?_, fun h x hx => h x (by simp [hx])⟩, ih.2⟩
        rcases List.mem_cons.mp hx with rfl | hx
        · intro i' is' a' h ha'
          rw [hin] at h
          cases h
          rw [ha] at ha'; cases ha'
          rw [hin]; exact hv.1.mp he
        · exact h x hx
      · rw [he]
        refine ⟨⟨fun h => (by cases h), fun h => ?_⟩, .inr rfl⟩
        have := hv.1.mpr (by rw [← hin]; exact h o (by simp) i is a hin ha)
        rw [this] at he; cases he

/-- C32: an accepted output section counts no byte twice: sections with contents, with their padding, are disjoint and in order. -/
theorem C32_disjoint {a : Int} {is : List PSec} (h : Contiguous a is) (hn : ∀ i ∈ is, 0 ≤ i.size.getD 0 ∧ 0 ≤ i.fill)
    {pre mid post : List PSec} {i j : PSec} (he : is = pre ++ i :: (mid ++ j :: post)) (hi : i.size ≠ some 0) (hj : j.size ≠ some 0) :
    ∃ x y, i.address = some x ∧ j.address = some y ∧ x + i.size.getD 0 + i.fill ≤ y := by
  have h1 := h pre i _ he hi
  have h2 := h (pre ++ i :: mid) j post (by rw [he]; simp) hj
  refine ⟨_, _, h1, h2, ?_⟩
  rw [List.filter_append, List.filter_cons, if_pos (by simpa using hi)]
  simp only [List.map_append, List.map_cons, List.sum_append, List.sum_cons]
  have hm : 0 ≤ ((mid.filter fun x => decide (x.size ≠ some 0)).map fun x => x.size.getD 0 + x.fill).sum := by
    have hmem : ∀ x ∈ mid.filter fun x => decide (x.size ≠ some 0), 0 ≤ x.size.getD 0 + x.fill := by
      intro x hx
      have := hn x (by rw [he]; simp [(List.mem_filter.mp hx).1])
      omega
    generalize mid.filter _ = l at hmem
    induction l with
    | nil => simp
    | cons x l ih =>
      have k1 := hmem x (by simp)
      have k2 := ih fun y hy => hmem y (by simp [hy])
      simp only [List.map_cons, List.sum_cons]; omega
  omega

example : Contiguous 0x100 [⟨str ".a", some 0x100, some 14, 2, [], []⟩, ⟨str ".z", some 0x105, some 0, 0, [], []⟩, ⟨str ".b", some 0x110, some 4, 0, [], []⟩] := by
  have := (validateInputs_iff 0x100 [⟨str ".a", some 0x100, some 14, 2, [], []⟩, ⟨str ".z", some 0x105, some 0, 0, [], []⟩,
    ⟨str ".b", some 0x110, some 4, 0, [], []⟩] 0 (by decide)).1.mp (by decide)
  simpa using this

example : validateSections [⟨str ".t", some 0, some 9, [⟨str ".a", some 0, some 4, 0, [], []⟩, ⟨str ".b", some 2, some 4, 0, [], []⟩]⟩] = .error .mapFile := by
  decide

/-- Without known addresses `validate` may fail with `TypeError`: the first input section was printed without address. -/
theorem C32_type_error : (do
    let (os, _) ← getSections [linkerScript, str ".text 0x100 0x10", str " .text.a", str " .text.b 0x100 0x10 b.o", str ""]
    validateSections os) = .error .typeError := by decide

end EspSize
