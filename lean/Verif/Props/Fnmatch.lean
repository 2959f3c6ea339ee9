import Verif.Spec.Fnmatch
import Verif.Py.Fnmatch
import Verif.Model.Deps
import Verif.Proofs.Dict
/-! # C38: the filter -/
namespace EspSize

/-- The character belongs to one of the ranges. -/
def InSpans (spans : List Span) (c : Char) : Prop := ∃ s ∈ spans, s.lo ≤ c ∧ c ≤ s.hi

/-- The name is matched by the sequence of pattern elements. -/
inductive TokMatches : List Tok → Str → Prop
  | nil : TokMatches [] []
  | lit (c : Char) {ts s} : TokMatches ts s → TokMatches (.lit c :: ts) (c :: s)
  | any (c : Char) {ts s} : TokMatches ts s → TokMatches (.any :: ts) (c :: s)
  | member {spans c ts s} : InSpans spans c → TokMatches ts s → TokMatches (.set false spans :: ts) (c :: s)
  | other {spans c ts s} : ¬ InSpans spans c → TokMatches ts s → TokMatches (.set true spans :: ts) (c :: s)
  | star (u : Str) {ts s} : TokMatches ts s → TokMatches (.star :: ts) (u ++ s)

theorem set_accepts {neg : Bool} {spans : List Span} {c : Char} :
    (Tok.set neg spans).accepts c = true ↔ (if neg then ¬ InSpans spans c else InSpans spans c) := by
  have h : (spans.any fun s => decide (s.lo ≤ c ∧ c ≤ s.hi)) = true ↔ InSpans spans c := by
    simp [InSpans, List.any_eq_true]
  simp only [Tok.accepts]
  rw [← h]
  cases neg <;> cases (spans.any fun s => decide (s.lo ≤ c ∧ c ≤ s.hi)) <;> decide

theorem tokMatch_iff (ts : List Tok) (s : Str) : tokMatch ts s = true ↔ TokMatches ts s := by
  induction ts generalizing s with
  | nil =>
    cases s with
    | nil => simp only [tokMatch, List.isEmpty_nil, true_iff]; exact .nil
    | cons c s =>
      simp only [tokMatch, List.isEmpty_cons, Bool.false_eq_true, false_iff]
      intro h; cases h
  | cons t ts ih =>
    cases t with
    | star =>
      induction s with
      | nil =>
        rw [tokMatch, ih]
        constructor
        · intro h; exact TokMatches.star [] h
        · intro h
          generalize hz : ([] : Str) = z at h
          cases h with
          | star u h =>
            obtain ⟨rfl, rfl⟩ := List.append_eq_nil_iff.mp hz.symm
            exact h
      | cons c s ihs =>
        rw [tokMatch, Bool.or_eq_true, ih, ihs]
        constructor
        · rintro (h | h)
          · exact TokMatches.star [] h
          · generalize hz : Tok.star :: ts = z at h
            cases h with
            | star u h => cases hz; exact TokMatches.star (c :: u) h
            | _ => cases hz
        · intro h
          generalize hz : c :: s = z at h
          cases h with
          | star u h =>
            cases u with
            | nil => exact Or.inl h
            | cons x u =>
              simp only [List.cons_append, List.cons.injEq] at hz
              obtain ⟨_, rfl⟩ := hz
              exact Or.inr (TokMatches.star u h)
    | lit d =>
      cases s with
      | nil => simp only [tokMatch, Bool.false_eq_true, false_iff]; intro h; cases h
      | cons c s =>
        rw [tokMatch, Bool.and_eq_true, ih]
        · simp only [Tok.accepts, decide_eq_true_eq]
          constructor
          · rintro ⟨rfl, h⟩; exact .lit _ h
          · intro h; cases h; exact ⟨rfl, ‹_›⟩
        · intro h; cases h
    | any =>
      cases s with
      | nil => simp only [tokMatch, Bool.false_eq_true, false_iff]; intro h; cases h
      | cons c s =>
        rw [tokMatch, Bool.and_eq_true, ih]
        · simp only [Tok.accepts, true_and]
          constructor
          · intro h; exact .any _ h
          · intro h; cases h; assumption
        · intro h; cases h
    | set neg spans =>
      cases s with
      | nil => simp only [tokMatch, Bool.false_eq_true, false_iff]; intro h; cases h
      | cons c s =>
        rw [tokMatch, Bool.and_eq_true, ih, set_accepts]
        · cases neg
          · simp only [Bool.false_eq_true, if_false]
            constructor
            · rintro ⟨h1, h⟩; exact .member h1 h
            · intro h; cases h; exact ⟨‹_›, ‹_›⟩
          · simp only [if_true]
            constructor
            · rintro ⟨h1, h⟩; exact .other h1 h
            · intro h; cases h; exact ⟨‹_›, ‹_›⟩
        · intro h; cases h

theorem tokMatches_append {a b : List Tok} {s : Str} :
    TokMatches (a ++ b) s ↔ ∃ u v, s = u ++ v ∧ TokMatches a u ∧ TokMatches b v := by
  induction a generalizing s with
  | nil =>
    constructor
    · intro h; exact ⟨[], s, rfl, .nil, h⟩
    · rintro ⟨u, v, rfl, hu, hv⟩; cases hu; exact hv
  | cons t a ih =>
    constructor
    · intro h
      rw [List.cons_append] at h
      cases h with
      | lit c h => obtain ⟨u, v, rfl, hu, hv⟩ := ih.mp h; exact ⟨c :: u, v, rfl, .lit c hu, hv⟩
      | any c h => obtain ⟨u, v, rfl, hu, hv⟩ := ih.mp h; exact ⟨c :: u, v, rfl, .any c hu, hv⟩
      | member hc h => obtain ⟨u, v, rfl, hu, hv⟩ := ih.mp h; exact ⟨_ :: u, v, rfl, .member hc hu, hv⟩
      | other hc h => obtain ⟨u, v, rfl, hu, hv⟩ := ih.mp h; exact ⟨_ :: u, v, rfl, .other hc hu, hv⟩
      | star w h =>
        obtain ⟨u, v, rfl, hu, hv⟩ := ih.mp h
        exact ⟨w ++ u, v, by rw [List.append_assoc], .star w hu, hv⟩
    · rintro ⟨u, v, rfl, hu, hv⟩
      cases hu with
      | lit c h => exact .lit c (ih.mpr ⟨_, _, rfl, h, hv⟩)
      | any c h => exact .any c (ih.mpr ⟨_, _, rfl, h, hv⟩)
      | member hc h => exact .member hc (ih.mpr ⟨_, _, rfl, h, hv⟩)
      | other hc h => exact .other hc (ih.mpr ⟨_, _, rfl, h, hv⟩)
      | star w h => rw [List.append_assoc]; exact .star w (ih.mpr ⟨_, _, rfl, h, hv⟩)

theorem tokMatches_star {ts : List Tok} {s : Str} :
    TokMatches (.star :: ts) s ↔ ∃ u v, s = u ++ v ∧ TokMatches ts v := by
  constructor
  · intro h; cases h with
    | star u h => exact ⟨u, _, rfl, h⟩
  · rintro ⟨u, v, rfl, h⟩; exact .star u h

theorem cutClose_snoc (f s : Str) :
    cutClose f (s ++ ['*']) = (cutClose f s).map fun p => (p.1, p.2 ++ ['*']) := by
  induction s generalizing f with
  | nil => simp [cutClose]
  | cons c s ih =>
    by_cases hc : c = ']'
    · subst hc; simp [cutClose]
    · have e1 : ∀ s, cutClose f (c :: s) = cutClose (f ++ [c]) s := by
        intro s
        have : decide (c ≠ ']') = true := by simp [hc]
        simp only [cutClose, List.dropWhile_cons, List.takeWhile_cons, this, if_true, List.append_assoc,
          List.singleton_append]
      rw [List.cons_append, e1, e1, ih]

theorem cutSeq_snoc (s : Str) : cutSeq (s ++ ['*']) = (cutSeq s).map fun p => (p.1, p.2 ++ ['*']) := by
  cases s with
  | nil => decide
  | cons c s =>
    by_cases hc : c = ']'
    · subst hc; simp only [List.cons_append, cutSeq]; exact cutClose_snoc _ _
    · have : ∀ s, cutSeq (c :: s) = cutClose [] (c :: s) := by
        intro s; unfold cutSeq; split
        · rename_i h; cases h; exact absurd rfl hc
        · rfl
      rw [List.cons_append, this, this, ← List.cons_append]
      exact cutClose_snoc _ _

theorem cutBracket_snoc (s : Str) :
    cutBracket (s ++ ['*']) = (cutBracket s).map fun p => (p.1, p.2.1, p.2.2 ++ ['*']) := by
  cases s with
  | nil => decide
  | cons c s =>
    by_cases hc : c = '!'
    · subst hc
      simp only [List.cons_append, cutBracket, cutSeq_snoc, Option.map_map]
      rfl
    · have : ∀ s, cutBracket (c :: s) = (cutSeq (c :: s)).map fun p => (false, p) := by
        intro s; unfold cutBracket; split
        · rename_i h; cases h; exact absurd rfl hc
        · rfl
      rw [List.cons_append, this, this, ← List.cons_append, cutSeq_snoc]
      simp only [Option.map_map]
      rfl

theorem compile_lit {c : Char} {t : Str} (h1 : c ≠ '*') (h2 : c ≠ '?') (h3 : c ≠ '[') :
    compile (c :: t) = .lit c :: compile t := by
  rw [compile]
  · exact h1
  · exact h2
  · exact h3

theorem compile_snoc (p : Str) : compile (p ++ ['*']) = compile p ++ [.star] := by
  induction hn : p.length using Nat.strongRecOn generalizing p with
  | _ n ih =>
    cases p with
    | nil => simp [compile]
    | cons c t =>
      have iht : compile (t ++ ['*']) = compile t ++ [.star] := ih t.length (by simp at hn; omega) t rfl
      rw [List.cons_append]
      by_cases h1 : c = '*'
      · subst h1; rw [compile, compile, iht]; rfl
      by_cases h2 : c = '?'
      · subst h2; rw [compile, compile, iht]; rfl
      by_cases h3 : c = '['
      · subst h3
        rw [compile, compile]
        have hs := cutBracket_snoc t
        split
        · rename_i hx
          rw [hx] at hs
          have hy : cutBracket t = none := by
            cases hy : cutBracket t with
            | none => rfl
            | some z => rw [hy] at hs; cases hs
          split
          · rw [iht]; rfl
          · rename_i hz; rw [hy] at hz; cases hz
        · rename_i neg x r hx
          rw [hx] at hs
          split
          · rename_i hy; rw [hy] at hs; cases hs
          · rename_i neg' x' r' hy
            rw [hy] at hs
            simp only [Option.map_some, Option.some.injEq, Prod.mk.injEq] at hs
            obtain ⟨rfl, rfl, rfl⟩ := hs
            have hlen := cutBracket_length hy
            rw [ih r'.length (by simp at hn; omega) r' rfl]
            rfl
      · rw [compile_lit h1 h2 h3, compile_lit h1 h2 h3, iht]; rfl

theorem compile_plain {p : Str} (h : Plain p) : compile p = p.map Tok.lit := by
  induction p with
  | nil => simp [compile]
  | cons c t ih =>
    obtain ⟨h1, h2, h3⟩ := h c (by simp)
    rw [compile_lit h1 h2 h3, ih fun x hx => h x (by simp [hx])]
    rfl

theorem tokMatches_lits {p s : Str} : TokMatches (p.map Tok.lit) s ↔ s = p := by
  induction p generalizing s with
  | nil =>
    constructor
    · intro h; cases h; rfl
    · rintro rfl; exact .nil
  | cons c t ih =>
    constructor
    · intro h; cases h with
      | lit c h => rw [ih.mp h]
    · rintro rfl; exact .lit c (ih.mpr rfl)

/-! ### The grammar of patterns -/

theorem cutClose_eq {f s x r : Str} : cutClose f s = some (x, r) ↔ ∃ y, s = y ++ ']' :: r ∧ ']' ∉ y ∧ x = f ++ y := by
  unfold cutClose
  constructor
  · intro h
    split at h
    · cases h
    · rename_i d rest he
      simp only [Option.some.injEq, Prod.mk.injEq] at h
      obtain ⟨rfl, rfl⟩ := h
      have hd : d = ']' := by
        have := List.head?_dropWhile_not (fun c => decide (c ≠ ']')) s
        rw [he] at this
        simpa using this
      subst hd
      refine ⟨s.takeWhile (· ≠ ']'), ?_, ?_, rfl⟩
      · rw [← he, List.takeWhile_append_dropWhile]
      · intro hm
        have := List.all_takeWhile (l := s) (p := fun c => decide (c ≠ ']'))
        rw [List.all_eq_true] at this
        have := this _ hm
        simp at this
  · rintro ⟨y, rfl, hy, rfl⟩
    have hp : ∀ a ∈ y, decide (a ≠ ']') = true := fun a ha => by
      simp only [decide_eq_true_eq]; rintro rfl; exact hy ha
    rw [List.dropWhile_append_of_pos hp, List.takeWhile_append_of_pos hp]
    simp

theorem cutSeq_eq {s x r : Str} : cutSeq s = some (x, r) ↔ s = x ++ ']' :: r ∧ x ≠ [] ∧ ']' ∉ x.tail := by
  cases s with
  | nil =>
    constructor
    · intro h; simp [cutSeq, cutClose] at h
    · rintro ⟨h, _⟩; simp at h
  | cons c t =>
    by_cases hc : c = ']'
    · subst hc
      show cutClose [']'] t = some (x, r) ↔ _
      rw [cutClose_eq]
      constructor
      · rintro ⟨y, rfl, hy, rfl⟩
        exact ⟨rfl, by simp, hy⟩
      · rintro ⟨h, hne, ht⟩
        cases x with
        | nil => exact absurd rfl hne
        | cons a x =>
          simp only [List.cons_append, List.cons.injEq] at h
          exact ⟨x, h.2, ht, by rw [h.1]; rfl⟩
    · have : cutSeq (c :: t) = cutClose [] (c :: t) := by
        unfold cutSeq; split
        · rename_i h; cases h; exact absurd rfl hc
        · rfl
      rw [this, cutClose_eq]
      constructor
      · rintro ⟨y, h, hy, rfl⟩
        refine ⟨h, ?_, fun h => hy (List.mem_of_mem_tail h)⟩
        intro hx
        subst hx
        simp only [List.nil_append, List.cons.injEq] at h
        exact hc h.1
      · rintro ⟨h, hne, ht⟩
        refine ⟨x, h, ?_, rfl⟩
        cases x with
        | nil => exact absurd rfl hne
        | cons a x =>
          simp only [List.cons_append, List.cons.injEq] at h
          intro hm
          rcases List.mem_cons.mp hm with hm | hm
          · exact hc (h.1.trans hm.symm)
          · exact ht hm

theorem cutBracket_eq {t : Str} {neg : Bool} {x r : Str} : cutBracket t = some (neg, x, r) ↔ Bracket t neg x r := by
  have key : ∀ t : Str, (∀ u, t ≠ '!' :: u) → (cutBracket t = some (neg, x, r) ↔ Bracket t neg x r) := by
    intro t hn
    have h0 : cutBracket t = (cutSeq t).map fun p => (false, p) := by
      unfold cutBracket
      split
      · exact absurd rfl (hn _)
      · rfl
    rw [h0, Option.map_eq_some_iff]
    constructor
    · rintro ⟨⟨x', r'⟩, h, he⟩
      simp only [Prod.mk.injEq] at he
      obtain ⟨rfl, rfl, rfl⟩ := he
      obtain ⟨h1, h2, h3⟩ := cutSeq_eq.mp h
      refine ⟨by simpa using h1, h2, h3, fun _ hh => ?_⟩
      cases x' with
      | nil => exact h2 rfl
      | cons a x' =>
        simp only [List.head?_cons, Option.some.injEq] at hh
        rw [hh] at h1
        exact hn _ h1
    · intro h
      cases neg with
      | true => have := h.text; simp at this; exact absurd this (hn _)
      | false => exact ⟨(x, r), cutSeq_eq.mpr ⟨by simpa using h.text, h.nonempty, h.closed⟩, rfl⟩
  cases t with
  | nil => exact key _ (fun u h => (nomatch h))
  | cons c t =>
    by_cases hc : c = '!'
    · subst hc
      show (cutSeq t).map (fun p => (true, p)) = some (neg, x, r) ↔ _
      rw [Option.map_eq_some_iff]
      constructor
      · rintro ⟨⟨x', r'⟩, h, he⟩
        simp only [Prod.mk.injEq] at he
        obtain ⟨rfl, rfl, rfl⟩ := he
        obtain ⟨h1, h2, h3⟩ := cutSeq_eq.mp h
        exact ⟨by rw [h1]; simp, h2, h3, fun h => (nomatch h)⟩
      · intro h
        cases neg with
        | true =>
          refine ⟨(x, r), cutSeq_eq.mpr ⟨?_, h.nonempty, h.closed⟩, rfl⟩
          have := h.text
          simpa using this
        | false =>
          have h1 := h.text
          have h2 := h.plain rfl
          have h3 := h.nonempty
          cases x with
          | nil => exact absurd rfl h3
          | cons a x =>
            simp only [Bool.false_eq_true, if_false, List.nil_append, List.cons_append, List.cons.injEq] at h1
            rw [← h1.1] at h2
            simp at h2
    · exact key _ (fun u h => hc (List.cons.inj h).1)

theorem inSpans_iff (seq : Str) (c : Char) : InSpans (spansOf seq) c ↔ SeqHas seq c := by
  have single : ∀ (a : Char) (t : Str), ¬ StartsRange (a :: t) → spansOf (a :: t) = ⟨a, a⟩ :: spansOf t := by
    intro a t h
    rw [spansOf]
    intro b t' he
    exact h ⟨a, b, t', by rw [he]⟩
  have inCons : ∀ (x : Span) (l : List Span), InSpans (x :: l) c ↔ (x.lo ≤ c ∧ c ≤ x.hi) ∨ InSpans l c := by
    intro x l; simp [InSpans]
  induction hn : seq.length using Nat.strongRecOn generalizing seq with
  | _ n ih =>
    cases seq with
    | nil =>
      constructor
      · rintro ⟨_, h, _⟩; cases h
      · intro h; cases h
    | cons a t =>
      by_cases hr : StartsRange (a :: t)
      · obtain ⟨lo, hi, t', he⟩ := hr
        rw [he] at hn ⊢
        have ih' : InSpans (spansOf t') c ↔ SeqHas t' c := ih t'.length (by rw [← hn]; simp only [List.length_cons]; omega) t' rfl
        rw [spansOf, inCons, ih']
        constructor
        · rintro (⟨h1, h2⟩ | h)
          · exact .range h1 h2
          · exact .later h
        · intro h
          cases h with
          | range h1 h2 => exact .inl ⟨h1, h2⟩
          | later h => exact .inr h
          | char h => exact absurd ⟨_, _, _, rfl⟩ h
          | next h => exact absurd ⟨_, _, _, rfl⟩ h
      · have ih' : InSpans (spansOf t) c ↔ SeqHas t c := ih t.length (by rw [← hn]; simp only [List.length_cons]; omega) t rfl
        rw [single a t hr, inCons, ih']
        constructor
        · rintro (⟨h1, h2⟩ | h)
          · have : a = c := Char.le_antisymm h1 h2
            subst this
            exact .char hr
          · exact .next hr h
        · intro h
          cases h with
          | range _ _ => exact absurd ⟨_, _, _, rfl⟩ hr
          | later _ => exact absurd ⟨_, _, _, rfl⟩ hr
          | char _ => exact .inl ⟨Char.le_refl _, Char.le_refl _⟩
          | next _ h => exact .inr h

theorem inSpans_cons (x : Span) (l : List Span) (c : Char) : InSpans (x :: l) c ↔ (x.lo ≤ c ∧ c ≤ x.hi) ∨ InSpans l c := by
  simp [InSpans]

theorem bang_iff (t : Str) (c : Char) : InSpans (bangSpans t) c ↔ BangHas t c := by
  by_cases h : ∃ b u, t = '-' :: b :: u
  · obtain ⟨b, u, rfl⟩ := h
    simp only [bangSpans, inSpans_cons, inSpans_iff]
    constructor
    · rintro (⟨h1, h2⟩ | ⟨h1, h2⟩ | h)
      · rw [← Char.le_antisymm h1 h2]; exact .dash
      · rw [← Char.le_antisymm h1 h2]; exact .last
      · exact .rest h
    · intro h
      cases h with
      | plain h => exact absurd ⟨_, _, _, rfl⟩ h
      | dash => exact .inl ⟨Char.le_refl _, Char.le_refl _⟩
      | last => exact .inr (.inl ⟨Char.le_refl _, Char.le_refl _⟩)
      | rest h => exact .inr (.inr h)
  · have e : bangSpans t = spansOf t := by
      rw [bangSpans]
      intro b u he
      exact h ⟨b, u, he⟩
    have hs : ¬ StartsRange ('!' :: t) := by
      rintro ⟨lo, hi, u, he⟩
      exact h ⟨hi, u, (List.cons.inj he).2⟩
    rw [e, inSpans_iff]
    constructor
    · exact .plain hs
    · intro h'
      cases h' with
      | plain _ h' => exact h'
      | dash => exact absurd ⟨_, _, rfl⟩ h
      | last => exact absurd ⟨_, _, rfl⟩ h
      | rest => exact absurd ⟨_, _, rfl⟩ h

theorem dropRanges_append {e : Str} (h : NoRanges e) (s : Str) : dropRanges (e ++ s) = dropRanges s := by
  induction h with
  | nil => rfl
  | cons hl _ ih => simp only [List.cons_append, dropRanges, if_pos hl]; exact ih

theorem dropRanges_split (s : Str) : ∃ e, NoRanges e ∧ s = e ++ dropRanges s := by
  induction hn : s.length using Nat.strongRecOn generalizing s with
  | _ n ih =>
    unfold dropRanges
    split
    · rename_i a b t
      split
      · rename_i hl
        obtain ⟨e, he, h⟩ := ih t.length (by rw [← hn]; simp only [List.length_cons]; omega) t rfl
        exact ⟨a :: '-' :: b :: e, .cons hl he, by rw [List.cons_append, List.cons_append, List.cons_append, ← h]⟩
      · exact ⟨[], .nil, rfl⟩
    · exact ⟨[], .nil, rfl⟩

theorem dropRanges_bang {t : Str} : dropRanges ('!' :: t) = '!' :: t ↔ ∀ hi u, t = '-' :: hi :: u → '!' ≤ hi := by
  by_cases h : ∃ b u, t = '-' :: b :: u
  · obtain ⟨b, u, rfl⟩ := h
    rw [dropRanges]
    constructor
    · intro h hi u' he
      simp only [List.cons.injEq, true_and] at he
      obtain ⟨rfl, rfl⟩ := he
      split at h
      · exfalso
        obtain ⟨e, _, h2⟩ := dropRanges_split u
        have := congrArg List.length h2
        rw [h] at this
        simp at this
        omega
      · rename_i hl; exact Char.not_lt.mp hl
    · intro h
      rw [if_neg (Char.not_lt.mpr (h _ _ rfl))]
  · constructor
    · intro _ hi u he; exact absurd ⟨hi, u, he⟩ h
    · intro _
      rw [dropRanges]
      intro a b u he
      exact h ⟨b, u, (List.cons.inj he).2⟩

theorem dropRanges_idem (s : Str) : dropRanges (dropRanges s) = dropRanges s := by
  obtain ⟨e, he, h⟩ := dropRanges_split s
  have := dropRanges_append he (dropRanges s)
  rw [← h] at this
  exact this.symm

theorem turned_iff {seq t : Str} (h : seq.head? ≠ some '!') : Turned seq t ↔ dropRanges seq = '!' :: t := by
  constructor
  · rintro ⟨⟨e, _, he, rfl⟩, hr⟩
    rw [dropRanges_append he]
    exact dropRanges_bang.mpr hr
  · intro hd
    obtain ⟨e, he, hs⟩ := dropRanges_split seq
    rw [hd] at hs
    refine ⟨⟨e, ?_, he, hs⟩, dropRanges_bang.mp ?_⟩
    · rintro rfl; rw [hs] at h; exact h rfl
    · rw [← hd]; exact dropRanges_idem seq

theorem setTok_cases {x : Str} (h : x.head? ≠ some '!') :
    (∃ t, Turned x t ∧ setTok false x = .set true (bangSpans t)) ∨ ((∀ t, ¬ Turned x t) ∧ setTok false x = .set false (spansOf x)) := by
  by_cases hb : ∃ t, dropRanges x = '!' :: t
  · obtain ⟨t, ht⟩ := hb
    exact .inl ⟨t, (turned_iff h).mpr ht, by simp [setTok, ht]⟩
  · refine .inr ⟨fun t ht => hb ⟨t, (turned_iff h).mp ht⟩, ?_⟩
    simp only [setTok, Bool.false_eq_true, if_false]
    split
    · rename_i t ht; exact absurd ⟨t, ht⟩ hb
    · rfl
theorem compile_unclosed {t : Str} (h : cutBracket t = none) : compile ('[' :: t) = .lit '[' :: compile t := by
  rw [compile]
  split
  · rfl
  · rename_i hx; rw [h] at hx; cases hx

theorem compile_bracket {t : Str} {neg : Bool} {x r : Str} (h : cutBracket t = some (neg, x, r)) :
    compile ('[' :: t) = setTok neg x :: compile r := by
  rw [compile]
  split
  · rename_i hx; rw [h] at hx; cases hx
  · rename_i hx; rw [h] at hx; cases hx; rfl

/-- The elements of a pattern match what the pattern matches. -/
theorem globMatches_iff (p s : Str) : TokMatches (compile p) s ↔ GlobMatches p s := by
  induction hn : p.length using Nat.strongRecOn generalizing p s with
  | _ n ih =>
    cases p with
    | nil =>
      rw [compile]
      constructor
      · intro h; cases h; exact .nil
      · intro h; cases h; exact .nil
    | cons c t =>
      have iht := fun s => ih t.length (by simp at hn; omega) t s rfl
      by_cases h1 : c = '*'
      · subst h1
        rw [compile]
        constructor
        · intro h
          cases h with
          | star u h => exact .star u ((iht _).mp h)
        · intro h
          cases h with
          | star u h => exact .star u ((iht _).mpr h)
          | lit h => exact absurd rfl h
      by_cases h2 : c = '?'
      · subst h2
        rw [compile]
        constructor
        · intro h
          cases h with
          | any c h => exact .any c ((iht _).mp h)
        · intro h
          cases h with
          | any c h => exact .any c ((iht _).mpr h)
          | lit _ h => exact absurd rfl h
      by_cases h3 : c = '['
      · subst h3
        cases hb : cutBracket t with
        | none =>
          have hno : ∀ neg seq q, ¬ Bracket t neg seq q := by
            intro neg seq q h
            rw [cutBracket_eq.mpr h] at hb
            cases hb
          rw [compile_unclosed hb]
          constructor
          · intro h
            cases h with
            | lit _ h => exact .unclosed hno ((iht _).mp h)
          · intro h
            cases h with
            | member h => exact absurd h (hno _ _ _)
            | other h => exact absurd h (hno _ _ _)
            | turned h => exact absurd h (hno _ _ _)
            | unclosed _ h => exact .lit _ ((iht _).mpr h)
            | lit _ _ h => exact absurd rfl h
        | some z =>
          obtain ⟨neg, x, r⟩ := z
          have hbr := cutBracket_eq.mp hb
          have ihr := fun s => ih r.length (by have := cutBracket_length hb; simp at hn; omega) r s rfl
          have huniq : ∀ {neg' x' r'}, Bracket t neg' x' r' → neg' = neg ∧ x' = x ∧ r' = r := by
            intro neg' x' r' h
            rw [cutBracket_eq.mpr h] at hb
            cases hb
            exact ⟨rfl, rfl, rfl⟩
          rw [compile_bracket hb]
          cases neg with
          | true =>
            show TokMatches (.set true (spansOf x) :: compile r) s ↔ _
            constructor
            · intro h
              cases h with
              | other hc h => exact .other hbr (fun hh => hc ((inSpans_iff _ _).mpr hh)) ((ihr _).mp h)
            · intro h
              cases h with
              | member h => exact absurd (huniq h).1 (by decide)
              | turned h => exact absurd (huniq h).1 (by decide)
              | other h hc hm =>
                obtain ⟨_, rfl, rfl⟩ := huniq h
                exact .other (fun hh => hc ((inSpans_iff _ _).mp hh)) ((ihr _).mpr hm)
              | unclosed h => exact absurd hbr (h _ _ _)
              | lit _ _ h => exact absurd rfl h
          | false =>
            rcases setTok_cases (hbr.plain rfl) with ⟨u, hu, he⟩ | ⟨hu, he⟩ <;> rw [he]
            · constructor
              · intro h
                cases h with
                | other hc h => exact .turned hbr hu (fun hh => hc ((bang_iff _ _).mpr hh)) ((ihr _).mp h)
              · intro h
                cases h with
                | member h hn =>
                  obtain ⟨_, rfl, rfl⟩ := huniq h
                  exact absurd hu (hn _)
                | turned h hu' hc hm =>
                  obtain ⟨_, rfl, rfl⟩ := huniq h
                  have := ((turned_iff (hbr.plain rfl)).mp hu).symm.trans ((turned_iff (hbr.plain rfl)).mp hu')
                  obtain rfl := (List.cons.inj this).2
                  exact .other (fun hh => hc ((bang_iff _ _).mp hh)) ((ihr _).mpr hm)
                | other h => exact absurd (huniq h).1 (by decide)
                | unclosed h => exact absurd hbr (h _ _ _)
                | lit _ _ h => exact absurd rfl h
            · constructor
              · intro h
                cases h with
                | member hc h => exact .member hbr hu ((inSpans_iff _ _).mp hc) ((ihr _).mp h)
              · intro h
                cases h with
                | member h _ hc hm =>
                  obtain ⟨_, rfl, rfl⟩ := huniq h
                  exact .member ((inSpans_iff _ _).mpr hc) ((ihr _).mpr hm)
                | turned h hu' =>
                  obtain ⟨_, rfl, rfl⟩ := huniq h
                  exact absurd hu' (hu _)
                | other h => exact absurd (huniq h).1 (by decide)
                | unclosed h => exact absurd hbr (h _ _ _)
                | lit _ _ h => exact absurd rfl h
      · rw [compile_lit h1 h2 h3]
        constructor
        · intro h
          cases h with
          | lit c h => exact .lit h1 h2 h3 ((iht _).mp h)
        · intro h
          cases h with
          | star => exact absurd rfl h1
          | any => exact absurd rfl h2
          | member => exact absurd rfl h3
          | other => exact absurd rfl h3
          | turned => exact absurd rfl h3
          | unclosed => exact absurd rfl h3
          | lit _ _ _ h => exact .lit c ((iht _).mpr h)

/-- **C38** `fnmatch(name, pattern)` holds iff the pattern matches the whole name: `*` any text, `?` any character, a closed
bracket expression one of its characters or, with `!`, which may stand behind empty ranges, any other one, and everything else itself. -/
theorem C38_fnmatch (name pattern : Str) : fnmatch name pattern = true ↔ GlobMatches pattern name := by
  unfold fnmatch
  rw [tokMatch_iff, globMatches_iff]

example : GlobMatches (str "[]a-c-]*") (str "]x") ∧ ¬ GlobMatches (str "[!a-c]") (str "b") ∧ GlobMatches (str "[a?") (str "[ab") := by
  simp only [← C38_fnmatch]
  decide +kernel

example : ¬ GlobMatches (str "[b-a!x]") (str "x") ∧ GlobMatches (str "[b-a!x]") (str "y") ∧ ¬ GlobMatches (str "[b-a!-z]") (str "z") ∧
    GlobMatches (str "[b-a!-z]") (str "y") ∧ GlobMatches (str "[b-a!- x]") (str "x") := by
  simp only [← C38_fnmatch]
  decide +kernel

/-- **C38** `fnmatch(name, '*pattern*')` holds iff the pattern matches a part of the name; unclosed brackets in
the pattern and any nesting of special characters are covered. -/
theorem C38_pattern (name pattern : Str) :
    fnmatch name (str "*" ++ pattern ++ str "*") = true ↔ MatchesPart pattern name := by
  unfold fnmatch
  have : compile (str "*" ++ pattern ++ str "*") = .star :: (compile pattern ++ [.star]) := by
    show compile (['*'] ++ pattern ++ ['*']) = _
    rw [List.append_assoc, List.singleton_append, compile, compile_snoc]
  rw [this, tokMatch_iff, tokMatches_star]
  unfold MatchesPart
  simp only [tokMatches_append, ← globMatches_iff]
  constructor
  · rintro ⟨u, v, rfl, v1, v2, rfl, h, _⟩
    exact ⟨u, v1, v2, by rw [List.append_assoc], h⟩
  · rintro ⟨u, v, w, rfl, h⟩
    exact ⟨u, v ++ w, by rw [List.append_assoc], v, w, rfl, h, by simpa using TokMatches.star w .nil⟩

/-- **C38** a pattern without special characters matches iff it is a substring. -/
theorem C38_substring (name pattern : Str) (h : Plain pattern) :
    fnmatch name (str "*" ++ pattern ++ str "*") = true ↔ pattern <:+: name := by
  rw [C38_pattern]
  unfold MatchesPart
  simp only [← globMatches_iff, compile_plain h, tokMatches_lits]
  constructor
  · rintro ⟨u, v, w, rfl, rfl⟩; exact ⟨u, w, rfl⟩
  · rintro ⟨u, w, rfl⟩; exact ⟨u, pattern, w, rfl, rfl⟩

open Classical in
/-- **C38** the filter keeps, in order and unchanged, the entries whose displayed name has a part matched by at
least one of the patterns; without `--filter` it keeps everything. -/
theorem C38_filter {α : Type} (abb : α → Str) (entries : Dict Str α) (args : Args) :
    getSummaryFiltered abb entries args = entries.filter fun e =>
      decide (∀ pats, args.filter = some pats →
        ∃ p ∈ pats, MatchesPart p (if args.abbrev_ then abb e.2 else e.1)) := by
  unfold getSummaryFiltered
  cases args.filter with
  | none =>
    simp only [reduceCtorEq, false_implies, implies_true, decide_true]
    exact (List.filter_eq_self.mpr fun _ _ => rfl).symm
  | some pats =>
    simp only [Option.some.injEq, forall_eq', dfilter]
    apply List.filter_congr
    intro e _
    rw [Bool.eq_iff_iff, List.any_eq_true, decide_eq_true_eq]
    simp only [C38_pattern]

example : (getSummaryFiltered Entry.abb
    [(str "a/libx.a", ⟨str "libx.a", 1, 0, []⟩), (str "b/liby.a", ⟨str "liby.a", 2, 0, []⟩)]
    { filter := some [str "z", str "[!a-x].a"] }).map (·.1) = [str "b/liby.a"] := by decide +kernel

example : Plain (str "lib.a") ∧ ¬ Plain (str "lib*") := by decide

end EspSize
