import Verif.Spec.SymMsg
import Verif.Props.Validate
import Verif.Props.Symbols
import Verif.Props.Die
/-! # C115: messages about sections and symbols name the one that is wrong -/
namespace EspSize

/-! ### Sections out of their place -/

theorem misplacedInput_none {start : Option Int} : ∀ {l : List PSec} {k : Int},
    (misplacedInput start l k = none ↔ validateInputs start l k ≠ .error .mapFile) := by
  intro l
  induction l with
  | nil => intro k; exact ⟨fun _ h => (by cases h), fun _ => rfl⟩
  | cons i t ih =>
    intro k
    unfold misplacedInput validateInputs
    cases hc : truthyInt i.size with
    | false => simpa using ih
    | true =>
      simp only [Bool.not_true, Bool.false_eq_true, if_false]
      cases start with
      | none => cases i.address <;> simp
      | some s =>
        cases i.address with
        | none => simp
        | some a =>
          cases i.size with
          | none => simp
          | some z =>
            simp only
            by_cases h : s + k ≠ a
            · rw [if_pos h, if_pos h]; simp
            · rw [if_neg h, if_neg h]; exact ih

/-- What is reported in an output section. -/
theorem misplacedInput_walk {start : Option Int} {p : Misplaced} : ∀ {l done : List PSec}, AllInPlace start done →
    misplacedInput start l (countedSize done) = some p →
    ∃ pre i post s, done ++ l = pre ++ i :: post ∧ AllInPlace start pre ∧ HasSize i ∧ start = some s ∧ i.name = p.1 ∧ i.address = some p.2.1 ∧
      p.2.2 = s + countedSize pre ∧ p.2.1 ≠ p.2.2 := by
  intro l
  induction l with
  | nil => intro done _ h; cases h
  | cons i t ih =>
    intro done hd h
    have hone : countedSize (done ++ [i]) = countedSize done + if HasSize i then i.size.getD 0 + i.fill else 0 := by
      unfold countedSize
      rw [List.filter_append, List.map_append, List.sum_append, List.filter_cons]
      by_cases h : HasSize i <;> simp [h]
    have hsnoc : (HasSize i → InPlace start done i) → AllInPlace start (done ++ [i]) := by
      intro hi pre j post he hj
      rcases List.eq_nil_or_concat post with hp | ⟨q, y, hq⟩
      · subst hp
        obtain ⟨h1, h2⟩ := List.append_inj' he rfl
        cases h2
        rw [← h1]
        exact hi hj
      · subst hq
        rw [List.concat_eq_append, show pre ++ j :: (q ++ [y]) = (pre ++ j :: q) ++ [y] by simp] at he
        obtain ⟨h1, _⟩ := List.append_inj' he rfl
        exact hd pre j q h1 hj
    unfold misplacedInput at h
    rw [truthy_counted] at h
    by_cases hc : HasSize i
    · simp only [hc, decide_true, Bool.not_true, Bool.false_eq_true, if_false] at h
      rw [if_pos hc] at hone
      obtain ⟨z, hz, hz0⟩ := hc
      rw [hz] at h
      cases hs : start with
      | none => rw [hs] at h; cases h
      | some s =>
        cases ha : i.address with
        | none => rw [hs, ha] at h; cases h
        | some a =>
          rw [hs, ha] at h
          simp only at h
          by_cases hne : s + countedSize done ≠ a
          · rw [if_pos hne] at h
            cases h
            exact ⟨done, i, t, s, rfl, by rw [← hs]; exact hd, ⟨z, hz, hz0⟩, rfl, rfl, ha, rfl, fun h => hne h.symm⟩
          · rw [if_neg hne] at h
            have hne : s + countedSize done = a := Decidable.not_not.mp hne
            have hp : AllInPlace start (done ++ [i]) := hsnoc fun _ => ⟨s, hs, by rw [ha, hne]⟩
            rw [hz, Option.getD_some] at hone
            rw [← hs] at h ⊢
            rw [← hone] at h
            obtain ⟨pre, j, post, s', he, rest⟩ := ih hp h
            exact ⟨pre, j, post, s', by rw [← he]; simp, rest⟩
    · simp only [hc, decide_false, Bool.not_false, if_true] at h
      rw [if_neg hc, Int.add_zero] at hone
      rw [← hone] at h
      obtain ⟨pre, j, post, s', he, rest⟩ := ih (hsnoc fun h => absurd h hc) h
      exact ⟨pre, j, post, s', by rw [← he]; simp, rest⟩

/-- The warning about the sections is printed exactly if `validate` refuses them. -/
theorem C115_validate_iff (os : List POut) : validateSections os = .error .mapFile ↔ ∃ p, misplaced os = some p := by
  induction os with
  | nil => exact ⟨fun h => (by cases h), fun ⟨p, h⟩ => by cases h⟩
  | cons o os ih =>
    unfold validateSections misplaced
    cases ho : o.inputs with
    | nil => exact ih
    | cons i is =>
      simp only
      cases hv : validateInputs i.address (i :: is) 0 with
      | ok u => exact ih
      | error e =>
        have := (misplacedInput_none (start := i.address) (l := i :: is) (k := 0))
        rw [hv] at this
        show (Except.error e : Except Err Unit) = .error .mapFile ↔ _
        cases hm : misplacedInput i.address (i :: is) 0 with
        | none =>
          have h2 := this.mp hm
          exact ⟨fun h => absurd h h2, fun ⟨p, h⟩ => by cases h⟩
        | some p =>
          refine ⟨fun _ => ⟨p, rfl⟩, fun _ => ?_⟩
          exact Decidable.byContradiction fun h => by rw [this.mpr h] at hm; cases hm

/-- It names the first input section with contents that is not where the ones before it end, with its address and the one where they end. -/
theorem C115_misplaced {os : List POut} {p : Misplaced} (h : misplaced os = some p) :
    ∃ before o after pre i post s, os = before ++ o :: after ∧ (∀ x ∈ before, AllInPlace x.start x.inputs) ∧ o.inputs = pre ++ i :: post ∧
      AllInPlace o.start pre ∧ HasSize i ∧ o.start = some s ∧ i.name = p.1 ∧ i.address = some p.2.1 ∧ p.2.2 = s + countedSize pre ∧ p.2.1 ≠ p.2.2 := by
  induction os with
  | nil => cases h
  | cons o os ih =>
    have next : AllInPlace o.start o.inputs → misplaced os = some p → ∃ before o' after pre i post s, o :: os = before ++ o' :: after ∧ (∀ x ∈ before, AllInPlace x.start x.inputs) ∧
        o'.inputs = pre ++ i :: post ∧ AllInPlace o'.start pre ∧ HasSize i ∧ o'.start = some s ∧ i.name = p.1 ∧ i.address = some p.2.1 ∧
        p.2.2 = s + countedSize pre ∧ p.2.1 ≠ p.2.2 := fun hp h => by
      obtain ⟨before, o', after, pre, i, post, s, he, hb, rest⟩ := ih h
      exact ⟨o :: before, o', after, pre, i, post, s, by rw [he]; rfl, List.forall_mem_cons.mpr ⟨hp, hb⟩, rest⟩
    unfold misplaced at h
    cases ho : o.inputs with
    | nil =>
      rw [ho] at h
      exact next (by rw [ho]; intro pre i post h; simp at h) h
    | cons i is =>
      rw [ho] at h
      simp only at h
      have hst : o.start = i.address := by simp [POut.start, ho]
      have hnil : AllInPlace i.address [] := fun pre j post h => by simp at h
      cases hv : validateInputs i.address (i :: is) 0 with
      | ok u =>
        rw [hv] at h
        refine next ?_ h
        rw [hst, ho]
        have := validateInputs_walk i.address [] (i :: is) hnil
        rw [show countedSize [] = 0 from rfl, List.nil_append] at this
        rcases this with ⟨_, h2⟩ | ⟨x, h1, _⟩
        · exact h2
        · rw [hv] at h1; cases h1
      | error e =>
        rw [hv] at h
        obtain ⟨pre, j, post, s, he, rest⟩ := misplacedInput_walk (done := []) hnil h
        rw [List.nil_append] at he
        refine ⟨[], o, os, pre, j, post, s, rfl, by simp, by rw [ho, he], ?_⟩
        rw [hst]
        exact rest

/-! ### Symbols -/

theorem sorted_filter_unique {α : Type} {key : α → Int} : ∀ {a b : List α}, (a.Pairwise fun x y => key x ≤ key y) →
    (b.Pairwise fun x y => key x ≤ key y) → (∀ k, (a.filter fun x => key x = k) = b.filter fun x => key x = k) → a = b := by
  intro a
  induction a with
  | nil =>
    intro b _ _ h
    cases b with
    | nil => rfl
    | cons y t => have := h (key y); simp at this
  | cons x a ih =>
    intro b ha hb h
    cases b with
    | nil => have := h (key x); simp at this
    | cons y b =>
      have hxb : x ∈ y :: b := by
        have : x ∈ (y :: b).filter fun z => key z = key x := by rw [← h]; simp
        exact (List.mem_filter.mp this).1
      have hya : y ∈ x :: a := by
        have : y ∈ (x :: a).filter fun z => key z = key y := by rw [h]; simp
        exact (List.mem_filter.mp this).1
      obtain ⟨ha1, ha2⟩ := List.pairwise_cons.mp ha
      obtain ⟨hb1, hb2⟩ := List.pairwise_cons.mp hb
      have h1 : key y ≤ key x := by
        rcases List.mem_cons.mp hxb with rfl | hm
        · exact Int.le_refl _
        · exact hb1 x hm
      have h2 : key x ≤ key y := by
        rcases List.mem_cons.mp hya with rfl | hm
        · exact Int.le_refl _
        · exact ha1 y hm
      have hk : key x = key y := Int.le_antisymm h2 h1
      have hxy : x = y := by
        have := h (key x)
        rw [List.filter_cons_of_pos (by simp), List.filter_cons_of_pos (by simp [hk])] at this
        exact (List.cons.inj this).1
      subst hxy
      rw [ih ha2 hb2 fun k => ?_]
      have := h k
      rw [List.filter_cons, List.filter_cons] at this
      split at this
      · exact (List.cons.inj this).2
      · exact this

theorem stableSort_unique {α : Type} {key : α → Int} {a b c : List α} (h : StableSort key false a b) (h' : StableSort key false a c) : b = c :=
  sorted_filter_unique (by simpa using h.sorted) (by simpa using h'.sorted) fun k => (h.stable k).trans (h'.stable k).symm

theorem seekSec_none {addr : Int} : ∀ {rest : List ISec} {cur : ISec}, seekSec addr cur rest = none → ∀ i ∈ cur :: rest, i.stop ≤ addr := by
  intro rest
  induction rest with
  | nil =>
    intro cur h
    unfold seekSec at h
    split at h
    · rename_i hc
      intro i hi
      rw [List.mem_singleton.mp hi]
      exact hc
    · cases h
  | cons n rest ih =>
    intro cur h
    unfold seekSec at h
    split at h
    · rename_i hc
      exact List.forall_mem_cons.mpr ⟨hc, ih h⟩
    · cases h

theorem seekSec_some {addr : Int} : ∀ {rest : List ISec} {cur c : ISec} {r : List ISec}, seekSec addr cur rest = some (c, r) →
    ∃ a, cur :: rest = a ++ c :: r ∧ (∀ q ∈ a, q.stop ≤ addr) ∧ addr < c.stop := by
  intro rest
  induction rest with
  | nil =>
    intro cur c r h
    unfold seekSec at h
    split at h
    · cases h
    · rename_i hc
      cases h
      exact ⟨[], rfl, by simp, Int.not_le.mp hc⟩
  | cons n rest ih =>
    intro cur c r h
    unfold seekSec at h
    split at h
    · rename_i hc
      obtain ⟨a, e, h1, h2⟩ := ih h
      exact ⟨cur :: a, by rw [e]; rfl, List.forall_mem_cons.mpr ⟨hc, h1⟩, h2⟩
    · rename_i hc
      cases h
      exact ⟨[], rfl, by simp, Int.not_le.mp hc⟩

theorem fitsIn_append {a l : List ISec} {y : ElfSym} (h : ∀ q ∈ a, q.stop ≤ y.value) : FitsIn (a ++ l) y ↔ FitsIn l y := by
  induction a with
  | nil => exact Iff.rfl
  | cons c a ih => exact (fitsIn_cons_ge (h c (by simp))).trans (ih fun q hq => h q (by simp [hq]))

theorem blames_append {a l : List ISec} {y : ElfSym} {p : SymProblem} (h : ∀ q ∈ a, q.stop ≤ y.value) (hb : Blames l y p) : Blames (a ++ l) y p := by
  cases p with
  | lost z =>
    refine ⟨hb.1, fun i hi => ?_⟩
    rcases List.mem_append.mp hi with hi | hi
    · exact h i hi
    · exact hb.2 i hi
  | unfit z i =>
    obtain ⟨h1, b, c, e, h2, h3⟩ := hb
    refine ⟨h1, a ++ b, c, by rw [e, List.append_assoc], fun q hq => ?_, h3⟩
    rcases List.mem_append.mp hq with hq | hq
    · exact h q hq
    · exact h2 q hq

/-- A symbol that is blamed does not fit. -/
theorem blames_unfit {l : List ISec} {y : ElfSym} {p : SymProblem} (hb : Blames l y p) : ¬ FitsIn l y := by
  cases p with
  | lost z =>
    rintro ⟨pre, q, post, e, _, h2, _⟩
    have := hb.2 q (by rw [e]; simp)
    omega
  | unfit z i =>
    obtain ⟨_, a, b, e, h2, h3, h4⟩ := hb
    rw [e, fitsIn_append h2, fitsIn_cons_lt h3]
    omega

theorem sweepProblem_spec {ys : List ElfSym} (hs : ys.Pairwise fun a b => a.value ≤ b.value) : ∀ (cur : ISec) (rest : List ISec),
    (sweepProblem ys cur rest = none ∧ ∀ y ∈ ys, FitsIn (cur :: rest) y) ∨
      ∃ p pre y post, sweepProblem ys cur rest = some p ∧ ys = pre ++ y :: post ∧ (∀ z ∈ pre, FitsIn (cur :: rest) z) ∧ Blames (cur :: rest) y p := by
  induction ys with
  | nil => intro cur rest; exact .inl ⟨rfl, by simp⟩
  | cons y ys ih =>
    intro cur rest
    obtain ⟨hs1, hs2⟩ := List.pairwise_cons.mp hs
    unfold sweepProblem
    cases hk : seekSec y.value cur rest with
    | none => exact .inr ⟨_, [], y, ys, rfl, rfl, by simp, rfl, seekSec_none hk⟩
    | some x =>
      obtain ⟨c, r⟩ := x
      obtain ⟨a, e, h1, h2⟩ := seekSec_some hk
      simp only
      have later : ∀ z ∈ ys, ∀ q ∈ a, q.stop ≤ z.value := fun z hz q hq => Int.le_trans (h1 q hq) (hs1 z hz)
      by_cases hf : y.value + y.size > c.address + c.size
      · rw [if_pos hf]
        exact .inr ⟨_, [], y, ys, rfl, rfl, by simp, rfl, a, r, e, h1, h2, hf⟩
      · rw [if_neg hf]
        have hy : FitsIn (cur :: rest) y := by
          rw [e, fitsIn_append h1, fitsIn_cons_lt h2]
          exact Int.not_lt.mp hf
        rcases ih hs2 c r with ⟨h3, h4⟩ | ⟨p, pre, z, post, h3, h4, h5, h6⟩
        · refine .inl ⟨h3, List.forall_mem_cons.mpr ⟨hy, fun z hz => ?_⟩⟩
          rw [e, fitsIn_append (later z hz)]
          exact h4 z hz
        · refine .inr ⟨p, y :: pre, z, post, h3, by rw [h4]; rfl, List.forall_mem_cons.mpr ⟨hy, fun x hx => ?_⟩, ?_⟩
          · rw [e, fitsIn_append (later x (by rw [h4]; simp [hx]))]
            exact h5 x hx
          · rw [e]
            exact blames_append (later z (by rw [h4]; simp)) h6

/-- Symbols are refused with a message exactly if there is a problem to report. It names the first symbol, in the order of addresses, that does not fit, and the
input section in which it does not end. -/
theorem C115_symbols (syms : List ElfSym) (osecs : List OSec) :
    (addSymbols (some syms) osecs = .error .memMap ↔ ∃ p, symProblem syms osecs = some p) ∧
      ∀ p, symProblem syms osecs = some p → ∃ order ys pre y post, StableSort ISec.address false (osecs.flatMap (·.inputs)) order ∧
        StableSort ElfSym.value false (syms.filter fun y => Sized y) ys ∧ ys = pre ++ y :: post ∧ (∀ z ∈ pre, FitsIn order z) ∧ Blames order y p := by
  have horder := sortedBy_stable ISec.address false (osecs.flatMap (·.inputs))
  have hys : StableSort ElfSym.value false (syms.filter fun y => Sized y) (sweepSymbols syms) := by
    rw [sweepSymbols_eq]; exact stableSort_filter (sortedBy_stable _ _ _) _
  have hsorted : (sweepSymbols syms).Pairwise fun a b => a.value ≤ b.value := by simpa using hys.sorted
  unfold symProblem
  cases ho : sortedBy ISec.address false (osecs.flatMap (·.inputs)) with
  | nil =>
    rw [ho] at horder
    have hne : osecs.flatMap (·.inputs) = [] := List.Perm.eq_nil horder.perm.symm
    refine ⟨⟨fun h => ?_, fun ⟨p, h⟩ => by cases h⟩, fun p h => by cases h⟩
    unfold addSymbols at h
    rw [hne] at h
    cases h
  | cons s rest =>
    rw [ho] at horder
    have hne : osecs.flatMap (·.inputs) ≠ [] := by
      intro h
      rw [h] at horder
      exact absurd horder.perm.eq_nil (by simp)
    simp only
    have hspec := sweepProblem_spec hsorted s rest
    refine ⟨?_, fun p hp => ?_⟩
    · obtain ⟨order, ys, h1, h2, h3⟩ := addSymbols_exact syms osecs hne
      have e1 := stableSort_unique h1 horder
      have e2 := stableSort_unique h2 hys
      subst e1 e2
      rcases hspec with ⟨h4, h5⟩ | ⟨p, pre, y, post, h4, h5, _, h6⟩
      · rw [h4]
        refine ⟨fun h => ?_, fun ⟨p, h⟩ => by cases h⟩
        rcases h3 with ⟨_, o', h7, _⟩ | ⟨⟨y, hy, hn⟩, _⟩
        · rw [h] at h7; cases h7
        · exact absurd (h5 y hy) hn
      · rw [h4]
        refine ⟨fun _ => ⟨p, rfl⟩, fun _ => ?_⟩
        rcases h3 with ⟨h7, _⟩ | ⟨_, h7⟩
        · exact absurd (h7 y (by rw [h5]; simp)) (blames_unfit h6)
        · exact h7
    · rcases hspec with ⟨h4, _⟩ | ⟨p', pre, y, post, h4, h5, h6, h7⟩
      · rw [h4] at hp; cases hp
      · rw [h4] at hp
        cases hp
        exact ⟨s :: rest, sweepSymbols syms, pre, y, post, horder, hys, h5, h6, h7⟩

/-! ### The texts -/

theorem hexDigits_neutral (n : Nat) : Neutral (Nat.toDigits 16 n) := by
  induction n using Nat.strongRecOn with
  | ind n ih =>
    have one : ∀ d, d < 16 → Nat.digitChar d ≠ '[' ∧ Nat.digitChar d ≠ '\\' := by decide
    rw [Nat.toDigits_eq_if (by decide)]
    intro c hc
    split at hc
    · rename_i h
      rw [List.mem_singleton.mp hc]
      exact one n h
    · rcases List.mem_append.mp hc with hc | hc
      · exact ih (n / 16) (by omega) c hc
      · rw [List.mem_singleton.mp hc]
        exact one _ (Nat.mod_lt _ (by decide))

theorem hexNum_neutral (n : Int) : Neutral (hexNum n) := by
  intro c hc
  unfold hexNum at hc
  rcases List.mem_append.mp hc with hc | hc
  · rcases List.mem_append.mp hc with hc | hc
    · split at hc
      · rw [List.mem_singleton.mp hc]; decide
      · cases hc
    · exact neutral_lit (s := str "0x") (by decide) c hc
  · exact hexDigits_neutral _ c hc

/-- What is said is in the texts. -/
theorem C115_texts : (∀ p : Misplaced, SaysMisplaced p.1 p.2.1 p.2.2 (misplacedText p)) ∧ ∀ p : SymProblem, SaysSymbol p.text p := by
  refine ⟨fun p => ?_, fun p => ?_⟩
  · exact ⟨str " This signals error in the linker map parser. Please consider filing a bug report with the linker map file attached.",
      by simp [misplacedText, str]⟩
  · cases p <;> simp [SaysSymbol, SymProblem.text, str]

/-- The texts as shown, if the names in them do not look like markup. -/
theorem C115_shown_partial : (∀ p : Misplaced, NoMarkup p.1 → render (misplacedText p) = misplacedText p) ∧
    ∀ p : SymProblem, p.plain → render p.text = p.text := by
  have lit : ∀ {s : Str}, s.all (fun c => c != '[' && c != '\\') = true → ∀ t, render (s ++ t) = s ++ render t := fun h t => render_neutral (neutral_lit h) t
  refine ⟨fun p h => ?_, fun p h => ?_⟩
  · have e : misplacedText p = str "Input section " ++ (p.1 ++ ' ' :: (str "at " ++ (hexNum p.2.1 ++ (str " is not at expected address " ++ (hexNum p.2.2 ++
        str ". This signals error in the linker map parser. Please consider filing a bug report with the linker map file attached."))))) := by
      simp [misplacedText, str]
    rw [e, lit (by decide), render_noMarkup h (by decide) (by decide) (by decide), lit (by decide), render_neutral (hexNum_neutral _), lit (by decide),
      render_neutral (hexNum_neutral _), shown_lit (by decide +kernel)]
  · cases p with
    | lost y =>
      have e : (SymProblem.lost y).text = str "cannot find input section for symbol " ++ (y.name ++ '(' :: (intStr y.value ++ str ")")) := by
        simp [SymProblem.text, str]
      rw [e, lit (by decide), render_noMarkup h (by decide) (by decide) (by decide), render_neutral (intStr_neutral _), shown_lit (by decide)]
    | unfit y i =>
      have e : (SymProblem.unfit y i).text = str "symbol name: " ++ (y.name ++ ',' :: (str " addr: " ++ (intStr y.value ++ (str ", size: " ++ (intStr y.size ++
          (str " does not fit into input section name: " ++ (i.name ++ ',' :: (str " addr: " ++ (intStr i.address ++ (str ", size: " ++ (intStr i.size ++ []))))))))))) := by
        simp [SymProblem.text, str]
      rw [e, lit (by decide), render_noMarkup h.1 (by decide) (by decide) (by decide), lit (by decide), render_neutral (intStr_neutral _), lit (by decide),
        render_neutral (intStr_neutral _), lit (by decide), render_noMarkup h.2 (by decide) (by decide) (by decide), lit (by decide),
        render_neutral (intStr_neutral _), lit (by decide), render_neutral (intStr_neutral _)]
      rfl

/-- Names in brackets are not shown. -/
theorem C115_hidden :
    symProblem [exFunc "f[x]" 0x100 4] [⟨str ".text", 0x100, 2, [⟨str ".text.f", 0x100, 2, 0, [], [], []⟩]⟩] =
      some (.unfit (exFunc "f[x]" 0x100 4) ⟨str ".text.f", 0x100, 2, 0, [], [], []⟩) ∧
    render (SymProblem.lost (exFunc "f[x]" 0x100 4)).text = (SymProblem.lost (exFunc "f" 0x100 4)).text := by
  constructor <;> decide +kernel

/-- A symbol may be said not to fit into a section in which it does not start. -/
theorem C115_elsewhere : ∃ syms osecs y i, symProblem syms osecs = some (.unfit y i) ∧ y.value < i.address :=
  ⟨[exFunc "rom" 0 0x200], [⟨str ".text", 0x100, 0x10, [⟨str ".text.f", 0x100, 0x10, 0, [], [], []⟩]⟩], exFunc "rom" 0 0x200,
    ⟨str ".text.f", 0x100, 0x10, 0, [], [], []⟩, by decide +kernel, by decide⟩

example : misplaced [⟨str ".text", some 0x100, some 0x20, [⟨str ".text.a", some 0x100, some 8, 4, [], []⟩, ⟨str ".text.b", some 0x110, some 4, 0, [], []⟩]⟩] =
    some (str ".text.b", 0x110, 0x10c) := by decide

example : misplacedText (str ".text.b", 0x110, 0x10c) = str "Input section .text.b at 0x110 is not at expected address 0x10c. This signals error in the linker map parser. Please consider filing a bug report with the linker map file attached." := by
  decide +kernel

example : symProblem [exFunc "g" 0x200 4] [⟨str ".text", 0x100, 2, [⟨str ".text.f", 0x100, 2, 0, [], [], []⟩]⟩] = some (.lost (exFunc "g" 0x200 4)) ∧
    (SymProblem.lost (exFunc "g" 0x200 4)).text = str "cannot find input section for symbol g(512)" := by
  constructor <;> decide +kernel

end EspSize
