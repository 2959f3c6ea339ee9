import Verif.Props.MsgExact
import Verif.Props.GetMsg
import Verif.Props.ErrMsg
/-! # C119, C120: when the messages are shown as they are -/
namespace EspSize

/-- **C119** exactly when the message of a refused project is shown as it is: always if the target is not known or the listing is missing; for a file that cannot be
read if the text of the operating system has neither a tag nor an escaped bracket; for a missing table of regions if the name of the file has none; for a symbol
outside of all sections if its name has none; otherwise if the whole text has none. -/
theorem C119_shown_iff (norm : Str → Str) (fn r : Str) :
    (∀ p, p = .target ∨ p = .map .script → renderE norm (GetProblem.text fn r p) = some (GetProblem.text fn r p)) ∧
    (∀ p, p = .unread ∨ (∃ t, p = .chip t) → (renderE norm (GetProblem.text fn r p) = some (GetProblem.text fn r p) ↔ ¬ HasTag r ∧ ¬ HasEscape r)) ∧
    (renderE norm (GetProblem.text fn r (.map .config)) = some (GetProblem.text fn r (.map .config)) ↔ ¬ HasTag fn ∧ ¬ HasEscape fn) ∧
    (∀ y, renderE norm (GetProblem.text fn r (.symbol (.lost y))) = some (GetProblem.text fn r (.symbol (.lost y))) ↔ ¬ HasTag y.name ∧ ¬ HasEscape y.name) ∧
    (∀ p, renderE norm (GetProblem.text fn r p) = some (GetProblem.text fn r p) ↔ ¬ HasTag (GetProblem.text fn r p) ∧ ¬ HasEscape (GetProblem.text fn r p)) := by
  have nil_neutral : Neutral ([] : Str) := fun c hc => (by cases hc)
  have last : ∀ {pre : Str}, pre.all (fun c => c != '[' && c != '\\') = true →
      (renderE norm (pre ++ r) = some (pre ++ r) ↔ ¬ HasTag r ∧ ¬ HasEscape r) := by
    intro pre h
    have := shown_within norm (name := r) (neutral_lit h) nil_neutral (by decide)
    rw [List.append_nil] at this
    exact this
  have plain : ∀ {s : Str}, s.all (fun c => c != '[' && c != '\\') = true → renderE norm s = some s := by
    intro s h
    have hn := neutral_lit h
    rw [C98_verbatim_iff]
    exact ⟨fun ⟨a, c, b, d, e, _⟩ => (hn '[' (by rw [e]; simp)).1 rfl, fun ⟨a, b, e⟩ => (hn '[' (by rw [e]; simp)).1 rfl⟩
  refine ⟨fun p hp => ?_, fun p hp => ?_, ?_, fun y => ?_, fun p => C98_verbatim_iff norm _⟩
  · rcases hp with rfl | rfl
    · exact plain (s := str "cannot determine chip target") (by decide)
    · exact plain (s := str "cannot parse \"Linker script and memory map\" section in \"{self.fn}\" map file") (by decide)
  · rcases hp with rfl | ⟨t, rfl⟩
    · exact last (by decide)
    · exact last (by decide)
  · show renderE norm (str "cannot parse \"Memory Configuration\" section in \"" ++ fn ++ str "\" map file") = _ ↔ _
    have e : GetProblem.text fn r (.map .config) = str "cannot parse \"Memory Configuration\" section in \"" ++ (fn ++ str "\" map file") := by
      simp [GetProblem.text, MapProblem.text]
    rw [e, List.append_assoc]
    exact shown_within norm (neutral_lit (by decide)) (neutral_lit (by decide)) (by decide)
  · have e : GetProblem.text fn r (.symbol (.lost y)) = str "cannot find input section for symbol " ++ (y.name ++ ('(' :: (intStr y.value ++ [')']))) := by
      simp [GetProblem.text, SymProblem.text, str]
    rw [e]
    refine shown_within norm (neutral_lit (by decide)) ?_ ?_
    · intro c hc
      simp only [List.mem_cons, List.mem_append, List.not_mem_nil, or_false] at hc
      rcases hc with rfl | hc | rfl
      · decide
      · exact intStr_neutral _ c hc
      · decide
    · intro hc
      simp only [List.mem_cons, List.mem_append, List.not_mem_nil, or_false] at hc
      rcases hc with hc | hc | hc
      · exact absurd hc (by decide)
      · rcases intStr_chars _ _ hc with h | h
        · revert h; decide
        · revert h; decide
      · exact absurd hc (by decide)

/-- Code violates the property: with a path that looks like the end of a style nothing is said, printing the message raises an exception. -/
theorem C119_raises (norm : Str → Str) : renderE norm (GetProblem.text [] (str "[Errno 2] No such file or directory: '/home/a[/b].map'") .unread) = none := by
  have e : GetProblem.text [] (str "[Errno 2] No such file or directory: '/home/a[/b].map'") .unread =
      str "cannot read linker map file: " ++ '[' :: (str "Errno 2] No such file or directory: '/home/a" ++ '[' :: (str "/b]" ++ str ".map'")) := by decide
  unfold renderE
  have htag : tags norm [] (str "cannot read linker map file: " ++ '[' :: (str "Errno 2] No such file or directory: '/home/a" ++ '[' :: (str "/b]" ++ str ".map'"))) = none := by
    rw [tags_lit (by decide), tags_cons (by decide +kernel), tags_lit (by decide), tags_tag _ _ (show tagText (str "/b]" ++ str ".map'") = some (str "/b", str ".map'") from rfl)]
    rfl
  rw [e, htag]
  rfl

/-- **C120** exactly when a reported error is shown as it is. -/
theorem C120_shown_iff (norm : Str → Str) (r : Str) :
    (∀ l, renderE norm (ErrProblem.text r (.entry l)) = some (ErrProblem.text r (.entry l)) ↔ ¬ HasTag l ∧ ¬ HasEscape l) ∧
    (∀ p, renderE norm (ErrProblem.text r p) = some (ErrProblem.text r p) ↔ ¬ HasTag (ErrProblem.text r p) ∧ ¬ HasEscape (ErrProblem.text r p)) := by
  refine ⟨fun l => ?_, fun p => C98_verbatim_iff norm _⟩
  have e : ErrProblem.text r (.entry l) = str "unexpected format of cross reference table entry \"" ++ (l ++ str "\"") := by simp [ErrProblem.text]
  rw [e]
  exact shown_within norm (neutral_lit (by decide)) (neutral_lit (by decide)) (by decide)

example (norm : Str → Str) : renderE norm (ErrProblem.text [] (.entry (str "operator[]"))) = some (str "unexpected format of cross reference table entry \"operator[]\"") := by
  refine ((C120_shown_iff norm []).1 _).mpr ⟨?_, ?_⟩
  · exact noMarkup_operator.tag
  · exact noMarkup_operator.escape

end EspSize
