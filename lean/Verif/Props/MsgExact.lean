import Verif.Props.DwarfMsg
import Verif.Props.ElfMsg
/-! # C113, C116, C117: when the messages are shown as they are -/
namespace EspSize

theorem hasTag_within {pre name post : Str} (h1 : '[' ∉ pre) (h2 : ']' ∉ post) : HasTag (pre ++ (name ++ post)) ↔ HasTag name := by
  constructor
  · rintro ⟨before, c, b, after, e, hb, hc⟩
    have key : ∃ x, name ++ post = x ++ '[' :: c :: (b ++ ']' :: after) := by
      rcases List.append_eq_append_iff.mp e with ⟨y, _, h⟩ | ⟨y, h, h'⟩
      · exact ⟨y, h⟩
      · cases y with
        | nil => exact ⟨[], h'.symm⟩
        | cons z y =>
          injection h' with hz _
          exact absurd (by rw [h, ← hz]; simp) h1
    obtain ⟨x, hx⟩ := key
    have hx' : name ++ post = (x ++ '[' :: c :: (b ++ [']'])) ++ after := by rw [hx]; simp
    rcases List.append_eq_append_iff.mp hx' with ⟨z, h, h'⟩ | ⟨z, h, h'⟩
    · cases hz : z.getLast? with
      | none =>
        rw [List.getLast?_eq_none_iff.mp hz, List.append_nil] at h
        exact ⟨x, c, b, [], by rw [← h], hb, hc⟩
      | some w =>
        exfalso
        have hl := congrArg List.getLast? h
        rw [List.getLast?_append, List.getLast?_append, hz] at hl
        have : w = ']' := by simpa [List.getLast?_append, List.getLast?_cons] using hl.symm
        exact h2 (by rw [h']; exact List.mem_append_left _ (this ▸ List.mem_of_getLast? hz))
    · exact ⟨x, c, b, z, by rw [h]; simp, hb, hc⟩
  · rintro ⟨before, c, b, after, rfl, hb, hc⟩
    exact ⟨pre ++ before, c, b, after ++ post, by simp, hb, hc⟩

theorem hasEscape_within {pre name post : Str} (h1 : '\\' ∉ pre) (h2 : '[' ∉ post) : HasEscape (pre ++ (name ++ post)) ↔ HasEscape name := by
  constructor
  · rintro ⟨before, after, e⟩
    have key : ∃ x, name ++ post = x ++ '\\' :: '[' :: after := by
      rcases List.append_eq_append_iff.mp e with ⟨y, _, h⟩ | ⟨y, h, h'⟩
      · exact ⟨y, h⟩
      · cases y with
        | nil => exact ⟨[], h'.symm⟩
        | cons z y =>
          injection h' with hz _
          exact absurd (by rw [h, ← hz]; simp) h1
    obtain ⟨x, hx⟩ := key
    have hx' : name ++ post = (x ++ ['\\', '[']) ++ after := by rw [hx]; simp
    rcases List.append_eq_append_iff.mp hx' with ⟨z, h, h'⟩ | ⟨z, h, h'⟩
    · cases hz : z.getLast? with
      | none =>
        rw [List.getLast?_eq_none_iff.mp hz, List.append_nil] at h
        exact ⟨x, [], by rw [← h]⟩
      | some w =>
        exfalso
        have hl := congrArg List.getLast? h
        rw [List.getLast?_append, List.getLast?_append, hz] at hl
        have : w = '[' := by simpa [List.getLast?_append, List.getLast?_cons] using hl.symm
        exact h2 (by rw [h']; exact List.mem_append_left _ (this ▸ List.mem_of_getLast? hz))
    · exact ⟨x, z, by rw [h]; simp⟩
  · rintro ⟨before, after, rfl⟩
    exact ⟨pre ++ before, after ++ post, by simp⟩

/-- A text with one name in it is shown as it is exactly if the name is. -/
theorem shown_within (norm : Str → Str) {pre name post : Str} (h1 : Neutral pre) (h2 : Neutral post) (h3 : ']' ∉ post) :
    renderE norm (pre ++ (name ++ post)) = some (pre ++ (name ++ post)) ↔ ¬ HasTag name ∧ ¬ HasEscape name := by
  rw [C98_verbatim_iff, hasTag_within (fun h => (h1 _ h).1 rfl) h3, hasEscape_within (fun h => (h1 _ h).2 rfl) (fun h => (h2 _ h).1 rfl)]

/-- **C113** the name of the archive that is not found is shown as it is exactly if it has neither a tag nor an escaped bracket. -/
theorem C113_archive_iff (norm : Str → Str) (a : Str) :
    renderE norm (str "Archive \"" ++ a ++ str "\" not found.") = some (str "Archive \"" ++ a ++ str "\" not found.") ↔ ¬ HasTag a ∧ ¬ HasEscape a := by
  rw [List.append_assoc]
  exact shown_within norm (neutral_lit (by decide)) (neutral_lit (by decide)) (by decide)

/-- **C113** so is the name of a column in the tables of archives, files and symbols, which is not escaped. -/
theorem C113_column_iff (norm : Str → Str) (a : Str) :
    renderE norm (str "Column \"" ++ a ++ str "\" not found") = some (str "Column \"" ++ a ++ str "\" not found") ↔ ¬ HasTag a ∧ ¬ HasEscape a := by
  rw [List.append_assoc]
  exact shown_within norm (neutral_lit (by decide)) (neutral_lit (by decide)) (by decide)

/-- Code violates the property: with a name that looks like the end of a style nothing is said, printing the message raises an exception. -/
theorem C113_raises (norm : Str → Str) :
    showSays none none { format := str "table", archives := true, sort := str "[/]" } exMapD = some [str "Column \"[/]\" not found"] ∧
    renderE norm (str "Column \"[/]\" not found") = none ∧ renderE norm (str "Archive \"[/]\" not found.") = none := by
  have key : ∀ pre post : Str, pre.all (fun c => c != '[' && c != '\\') = true → renderE norm (pre ++ '[' :: (str "/]" ++ post)) = none := by
    intro pre post h
    unfold renderE
    rw [tags_lit h, tags_tag _ _ (show tagText (str "/]" ++ post) = some (str "/", post) from rfl)]
    rfl
  exact ⟨by decide +kernel, key (str "Column \"") (str "\" not found") (by decide), key (str "Archive \"") (str "\" not found.") (by decide)⟩

/-- **C116** exactly when a warning without style is shown as it should be: for one with one name, if the name has neither a tag nor an
escaped bracket, and for one with two names if the whole text has none. -/
theorem C116_shown_iff (norm : Str → Str) :
    (∀ name t, (Msg.region name).text = some t → ((∃ u, renderE norm t = some u ∧ Tells u (.region name)) ↔ ¬ HasTag name ∧ ¬ HasEscape name)) ∧
    (∀ s t, (Msg.nowhere s).text = some t → ((∃ u, renderE norm t = some u ∧ Tells u (.nowhere s)) ↔ ¬ HasTag s.name ∧ ¬ HasEscape s.name)) ∧
    (∀ s r t, (Msg.exceeds s r).text = some t → ((∃ u, renderE norm t = some u ∧ Tells u (.exceeds s r)) ↔ ¬ HasTag t ∧ ¬ HasEscape t)) := by
  refine ⟨fun name t ht => ?_, fun s t ht => ?_, fun s r t ht => ?_⟩
  · cases ht
    rw [List.append_assoc, ← shown_within norm (pre := str "cannot assign memory region ") (post := str " to chip memory type")
      (neutral_lit (by decide)) (neutral_lit (by decide)) (by decide)]
    constructor
    · rintro ⟨u, hu, rfl⟩; exact hu
    · exact fun h => ⟨_, h, rfl⟩
  · have e : t = str "cannot assign output section " ++ partText s (str " to any memory type") := by
      cases ht
      simp [partText, str]
    have hn : Neutral (str "(addr: " ++ (intStr s.address ++ (str ", size: " ++ (intStr s.size ++ (')' :: str " to any memory type"))))) := by
      intro c hc
      simp only [List.mem_append] at hc
      rcases hc with hc | hc | hc | hc | hc
      · exact neutral_lit (s := str "(addr: ") (by decide) c hc
      · exact intStr_neutral _ c hc
      · exact neutral_lit (s := str ", size: ") (by decide) c hc
      · exact intStr_neutral _ c hc
      · exact neutral_lit (s := ')' :: str " to any memory type") (by decide) c hc
    have hb : ']' ∉ (str "(addr: " ++ (intStr s.address ++ (str ", size: " ++ (intStr s.size ++ (')' :: str " to any memory type"))))) := by
      have hi : ∀ i : Int, ']' ∉ intStr i := fun i h => by
        rcases intStr_chars i _ h with h | h
        · revert h; decide
        · revert h; decide
      intro hc
      simp only [List.mem_append] at hc
      rcases hc with hc | hc | hc | hc | hc
      · exact absurd hc (by decide)
      · exact hi _ hc
      · exact absurd hc (by decide)
      · exact hi _ hc
      · exact absurd hc (by decide)
    rw [e, ← shown_within norm (neutral_lit (s := str "cannot assign output section ") (by decide)) hn hb]
    constructor
    · rintro ⟨u, hu, rfl⟩; exact hu
    · exact fun h => ⟨_, h, rfl⟩
  · have e : Tells t (.exceeds s r) := by
      cases ht
      simp [Tells, partText, str]
    rw [← C98_verbatim_iff norm]
    constructor
    · rintro ⟨u, hu, h⟩
      rw [hu]
      exact congrArg some (Eq.trans h (Eq.symm e))
    · exact fun h => ⟨_, h, e⟩

/-- **C117** exactly when the message about an ELF file is shown as it is. -/
theorem C117_shown_iff (norm : Str → Str) (fn : Str) (p : ElfProblem) :
    (renderE norm (badElfText fn p) = some (badElfText fn p) ↔ ¬ HasTag (badElfText fn p) ∧ ¬ HasEscape (badElfText fn p)) ∧
    ((∀ b, p ≠ .magic b) → (renderE norm (badElfText fn p) = some (badElfText fn p) ↔ ¬ HasTag fn ∧ ¬ HasEscape fn)) := by
  refine ⟨C98_verbatim_iff norm _, fun hp => ?_⟩
  have hi : ∀ i : Int, Neutral (intStr i) ∧ ']' ∉ intStr i := fun i => ⟨intStr_neutral i, fun h => by
    rcases intStr_chars i _ h with h | h
    · revert h; decide
    · revert h; decide⟩
  have key : Neutral (str ": " ++ p.text) ∧ ']' ∉ str ": " ++ p.text := by
    have lit : ∀ (s : Str) (i : Int), s.all (fun c => c != '[' && c != '\\') = true → ']' ∉ s → Neutral (s ++ intStr i) ∧ ']' ∉ s ++ intStr i := by
      intro s i h1 h2
      constructor
      · intro c hc
        rcases List.mem_append.mp hc with hc | hc
        · exact neutral_lit h1 c hc
        · exact (hi i).1 c hc
      · intro hc
        rcases List.mem_append.mp hc with hc | hc
        · exact h2 hc
        · exact (hi i).2 hc
    cases p with
    | magic b => exact absurd rfl (hp b)
    | data b => exact lit (str ": " ++ str "invalid ELF data ") _ (by decide) (by decide)
    | cls b => exact lit (str ": " ++ str "invalid ELF class ") _ (by decide) (by decide)
    | short off => exact lit (str ": " ++ str "error while reading ELF file at offset ") _ (by decide +kernel) (by decide +kernel)
  have e : badElfText fn p = str "cannot parse ELF file " ++ (fn ++ (str ": " ++ p.text)) := by
    unfold badElfText
    simp
  rw [e]
  exact shown_within norm (neutral_lit (by decide)) key.1 key.2

-- a name that is shown although it opens a bracket, and one that is not
example (norm : Str → Str) : renderE norm (str "Archive \"" ++ str "a[b" ++ str "\" not found.") = some (str "Archive \"a[b\" not found.") :=
  (C113_archive_iff norm (str "a[b")).mpr ⟨fun ⟨x, c, b, y, h, _⟩ => by
    have : ']' ∈ str "a[b" := by rw [h]; simp
    exact absurd this (by decide), fun ⟨x, y, h⟩ => by
    have : '\\' ∈ str "a[b" := by rw [h]; simp
    exact absurd this (by decide)⟩

end EspSize
