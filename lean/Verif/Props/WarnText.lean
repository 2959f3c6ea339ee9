import Verif.Spec.WarnText
import Verif.Props.Warnings
import Verif.Props.SymMsg
import Verif.Props.Frame
import Verif.Props.TreeFmt
/-! # C116: the texts of warnings -/
namespace EspSize

/-- There is a text exactly for the messages that quote no exception. -/
theorem C116_known (m : Msg) : m.text.isSome = true ↔ m ≠ .invalid ∧ m ≠ .badElf := by
  cases m <;> simp [Msg.text]

theorem renderE_of {norm : Str → Str} {s u : Str} {o : List Str} (h1 : tags norm [] s = some o) (h2 : render s = u) : renderE norm s = some u := by
  unfold renderE
  rw [h1, h2]
  rfl

theorem tags_lit {norm : Str → Str} {s : Str} (h : s.all (fun c => c != '[' && c != '\\') = true) (o : List Str) (t : Str) :
    tags norm o (s ++ t) = tags norm o t := tags_neutral (neutral_lit h) o t

theorem tags_litEnd {norm : Str → Str} {s : Str} (h : s.all (fun c => c != '[' && c != '\\') = true) (o : List Str) : tags norm o s = some o := by
  have := tags_lit (norm := norm) h o []
  rw [List.append_nil] at this
  rw [this]; rfl

theorem render_lit {s : Str} (h : s.all (fun c => c != '[' && c != '\\') = true) (t : Str) : render (s ++ t) = s ++ render t :=
  render_neutral (neutral_lit h) t

theorem render_part {s : MSec} (h : NoMarkup s.name) (more : Str) : render (partText s more) = partText s (render more) := by
  have e : ∀ x, partText s x = s.name ++ '(' :: (str "addr: " ++ (intStr s.address ++ (str ", size: " ++ (intStr s.size ++ (str ")" ++ x))))) := fun x => by
    simp [partText, str]
  rw [e, e, render_noMarkup h (by decide) (by decide) (by decide), render_lit (by decide), render_neutral (intStr_neutral _), render_lit (by decide),
    render_neutral (intStr_neutral _), render_lit (by decide)]

theorem tags_part {norm : Str → Str} {s : MSec} (h : NoMarkup s.name) (o : List Str) (more : Str) : tags norm o (partText s more) = tags norm o more := by
  have e : ∀ x, partText s x = s.name ++ '(' :: (str "addr: " ++ (intStr s.address ++ (str ", size: " ++ (intStr s.size ++ (str ")" ++ x))))) := fun x => by
    simp [partText, str]
  rw [e, tags_noMarkup h (by decide) (by decide) (by decide), tags_lit (by decide), tags_neutral (intStr_neutral _), tags_lit (by decide),
    tags_neutral (intStr_neutral _), tags_lit (by decide)]

/-- The text shown, if no name looks like markup: all names and numbers, and nothing is raised. -/
theorem C116_shown_partial (norm : Str → Str) (m : Msg) (t : Str) (ht : m.text = some t) (h : m.plain) : ∃ u, renderE norm t = some u ∧ Tells u m := by
  have lit : ∀ {s : Str}, s.all (fun c => c != '[' && c != '\\') = true → renderE norm s = some s := fun h => renderE_of (tags_litEnd h []) (shown_lit h)
  cases m with
  | noAbbrev => cases ht; exact ⟨_, lit (by decide +kernel), rfl⟩
  | noDiff => cases ht; exact ⟨_, lit (by decide +kernel), rfl⟩
  | noTarget => cases ht; exact ⟨_, lit (by decide +kernel), rfl⟩
  | noDesc => cases ht; exact ⟨_, lit (by decide +kernel), rfl⟩
  | noElf => cases ht; exact ⟨_, lit (by decide +kernel), rfl⟩
  | invalid => cases ht
  | badElf => cases ht
  | targets a b =>
    cases ht
    have e : targetsText a b = str "The target of the reference and other project is " ++ (a ++ ' ' :: (str "and " ++ (b ++ ',' :: str " respectively."))) := by
      simp [targetsText, str]
    refine ⟨_, renderE_of (o := []) ?_ ?_, rfl⟩
    · rw [e, tags_lit (by decide +kernel), tags_noMarkup h.1 (by decide) (by decide) (by decide), tags_lit (by decide),
        tags_noMarkup h.2 (by decide) (by decide) (by decide), tags_litEnd (by decide)]
    · rw [e, render_lit (by decide +kernel), render_noMarkup h.1 (by decide) (by decide) (by decide), render_lit (by decide),
        render_noMarkup h.2 (by decide) (by decide) (by decide), shown_lit (by decide)]
      simp [str]
  | region name =>
    cases ht
    have e : str "cannot assign memory region " ++ name ++ str " to chip memory type" =
        str "cannot assign memory region " ++ (name ++ ' ' :: str "to chip memory type") := by simp [str]
    refine ⟨_, renderE_of (o := []) ?_ ?_, rfl⟩
    · rw [e, tags_lit (by decide), tags_noMarkup h (by decide) (by decide) (by decide), tags_litEnd (by decide)]
    · rw [e, render_lit (by decide), render_noMarkup h (by decide) (by decide) (by decide), shown_lit (by decide)]
      rfl
  | nowhere s =>
    simp only [Msg.text, Option.some.injEq] at ht
    have e : t = str "cannot assign output section " ++ partText s (str " to any memory type") := by rw [← ht]; simp [partText, str]
    refine ⟨_, renderE_of (o := []) ?_ ?_, rfl⟩
    · rw [e, tags_lit (by decide), tags_part h, tags_litEnd (by decide)]
    · rw [e, render_lit (by decide), render_part h, shown_lit (by decide)]
  | exceeds s r =>
    simp only [Msg.text, Option.some.injEq] at ht
    have e : t = str "output section " ++ partText s (str " exceeds memory region \"" ++ (r.name ++ '"' :: (str " (addr: " ++ (intStr r.origin ++
        (str ", size: " ++ (intStr r.length ++ str ")")))))) := by rw [← ht]; simp [partText, str]
    refine ⟨_, renderE_of (o := []) ?_ ?_, rfl⟩
    · rw [e, tags_lit (by decide), tags_part h.1, tags_lit (by decide), tags_noMarkup h.2 (by decide) (by decide) (by decide), tags_lit (by decide),
        tags_neutral (intStr_neutral _), tags_lit (by decide), tags_neutral (intStr_neutral _), tags_litEnd (by decide)]
    · rw [e, render_lit (by decide), render_part h.1, render_lit (by decide), render_noMarkup h.2 (by decide) (by decide) (by decide), render_lit (by decide),
        render_neutral (intStr_neutral _), render_lit (by decide), render_neutral (intStr_neutral _), shown_lit (by decide)]
      simp [str]
  | overflow s r =>
    simp only [Msg.text, Option.some.injEq] at ht
    have e : t = '[' :: (str "red]" ++ (r.type.name ++ ' ' :: (str "overflow detected!" ++ '[' :: (str "/red]" ++ (str ": output section or its part " ++ partText s
        (str " does not fit into any memory region and will be assigned to the preceding " ++ (r.name ++ ' ' :: str "memory region"))))))) := by
      rw [← ht]; simp [partText, str]
    have hopen : ∀ x, tagText (str "red]" ++ x) = some (str "red", x) := fun x => rfl
    have hclose : ∀ x, tagText (str "/red]" ++ x) = some (str "/red", x) := fun x => rfl
    have st1 : stackTag norm [] (str "red") = some [norm (str "red")] := rfl
    have st2 : stackTag norm [norm (str "red")] (str "/red") = some [] := by
      show (if strip (str "red") = [] then some [] else if norm (strip (str "red")) ∈ [norm (str "red")] then some ([norm (str "red")].erase (norm (strip (str "red")))) else none) = _
      rw [show strip (str "red") = str "red" by decide, if_neg (by decide), if_pos (by simp)]
      simp
    refine ⟨_, renderE_of (o := []) ?_ ?_, rfl⟩
    · rw [e, tags_tag _ _ (hopen _), st1, Option.bind_some, tags_noMarkup h.2.2 (by decide) (by decide) (by decide), tags_lit (by decide), tags_tag _ _ (hclose _), st2,
        Option.bind_some, tags_lit (by decide), tags_part h.1, tags_lit (by decide +kernel), tags_noMarkup h.2.1 (by decide) (by decide) (by decide), tags_litEnd (by decide)]
    · rw [e, render_tag _ (hopen _), render_noMarkup h.2.2 (by decide) (by decide) (by decide), render_lit (by decide), render_tag _ (hclose _), render_lit (by decide),
        render_part h.1, render_lit (by decide +kernel), render_noMarkup h.2.1 (by decide) (by decide) (by decide), shown_lit (by decide)]
      simp [str]

/-! ### Reading a message -/

theorem upto_inj {c : Char} : ∀ {a b x y : Str}, c ∉ a → c ∉ b → a ++ c :: x = b ++ c :: y → a = b ∧ x = y := by
  intro a
  induction a with
  | nil =>
    intro b x y _ hb h
    cases b with
    | nil => exact ⟨rfl, (List.cons.inj h).2⟩
    | cons d b => exact absurd (by rw [(List.cons.inj h).1]; simp) hb
  | cons d a ih =>
    intro b x y ha hb h
    cases b with
    | nil => exact absurd (by rw [← (List.cons.inj h).1]; simp) ha
    | cons e b =>
      obtain ⟨h1, h2⟩ := List.cons.inj h
      obtain ⟨h3, h4⟩ := ih (fun h => ha (by simp [h])) (fun h => hb (by simp [h])) h2
      exact ⟨by rw [h1, h3], h4⟩

theorem num_upto {c : Char} (hc : ¬ NumChar c) {a b : Int} {x y : Str} (h : intStr a ++ c :: x = intStr b ++ c :: y) : a = b ∧ x = y := by
  obtain ⟨h1, h2⟩ := upto_inj (fun h => hc (intStr_chars _ _ h)) (fun h => hc (intStr_chars _ _ h)) h
  exact ⟨intStr_injective h1, h2⟩

theorem partText_inj {s s' : MSec} {x y : Str} (hs : '(' ∉ s.name) (hs' : '(' ∉ s'.name) (h : partText s x = partText s' y) :
    s.name = s'.name ∧ s.address = s'.address ∧ s.size = s'.size ∧ x = y := by
  obtain ⟨h1, h2⟩ := upto_inj hs hs' (show s.name ++ '(' :: (str "addr: " ++ _) = s'.name ++ '(' :: (str "addr: " ++ _) from h)
  obtain ⟨h3, h4⟩ := num_upto (c := ',') (by unfold NumChar; decide) (List.append_cancel_left h2)
  obtain ⟨h5, h6⟩ := num_upto (c := ')') (by unfold NumChar; decide) (List.append_cancel_left (as := str " size: ") h4)
  exact ⟨h1, h3, h5, h6⟩

/-- The part with its address and size, and the region, can be read from what is shown, if the names have no character that ends them in the text. -/
theorem C116_reads {u : Str} {s s' : MSec} {r r' : SReg} (hs : '(' ∉ s.name) (hs' : '(' ∉ s'.name) :
    (Tells u (.nowhere s) → Tells u (.nowhere s') → s.name = s'.name ∧ s.address = s'.address ∧ s.size = s'.size) ∧
    ('"' ∉ r.name → '"' ∉ r'.name → Tells u (.exceeds s r) → Tells u (.exceeds s' r') → s.name = s'.name ∧ s.address = s'.address ∧ s.size = s'.size ∧
      r.name = r'.name ∧ r.origin = r'.origin ∧ r.length = r'.length) ∧
    ('!' ∉ r.type.name → '!' ∉ r'.type.name → Tells u (.overflow s r) → Tells u (.overflow s' r') → s.name = s'.name ∧ s.address = s'.address ∧ s.size = s'.size ∧
      r.name = r'.name ∧ r.type.name = r'.type.name) := by
  refine ⟨fun h h' => ?_, fun hr hr' h h' => ?_, fun hr hr' h h' => ?_⟩
  · have h2 : str "cannot assign output section " ++ partText s _ = str "cannot assign output section " ++ partText s' _ := Eq.trans (Eq.symm h) h'
    obtain ⟨h3, h4, h5, _⟩ := partText_inj hs hs' (List.append_cancel_left h2)
    exact ⟨h3, h4, h5⟩
  · have h2 : str "output section " ++ partText s _ = str "output section " ++ partText s' _ := Eq.trans (Eq.symm h) h'
    obtain ⟨h3, h4, h5, h6⟩ := partText_inj hs hs' (List.append_cancel_left h2)
    obtain ⟨h7, h8⟩ := upto_inj hr hr' (show r.name ++ '"' :: (str " (addr: " ++ _) = r'.name ++ '"' :: (str " (addr: " ++ _) from List.append_cancel_left h6)
    obtain ⟨h9, h10⟩ := num_upto (c := ',') (by unfold NumChar; decide) (List.append_cancel_left h8)
    obtain ⟨h11, _⟩ := num_upto (c := ')') (by unfold NumChar; decide) (List.append_cancel_left (as := str " size: ") h10)
    exact ⟨h3, h4, h5, h7, h9, h11⟩
  · have e : ∀ (q : SReg) (x : Str), q.type.name ++ (str " overflow detected!: output section or its part " ++ x) =
        (q.type.name ++ str " overflow detected") ++ '!' :: (str ": output section or its part " ++ x) := fun q x => by simp [str]
    have h2 := Eq.trans (Eq.symm h) h'
    rw [e, e] at h2
    have hn : ∀ {q : SReg}, '!' ∉ q.type.name → '!' ∉ q.type.name ++ str " overflow detected" := fun hq hx => by
      rcases List.mem_append.mp hx with hx | hx
      · exact hq hx
      · revert hx; decide
    obtain ⟨h7, h8⟩ := upto_inj (hn hr) (hn hr') h2
    obtain ⟨h3, h4, h5, h6⟩ := partText_inj hs hs' (List.append_cancel_left h8)
    exact ⟨h3, h4, h5, List.append_cancel_right (List.append_cancel_left h6), List.append_cancel_right h7⟩

/-! ### What is said is so -/

/-- "Exceeds": the part starts in the region and ends behind it. "Overflow": the region precedes the part, or all regions are above it and it is the lowest. -/
theorem C116_true (types : Dict Str MemTypeInfo) (regions : List SReg) (s p : MSec) (r : SReg) :
    (.exceeds p r ∈ sectionMsgs types regions s → p = s ∧ r ∈ regions ∧ InRegion r s.address ∧ r.origin + r.length < s.address + s.size) ∧
    (.overflow p r ∈ sectionMsgs types regions s → p = s ∧ r ∈ regions ∧ (∀ q ∈ regions, ¬ InRegion q s.address) ∧
      (Precedes regions r s.address ∨ ∀ q ∈ regions, s.address < q.origin ∧ r.origin ≤ q.origin)) := by
  have hperm := (sortedBy_stable (fun r : SReg => r.origin) false regions).perm
  have hsorted : (sortedBy (fun r : SReg => r.origin) false regions).Pairwise fun a b => a.origin ≤ b.origin := by
    simpa using (sortedBy_stable (fun r : SReg => r.origin) false regions).sorted
  unfold sectionMsgs
  cases hp : place (extRamAlias types) (sortedBy (fun r => r.origin) false regions) s with
  | ext e => exact ⟨fun h => (by cases h), fun h => by cases h⟩
  | nowhere => simp
  | inside q =>
    dsimp only
    obtain ⟨h1, h2⟩ := placeLoop_inside (place_loop hp)
    split
    · rename_i hx
      refine ⟨fun h => ?_, fun h => by simp at h⟩
      simp only [List.mem_singleton, Msg.exceeds.injEq] at h
      obtain ⟨rfl, rfl⟩ := h
      exact ⟨rfl, hperm.mem_iff.mp h1, h2, hx⟩
    · exact ⟨fun h => (by cases h), fun h => by cases h⟩
  | overflow q =>
    refine ⟨fun h => by simp at h, fun h => ?_⟩
    simp only [List.mem_singleton, Msg.overflow.injEq] at h
    obtain ⟨rfl, rfl⟩ := h
    have hloop : placeLoop p.address none (sortedBy (fun r => r.origin) false regions) = .overflow r := by
      unfold place at hp
      split at hp
      · split at hp
        · cases hp
        · exact hp
      · exact hp
    have tr : ∀ {P : SReg → Prop}, (∀ x ∈ sortedBy (fun r : SReg => r.origin) false regions, P x) → ∀ x ∈ regions, P x :=
      fun h x hx => h x (hperm.mem_iff.mpr hx)
    have main : ∀ l : List SReg, (l.Pairwise fun a b => a.origin ≤ b.origin) → placeLoop p.address none l = .overflow r →
        r ∈ l ∧ (∀ q ∈ l, ¬ InRegion q p.address) ∧ (Precedes l r p.address ∨ ∀ q ∈ l, p.address < q.origin ∧ r.origin ≤ q.origin) := by
      intro l hs h
      cases l with
      | nil => cases h
      | cons a l =>
        unfold placeLoop at h
        split at h
        · cases h
        · rename_i hna
          rcases placeLoop_some p.address l a hs with ⟨x, h1, _⟩ | ⟨x, h1, h2, h3, h4, h5⟩ | ⟨h1, _⟩
          · rw [h1] at h; cases h
          · rw [h1] at h
            cases h
            have hin : ∀ q ∈ a :: l, ¬ InRegion q p.address := List.forall_mem_cons.mpr ⟨hna, h2⟩
            refine ⟨h3, hin, ?_⟩
            rcases h5 with ⟨h5, h6⟩ | ⟨rfl, h5⟩
            · refine .inl ⟨h5, ?_, h6⟩
              have := hin r h3
              unfold InRegion at this
              omega
            · refine .inr fun q hq => ?_
              rcases List.mem_cons.mp hq with rfl | hq
              · omega
              · have := (List.pairwise_cons.mp hs).1 q hq
                omega
          · rw [h1] at h; cases h
    obtain ⟨h1, h2, h3⟩ := main _ hsorted hloop
    refine ⟨rfl, hperm.mem_iff.mp h1, tr h2, ?_⟩
    rcases h3 with ⟨h3, h4, h5⟩ | h3
    · exact .inl ⟨h3, h4, tr h5⟩
    · exact .inr (tr h3)

theorem placeLoop_hits {a : Int} {l : List SReg} (hs : l.Pairwise fun x y => x.origin ≤ y.origin) (h : ∃ q ∈ l, InRegion q a) : ∃ r, placeLoop a none l = .inside r := by
  cases l with
  | nil => obtain ⟨q, hq, _⟩ := h; cases hq
  | cons b l =>
    unfold placeLoop
    split
    · exact ⟨b, rfl⟩
    · rename_i hb
      obtain ⟨q, hq, hi⟩ := h
      rcases List.mem_cons.mp hq with rfl | hq
      · exact absurd hi hb
      · rcases placeLoop_some a l b hs with ⟨r, h1, _⟩ | ⟨r, _, h2, _⟩ | ⟨_, h2, _⟩
        · exact ⟨r, h1⟩
        · exact absurd hi (h2 q hq)
        · exact absurd hi (h2 q hq)

/-- "Exceeds" is said of every part that starts in a region and ends behind all regions in which it starts, unless it belongs to external RAM by its name. -/
theorem C116_exceeds (types : Dict Str MemTypeInfo) (regions : List SReg) (s : MSec) (hx : ∀ e, ExtAlias types e → ¬ ExtName s.name)
    (hi : ∃ q ∈ regions, InRegion q s.address) (ho : ∀ q ∈ regions, InRegion q s.address → q.origin + q.length < s.address + s.size) :
    ∃ r ∈ regions, sectionMsgs types regions s = [.exceeds s r] := by
  have hperm := (sortedBy_stable (fun r : SReg => r.origin) false regions).perm
  have hsorted : (sortedBy (fun r : SReg => r.origin) false regions).Pairwise fun a b => a.origin ≤ b.origin := by
    simpa using (sortedBy_stable (fun r : SReg => r.origin) false regions).sorted
  obtain ⟨q, hq, hqi⟩ := hi
  obtain ⟨r, hr⟩ := placeLoop_hits hsorted ⟨q, hperm.mem_iff.mpr hq, hqi⟩
  have hp : place (extRamAlias types) (sortedBy (fun r => r.origin) false regions) s = .inside r := by
    unfold place
    cases he : extRamAlias types with
    | none => exact hr
    | some e =>
      have : ¬ startsWithAny s.name extRamSectionNames = true := fun h => hx e (extRamAlias_some.mp he) ((extName_iff _).mp h)
      dsimp only
      rw [if_neg this]
      exact hr
  obtain ⟨h1, h2⟩ := placeLoop_inside hr
  have h1 := hperm.mem_iff.mp h1
  refine ⟨r, h1, ?_⟩
  unfold sectionMsgs
  rw [hp]
  dsimp only
  rw [if_pos (ho r h1 h2)]

def exWarnType : MemTypeInfo := { name := str "RAM", primary := 0, length := 0x400, secondary := 0 }
def exWarnLow : SReg := ⟨str "dram", 0x100, 0x10, str "rw", exWarnType⟩
def exWarnHigh : SReg := ⟨str "iram", 0x200, 0x10, str "xr", exWarnType⟩

/-- Code violates the property: a part below all regions is said to be assigned to the preceding region, which is above it. -/
theorem C116_not_preceding : ∃ types regions s r, sectionMsgs types regions s = [.overflow s r] ∧ r.type.name = str "RAM" ∧ s.address < r.origin :=
  ⟨[(str "RAM", exWarnType)], [exWarnLow, exWarnHigh], ⟨str ".data", str "data", 0, 4, []⟩, exWarnLow, by decide +kernel, rfl, by decide⟩

/-- Code violates the property: a name that looks like markup is not shown, and one that looks like the end of a style stops the run with an exception. -/
theorem C116_hidden :
    (∃ t, (Msg.nowhere ⟨str ".data[a]", [], 0, 4, []⟩).text = some t ∧ (Msg.nowhere ⟨str ".data", [], 0, 4, []⟩).text = some (render t)) ∧
    ∀ norm, ∃ t, (Msg.nowhere ⟨str ".data[/]", [], 0, 4, []⟩).text = some t ∧ renderE norm t = none := by
  refine ⟨⟨_, rfl, by decide +kernel⟩, fun norm => ⟨str "cannot assign output section .data" ++ '[' :: (str "/]" ++ str "(addr: 0, size: 4) to any memory type"),
    by decide +kernel, ?_⟩⟩
  unfold renderE
  rw [tags_lit (by decide), tags_tag _ _ (show tagText (str "/]" ++ _) = some (str "/", _) from rfl)]
  rfl

-- a part behind the region `dram`
example : sectionMsgs [(str "RAM", exWarnType)] [exWarnLow, exWarnHigh] ⟨str ".data", str "data", 0x180, 4, []⟩ =
    [.overflow ⟨str ".data", str "data", 0x180, 4, []⟩ exWarnLow] := by decide +kernel

example : Tells (str "RAM overflow detected!: output section or its part .data(addr: 384, size: 4) does not fit into any memory region and will be assigned to the preceding dram memory region")
    (.overflow ⟨str ".data", str "data", 0x180, 4, []⟩ exWarnLow) := by unfold Tells; decide +kernel

-- a part that does not fit
example : sectionMsgs [(str "RAM", exWarnType)] [exWarnLow, exWarnHigh] ⟨str ".data", str "data", 0x10e, 4, []⟩ =
    [.exceeds ⟨str ".data", str "data", 0x10e, 4, []⟩ exWarnLow] := by decide +kernel

end EspSize
