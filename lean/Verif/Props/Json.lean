import Verif.Model.Json
import Verif.Proofs.Json
import Verif.Props.Csv
import Verif.Spec.Tree
import Verif.Props.Unify
/-!
# C68: JSON output

The text printed with `--format json2` and `--format raw` is JSON, and reading it by the documented keys gives the
reported values; unless a name contains text in brackets that the console takes for markup (`NoMarkup`).
-/
namespace EspSize

/-! ## Printing -/

/-- Shown as it is, whatever follows. -/
def Clean (s : Str) : Prop := ∀ t, render (s ++ t) = s ++ render t

theorem clean_neutral {s : Str} (h : Neutral s) : Clean s := fun t => render_neutral h t

theorem clean_append {a b : Str} (ha : Clean a) (hb : Clean b) : Clean (a ++ b) := by
  intro t; rw [List.append_assoc, ha, hb, List.append_assoc]

theorem clean_char {c : Char} (h1 : c ≠ '[') (h2 : c ≠ '\\') : Clean [c] :=
  clean_neutral fun x hx => by cases List.mem_singleton.mp hx; exact ⟨h1, h2⟩

theorem clean_cons {c : Char} {s : Str} (h1 : c ≠ '[') (h2 : c ≠ '\\') (hs : Clean s) : Clean (c :: s) :=
  clean_append (clean_char h1 h2) hs

/-- A bracket before a character that no tag starts with. -/
theorem clean_bracket {c : Char} {s : Str} (h : tagStart c = false) (hs : Clean (c :: s)) : Clean ('[' :: c :: s) := by
  intro t
  have e : tagAt ('[' :: c :: (s ++ t)) = none := by
    unfold tagAt tagText
    simp [h]
  show render ('[' :: c :: (s ++ t)) = _
  have hr : render ('[' :: c :: (s ++ t)) = '[' :: render (c :: (s ++ t)) := by
    unfold render
    show renderN ((c :: (s ++ t)).length + 1) _ = _
    generalize (c :: (s ++ t)).length = n
    rw [renderN, e]
    intro _ h
    exact absurd h (by decide)
  rw [hr]
  exact congrArg ('[' :: ·) (hs t)

/-! A string in quotes: the escapes contain no brackets. -/

theorem escape_cases (c : Char) : (escapeChar c = [c] ∧ c ≠ '\\') ∨
    ∃ t e, escapeChar c = '\\' :: (t ++ [e]) ∧ '[' ∉ t ++ [e] ∧ ']' ∉ t ++ [e] ∧ (c ≠ '\\' → e ≠ '\\') := by
  have hx : ∀ d : Fin 16, hexChar d ≠ '[' ∧ hexChar d ≠ ']' ∧ hexChar d ≠ '\\' := by decide
  have hh : ∀ n, hexChar (n % 16) ≠ '[' ∧ hexChar (n % 16) ≠ ']' ∧ hexChar (n % 16) ≠ '\\' := fun n => hx ⟨n % 16, Nat.mod_lt _ (by omega)⟩
  have hu : ∀ n, ∃ t e, uEscape n = '\\' :: (t ++ [e]) ∧ '[' ∉ t ++ [e] ∧ ']' ∉ t ++ [e] ∧ e ≠ '\\' := by
    intro n
    refine ⟨['u', hexChar (n / 4096 % 16), hexChar (n / 256 % 16), hexChar (n / 16 % 16)], hexChar (n % 16), rfl, ?_, ?_, (hh n).2.2⟩
    all_goals
      intro hn
      simp only [List.cons_append, List.nil_append, List.mem_cons, List.not_mem_nil, or_false] at hn
      rcases hn with hn | hn | hn | hn | hn
    · revert hn; decide
    · exact (hh _).1 hn.symm
    · exact (hh _).1 hn.symm
    · exact (hh _).1 hn.symm
    · exact (hh _).1 hn.symm
    · revert hn; decide
    · exact (hh _).2.1 hn.symm
    · exact (hh _).2.1 hn.symm
    · exact (hh _).2.1 hn.symm
    · exact (hh _).2.1 hn.symm
  unfold escapeChar
  by_cases h1 : c = '"'
  · rw [if_pos h1]; exact .inr ⟨[], '"', rfl, by decide, by decide, fun _ => by decide⟩
  rw [if_neg h1]
  by_cases h2 : c = '\\'
  · rw [if_pos h2]; exact .inr ⟨[], '\\', rfl, by decide, by decide, fun h => absurd h2 h⟩
  rw [if_neg h2]
  split
  · exact .inr ⟨[], 'n', rfl, by decide, by decide, fun _ => by decide⟩
  split
  · exact .inr ⟨[], 'r', rfl, by decide, by decide, fun _ => by decide⟩
  split
  · exact .inr ⟨[], 't', rfl, by decide, by decide, fun _ => by decide⟩
  split
  · exact .inr ⟨[], 'f', rfl, by decide, by decide, fun _ => by decide⟩
  split
  · exact .inr ⟨[], 'b', rfl, by decide, by decide, fun _ => by decide⟩
  split
  · exact .inl ⟨rfl, h2⟩
  split
  · obtain ⟨t, e, h, ha, hb, hc⟩ := hu c.toNat
    exact .inr ⟨t, e, h, ha, hb, fun _ => hc⟩
  · obtain ⟨t, e, h, ha, hb, _⟩ := hu (0xd800 + (c.toNat - 0x10000) / 1024)
    obtain ⟨t', e', h', ha', hb', hc⟩ := hu (0xdc00 + (c.toNat - 0x10000) % 1024)
    rw [h, h']
    have key : ∀ q : Char, q ≠ '\\' → q ∉ t ++ [e] → q ∉ t' ++ [e'] → q ∉ (t ++ [e] ++ '\\' :: t') ++ [e'] := by
      intro q h1 h2 h3 hm
      rw [show (t ++ [e] ++ '\\' :: t') ++ [e'] = (t ++ [e]) ++ '\\' :: (t' ++ [e']) by simp] at hm
      rcases List.mem_append.mp hm with hm | hm
      · exact h2 hm
      · rcases List.mem_cons.mp hm with hm | hm
        · exact h1 hm
        · exact h3 hm
    exact .inr ⟨t ++ [e] ++ '\\' :: t', e', by simp, key _ (by decide) ha ha', key _ (by decide) hb hb', fun _ => hc⟩

/-- A bracket among the escaped characters is a bracket of the string. -/
theorem escape_split {q : Char} (hq : q = '[' ∨ q = ']') {s before rest : Str} (h : s.flatMap escapeChar = before ++ q :: rest) :
    ∃ s1 s2, s = s1 ++ q :: s2 ∧ s1.flatMap escapeChar = before ∧ s2.flatMap escapeChar = rest := by
  induction s generalizing before with
  | nil => cases before <;> cases h
  | cons x s ih =>
    rw [List.flatMap_cons] at h
    rcases escape_cases x with ⟨e, _⟩ | ⟨t, y, e, h1, h2, _⟩
    · rw [e] at h
      cases before with
      | nil =>
        rw [List.nil_append, List.cons_append, List.nil_append] at h
        injection h with hx h
        exact ⟨[], s, by rw [hx]; rfl, rfl, h⟩
      | cons b before =>
        rw [List.cons_append, List.cons_append, List.nil_append] at h
        injection h with hx h
        obtain ⟨s1, s2, e1, e2, e3⟩ := ih h
        exact ⟨x :: s1, s2, by rw [e1]; rfl, by rw [List.flatMap_cons, e, e2, hx]; rfl, e3⟩
    · have hn : q ∉ escapeChar x := by
        rw [e]
        intro hm
        rcases List.mem_cons.mp hm with hm | hm
        · rcases hq with rfl | rfl <;> (revert hm; decide)
        · rcases hq with rfl | rfl
          · exact h1 hm
          · exact h2 hm
      rcases List.append_eq_append_iff.mp h with ⟨a', e1, e2⟩ | ⟨c', e1, e2⟩
      · obtain ⟨s1, s2, e3, e4, e5⟩ := ih e2
        exact ⟨x :: s1, s2, by rw [e3]; rfl, by rw [List.flatMap_cons, e4, e1], e5⟩
      · cases c' with
        | nil =>
          rw [List.nil_append] at e2
          obtain ⟨s1, s2, e3, e4, e5⟩ := ih (before := []) e2.symm
          exact ⟨x :: s1, s2, by rw [e3]; rfl, by rw [List.flatMap_cons, e4, e1]; simp, e5⟩
        | cons z c' =>
          injection e2 with hz _
          exact absurd (by rw [e1, hz]; simp) hn

theorem noMarkup_escape {s : Str} (h : NoMarkup s) : NoMarkup (s.flatMap escapeChar) := by
  have hin : ∀ u : Str, '[' ∈ u → '[' ∈ u.flatMap escapeChar := fun u hu => List.mem_flatMap.mpr ⟨'[', hu, by decide⟩
  have first : ∀ {u : Str} {c : Char} {r : Str}, u.flatMap escapeChar = c :: r → tagStart c = true → ∃ u', u = c :: u' ∧ u'.flatMap escapeChar = r := by
    intro u c r hu hc
    cases u with
    | nil => cases hu
    | cons x u =>
      rw [List.flatMap_cons] at hu
      rcases escape_cases x with ⟨e, _⟩ | ⟨t, y, e, _⟩
      · rw [e] at hu
        injection hu with hx hu
        exact ⟨u, by rw [hx], hu⟩
      · rw [e] at hu
        injection hu with hx _
        rw [← hx] at hc
        exact absurd hc (by decide)
  refine ⟨?_, ?_, ?_⟩
  · rintro ⟨a, c, b, r, e, hb, hc⟩
    obtain ⟨s1, s2, e1, _, e3⟩ := escape_split (.inl rfl) e
    obtain ⟨u, e4, e5⟩ := first e3 ((tagStart_iff c).mpr hc)
    obtain ⟨b1, b2, e6, e7, _⟩ := escape_split (.inr rfl) e5
    refine h.tag ⟨s1, c, b1, b2, by rw [e1, e4, e6], fun hm => hb ?_, hc⟩
    rw [← e7]; exact hin _ hm
  · rintro ⟨a, c, b, e, hb, hc⟩
    obtain ⟨s1, s2, e1, _, e3⟩ := escape_split (.inl rfl) e
    obtain ⟨u, e4, e5⟩ := first e3 ((tagStart_iff c).mpr hc)
    refine h.opens ⟨s1, c, u, by rw [e1, e4], fun hm => hb ?_, hc⟩
    rw [← e5]; exact hin _ hm
  · rintro ⟨a, r, e⟩
    obtain ⟨s1, s2, e1, e2, _⟩ := escape_split (before := a ++ ['\\']) (rest := r) (.inl rfl) (by rw [e]; simp)
    rcases List.eq_nil_or_concat s1 with rfl | ⟨l, x, rfl⟩
    · cases a <;> cases e2
    · rw [List.concat_eq_append] at e1 e2
      rw [List.flatMap_append] at e2
      have hl := congrArg List.getLast? e2
      rw [List.flatMap_cons, List.flatMap_nil, List.append_nil, List.getLast?_append] at hl
      have hxe : x = '\\' := by
        rcases escape_cases x with ⟨e, hx⟩ | ⟨t, y, e, _, _, hy⟩
        · rw [e] at hl
          simpa using hl
        · rw [e] at hl
          by_cases hx : x = '\\'
          · exact hx
          · exfalso
            have : ('\\' :: (t ++ [y])).getLast? = some y := by
              rw [show '\\' :: (t ++ [y]) = ('\\' :: t) ++ [y] by simp, List.getLast?_append]; rfl
            rw [this] at hl
            exact hy hx (by simpa using hl)
      exact h.escape ⟨l, s2, by rw [e1, hxe]; simp⟩

theorem clean_jsonStr {s : Str} (h : NoMarkup s) : Clean (jsonStr s) := by
  intro t
  have hb := noMarkup_escape h
  unfold jsonStr
  simp only [List.cons_append, List.append_assoc, List.nil_append]
  rw [render_cons (by decide) (by decide), tidy_noMarkup hb, hb.shown]

theorem clean_nl (lvl : Nat) : Clean (jsonNl lvl) :=
  clean_cons (by decide) (by decide) (clean_neutral fun c hc => by
    rw [(List.mem_replicate.mp hc).2]; decide)

theorem clean_int (i : Int) : Clean (intStr i) := clean_neutral (intStr_neutral i)

theorem clean_nil : Clean [] := fun _ => rfl

mutual
theorem clean_dump (lvl : Nat) (v : Json) (h : ∀ s ∈ v.strings, NoMarkup s) : Clean (v.dump lvl) := by
  match v with
  | .int i => unfold Json.dump; exact clean_int i
  | .str s => unfold Json.dump; exact clean_jsonStr (h s (by unfold Json.strings; simp))
  | .arr l =>
    unfold Json.strings at h
    have hi := clean_items (lvl + 1) l h
    unfold Json.dump
    cases l with
    | nil => exact clean_bracket (by decide) (clean_char (by decide) (by decide))
    | cons x t =>
      simp only [List.isEmpty_cons, Bool.false_eq_true, if_false]
      have hc := clean_append (clean_append hi (clean_nl lvl)) (clean_char (c := ']') (by decide) (by decide))
      have e : ∃ r, dumpItems (lvl + 1) (x :: t) ++ jsonNl lvl ++ [']'] = '\n' :: r := by
        rw [dumpItems]
        unfold jsonNl
        exact ⟨_, rfl⟩
      obtain ⟨r, e⟩ := e
      rw [e] at hc ⊢
      exact clean_bracket (by decide) hc
  | .obj l =>
    unfold Json.strings at h
    have hi := clean_members (lvl + 1) l h
    unfold Json.dump
    cases l with
    | nil => exact clean_cons (by decide) (by decide) (clean_char (by decide) (by decide))
    | cons x t =>
      simp only [List.isEmpty_cons, Bool.false_eq_true, if_false]
      exact clean_cons (by decide) (by decide) (clean_append (clean_append hi (clean_nl lvl)) (clean_char (by decide) (by decide)))
termination_by structural v
theorem clean_items (lvl : Nat) (l : List Json) (h : ∀ s ∈ itemStrings l, NoMarkup s) : Clean (dumpItems lvl l) := by
  match l with
  | [] => unfold dumpItems; exact clean_nil
  | x :: t =>
    unfold itemStrings at h
    unfold dumpItems
    refine clean_append (clean_append (clean_append (clean_nl lvl) (clean_dump lvl x fun s hs => h s (by simp [hs]))) ?_)
      (clean_items lvl t fun s hs => h s (by simp [hs]))
    split
    · exact clean_nil
    · exact clean_char (by decide) (by decide)
termination_by structural l
theorem clean_members (lvl : Nat) (l : List (Str × Json)) (h : ∀ s ∈ memberStrings l, NoMarkup s) :
    Clean (dumpMembers lvl l) := by
  match l with
  | [] => unfold dumpMembers; exact clean_nil
  | x :: t =>
    unfold memberStrings at h
    unfold dumpMembers
    refine clean_append (clean_append (clean_append (clean_nl lvl) (clean_member lvl x fun s hs => h s (by simp [hs]))) ?_)
      (clean_members lvl t fun s hs => h s (by simp [hs]))
    split
    · exact clean_nil
    · exact clean_char (by decide) (by decide)
termination_by structural l
theorem clean_member (lvl : Nat) (p : Str × Json) (h : ∀ s ∈ pairStrings p, NoMarkup s) : Clean (dumpMember lvl p) := by
  match p with
  | (k, x) =>
    unfold pairStrings at h
    unfold dumpMember
    exact clean_append (clean_jsonStr (h k (by simp))) (clean_cons (by decide) (by decide)
      (clean_cons (by decide) (by decide) (clean_dump lvl x fun s hs => h s (by simp [hs]))))
termination_by structural p
end

/-- `log.print(json.dumps(v, indent=4))` without the final newline. -/
def shownJson (v : Json) : Str := render (jsonDumps v)

/-- **C68**, every value: what is shown is JSON text for it. -/
theorem C68_text_partial (v : Json) (h : ∀ s ∈ v.strings, NoMarkup s) : readJson (shownJson v) = some v := by
  have e : shownJson v = jsonDumps v := by
    have := clean_dump 0 v h []
    simpa [shownJson, jsonDumps, render_nil] using this
  rw [e, readJson_dumps]

/-! ## Documents -/

theorem asDict_dictJson {α : Type} {f : Json → Option α} {g : α → Json} (h : ∀ x, f (g x) = some x) (d : Dict Str α) :
    asDict f (dictJson g d) = some d := by
  unfold asDict dictJson
  induction d with
  | nil => rfl
  | cons p d ih =>
    simp only [List.map_cons, List.mapM_cons, h, Option.map_some, bind, Option.bind] at ih ⊢
    rw [ih]; rfl

theorem asList_map {α : Type} {f : Json → Option α} {g : α → Json} (h : ∀ x, f (g x) = some x) (l : List α) :
    asList f (.arr (l.map g)) = some l := by
  unfold asList
  induction l with
  | nil => rfl
  | cons x l ih =>
    simp only [List.map_cons, List.mapM_cons, h, bind, Option.bind] at ih ⊢
    rw [ih]; rfl

theorem asSym_symJson (s : Sym) : asSym (symJson s) = some s := by
  obtain ⟨a, z, d, n⟩ := s
  cases n <;> rfl

theorem asNode_nodeJson {α : Type} {f : Json → Option α} {g : α → Json} (h : ∀ x, f (g x) = some x) (x : Node α) :
    asNode "symbols" f (nodeJson (str "symbols") g x) = some x ∧
    asNode "object_files" f (nodeJson (str "object_files") g x) = some x ∧
    asNode "archives" f (nodeJson (str "archives") g x) = some x := by
  have hd := asDict_dictJson h x.kids
  refine ⟨?_, ?_, ?_⟩
  · show (asDict f (dictJson g x.kids)).bind (fun k => some (Node.mk x.abb x.size x.sizeDiff k)) = _
    rw [hd]; rfl
  · show (asDict f (dictJson g x.kids)).bind (fun k => some (Node.mk x.abb x.size x.sizeDiff k)) = _
    rw [hd]; rfl
  · show (asDict f (dictJson g x.kids)).bind (fun k => some (Node.mk x.abb x.size x.sizeDiff k)) = _
    rw [hd]; rfl

theorem asType_typeJson (t : MType) : asType (typeJson t) = some t := by
  have h1 := fun x => (asNode_nodeJson asSym_symJson x).1
  have h2 := fun x => (asNode_nodeJson h1 x).2.1
  have h3 := fun x => (asNode_nodeJson h2 x).2.2
  have hd := asDict_dictJson (g := secJson) h3 t.sections
  show (asDict _ (dictJson _ t.sections)).bind (fun k => some (MType.mk t.size t.sizeDiff t.used t.usedDiff k)) = _
  rw [hd]; rfl

theorem asMap_mapJson (m : MemMap) : asMap (mapJson m) = some m := by
  have hd := asDict_dictJson asType_typeJson m.memoryTypes
  show (asDict asType (dictJson typeJson m.memoryTypes)).bind (fun k => some (MemMap.mk m.version m.target m.targetDiff
    m.imageSize m.imageSizeDiff m.projectPath m.projectPathDiff k)) = _
  rw [hd]; rfl

theorem asEntries_entriesJson (es : Dict Str Entry) : asEntries (entriesJson es) = some es := by
  refine asDict_dictJson (fun e => ?_) es
  have ht : ∀ t, asSType (stypeJson t) = some t := by
    intro t
    show (asDict asSSec (dictJson ssecJson t.sections)).bind (fun k => some (SType.mk t.size t.sizeDiff k)) = _
    rw [asDict_dictJson (fun s => by rfl)]; rfl
  show (asDict asSType (dictJson stypeJson e.types)).bind (fun k => some (Entry.mk e.abb e.size e.sizeDiff k)) = _
  rw [asDict_dictJson ht]; rfl

theorem asDeps_depsJson (d : Deps) : asDeps (depsJson d) = some d := by
  refine asDict_dictJson (fun e => ?_) d
  have ht : ∀ i, asDepInfo (depInfoJson i) = some i := by
    intro i
    show (asList asStr (.arr (i.symbols.map .str))).bind (fun k => some (DepInfo.mk i.abb i.size k)) = _
    rw [asList_map (fun s => by rfl)]; rfl
  show (asDict asDepInfo (dictJson depInfoJson e.archives)).bind (fun k => some (DepArch.mk e.abb e.size k)) = _
  rw [asDict_dictJson ht]; rfl

theorem asSummary_summaryJson (s : JsonSummary) : asSummary (summaryJson s) = some s := by
  have ht : ∀ l, asLayout (layoutJson l) = some l := by
    intro l
    show (asDict (intAt "size") (dictJson (fun z => .obj [(str "size", .int z)]) l.parts)).bind
      (fun k => some (Layout.mk l.name l.total l.used l.free k)) = _
    rw [asDict_dictJson (fun z => by rfl)]; rfl
  show (asList asLayout (.arr (s.layout.map layoutJson))).bind (fun k => some (JsonSummary.mk s.version s.totalSize k)) = _
  rw [asList_map ht]; rfl

/-- **C68**: reading the text shown for a report by its keys gives the report, for each of the four documents. -/
theorem C68_documents_partial :
    (∀ m : MemMap, (∀ s ∈ (mapJson m).strings, NoMarkup s) → (readJson (shownJson (mapJson m))).bind asMap = some m) ∧
    (∀ es : Dict Str Entry, (∀ s ∈ (entriesJson es).strings, NoMarkup s) →
      (readJson (shownJson (entriesJson es))).bind asEntries = some es) ∧
    (∀ d : Deps, (∀ s ∈ (depsJson d).strings, NoMarkup s) → (readJson (shownJson (depsJson d))).bind asDeps = some d) ∧
    (∀ x : JsonSummary, (∀ s ∈ (summaryJson x).strings, NoMarkup s) →
      (readJson (shownJson (summaryJson x))).bind asSummary = some x) := by
  refine ⟨fun m h => ?_, fun es h => ?_, fun d h => ?_, fun x h => ?_⟩
  · rw [C68_text_partial _ h]; exact asMap_mapJson m
  · rw [C68_text_partial _ h]; exact asEntries_entriesJson es
  · rw [C68_text_partial _ h]; exact asDeps_depsJson d
  · rw [C68_text_partial _ h]; exact asSummary_summaryJson x

/-! ## Distinct keys -/

theorem membersDistinct_map {α : Type} {g : α → Json} {d : Dict Str α} (h : ∀ p ∈ d, (g p.2).Distinct) :
    membersDistinct (d.map fun p => (p.1, g p.2)) := by
  induction d with
  | nil => unfold membersDistinct; trivial
  | cons p d ih =>
    rw [List.map_cons]
    unfold membersDistinct pairDistinct
    exact ⟨h p (by simp), ih fun q hq => h q (by simp [hq])⟩

theorem distinct_dictJson {α : Type} {g : α → Json} {d : Dict Str α} (hk : KeysNodup d) (h : ∀ p ∈ d, (g p.2).Distinct) :
    (dictJson g d).Distinct := by
  unfold dictJson Json.Distinct
  refine ⟨?_, membersDistinct_map h⟩
  rw [List.map_map]
  exact hk

theorem distinct_sym (s : Sym) : (symJson s).Distinct := by
  obtain ⟨a, z, d, n⟩ := s
  cases n <;>
  · simp only [symJson, List.map_cons, Json.Distinct, membersDistinct, pairDistinct, List.cons_append, List.nil_append, Bool.false_eq_true,
      if_false, if_true, List.append_nil, List.map_nil, List.nodup_nil, and_true]
    decide

theorem distinct_node {α : Type} {W : α → Prop} {g : α → Json} (h : ∀ x, W x → (g x).Distinct) (sub : Str)
    (hs : sub ∈ [str "symbols", str "object_files", str "archives"]) (x : Node α) (hx : x.WF W) :
    (nodeJson sub g x).Distinct := by
  have hd := distinct_dictJson (g := g) hx.1 fun p hp => h p.2 (hx.2 p hp)
  unfold nodeJson
  simp only [List.map_cons, List.map_nil, Json.Distinct, membersDistinct, pairDistinct, and_true, true_and]
  refine ⟨?_, hd⟩
  simp only [List.mem_cons, List.not_mem_nil, or_false] at hs
  rcases hs with rfl | rfl | rfl <;> decide

/-- **C68**: no object of the raw document has two members with the same key. -/
theorem C68_distinct (m : MemMap) (h : m.WF) : (mapJson m).Distinct := by
  have h1 := distinct_node (W := Sym.WF) (fun s _ => distinct_sym s) (str "symbols") (by simp)
  have h2 := distinct_node (W := Obj.WF) h1 (str "object_files") (by simp)
  have h3 := distinct_node (W := Arch.WF) h2 (str "archives") (by simp)
  have ht : ∀ t : MType, t.WF → (typeJson t).Distinct := by
    intro t ht
    have hd := distinct_dictJson (g := secJson) ht.1 fun p hp => h3 p.2 (ht.2 p hp)
    unfold typeJson
    simp only [List.map_cons, List.map_nil, Json.Distinct, membersDistinct, pairDistinct, and_true, true_and]
    exact ⟨by decide, hd⟩
  have hd := distinct_dictJson (g := typeJson) h.1 fun p hp => ht p.2 (h.2 p hp)
  unfold mapJson
  simp only [List.map_cons, List.map_nil, Json.Distinct, membersDistinct, pairDistinct, and_true, true_and]
  exact ⟨by decide, hd⟩

/-! ## Against the property -/

/-- A map with one symbol. -/
def oneSymbol (name : Str) : MemMap where
  version := str "1.2"
  target := str "esp32"
  targetDiff := []
  imageSize := 4
  imageSizeDiff := 0
  projectPath := str "/b/p.map"
  projectPathDiff := []
  memoryTypes :=
    let o : Obj := ⟨str "o.c.obj", 4, 0, [(name, ⟨name, 4, 0, false⟩)]⟩
    let a : Arch := ⟨str "lib.a", 4, 0, [(str "o.c.obj", o)]⟩
    [(str "DRAM", ⟨64, 0, 4, 0, [(str ".dram0.data", ⟨str ".data", 4, 0, [(str "e/lib.a", a)]⟩)]⟩)]

/-- The hypotheses of C68 hold for a map with a symbol of any characters but a bracket, and for `operator[]`. -/
example : (oneSymbol (str "a\"\\\n\tü€😀")).WF ∧ ∀ s ∈ (mapJson (oneSymbol (str "a\"\\\n\tü€😀"))).strings, NoMarkup s := by
  have : ∀ s ∈ (mapJson (oneSymbol (str "a\"\\\n\tü€😀"))).strings, '[' ∉ s := by decide +kernel
  exact ⟨by decide +kernel, fun s hs => .of_noBracket (this s hs)⟩

example : ∀ s ∈ (summaryJson ⟨str "1.2", 4, [⟨str "DRAM", 64, 4, 60, [(str ".data", 4)]⟩]⟩).strings, NoMarkup s := by
  have : ∀ s ∈ (summaryJson ⟨str "1.2", 4, [⟨str "DRAM", 64, 4, 60, [(str ".data", 4)]⟩]⟩).strings, '[' ∉ s := by decide +kernel
  exact fun s hs => .of_noBracket (this s hs)

example : NoMarkup (str "operator[]") := noMarkup_operator

/-- **C68**, violated: the symbol `f[abi:v1]` (a C++ ABI tag) is shown as `f`. -/
theorem C68_brackets_lost :
    (readJson (shownJson (mapJson (oneSymbol (str "f[abi:v1]"))))).bind asMap = some (oneSymbol (str "f")) ∧
    oneSymbol (str "f[abi:v1]") ≠ oneSymbol (str "f") := by
  decide +kernel

/-- **C68**, violated: after `unify` every symbol has a member `"null"` that is not documented. -/
theorem C68_unify_null (m : MemMap) (t : Str × MType) (s : Str × Sec) (a : Str × Arch) (o : Str × Obj) (y : Str × Sym)
    (ht : t ∈ (unify m).memoryTypes) (hs : s ∈ t.2.sections) (ha : a ∈ s.2.kids) (ho : o ∈ a.2.kids) (hy : y ∈ o.2.kids) :
    member "null" (symJson y.2) = some (.obj []) := by
  simp only [unify, dmap, List.mem_map] at ht
  obtain ⟨q, _, rfl⟩ := ht
  obtain ⟨_, l1, h1⟩ := mem_unifyNodes (appendLaw_nodes _) hs
  rw [h1] at ha
  obtain ⟨_, l2, h2⟩ := mem_unifyNodes (appendLaw_nodes _) ha
  rw [h2] at ho
  obtain ⟨_, l3, h3⟩ := mem_unifyNodes appendLaw_syms ho
  rw [h3] at hy
  have hn := (mem_unifySyms hy).2
  obtain ⟨k, ab, z, d, n⟩ := y
  simp only at hn
  subst hn
  rfl

end EspSize
