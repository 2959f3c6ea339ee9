import Verif.Spec.TreeFmt
import Verif.Props.Csv
/-!
# Tree reports

Property C69.
-/
namespace EspSize

theorem render_colorSize (z d : Int) (b : Bool) : render (colorSize z d b) = shown z d b := by
  have hp : Neutral (plus6 d) := fun c hc =>
    ⟨(fieldChar_neutral (plus6_chars d c hc)).1, (fieldChar_neutral (plus6_chars d c hc)).2.1⟩
  have hi : Neutral (int6 d) := fun c hc =>
    ⟨(fieldChar_neutral (int6_chars d c hc)).1, (fieldChar_neutral (int6_chars d c hc)).2.1⟩
  have sp : ∀ u, render (str " " ++ u) = ' ' :: render u := fun u => render_cons (by decide) (by decide) u
  have green : ∀ u, render (str "[green] " ++ u) = ' ' :: render u := fun u => by
    rw [show str "[green] " ++ u = '[' :: (str "green] " ++ u) from rfl,
      render_tag (tag := str "green") (rest := ' ' :: u) _ rfl, render_cons (by decide) (by decide)]
  have red : ∀ u, render (str "[red] " ++ u) = ' ' :: render u := fun u => by
    rw [show str "[red] " ++ u = '[' :: (str "red] " ++ u) from rfl,
      render_tag (tag := str "red") (rest := ' ' :: u) _ rfl, render_cons (by decide) (by decide)]
  have tgreen : render (str "[green]") = [] := by decide +kernel
  have tred : render (str "[/red]") = [] := by decide +kernel
  unfold colorSize shown
  cases b with
  | false =>
    simp only [Bool.not_false, if_true, Bool.false_eq_true, if_false]
    have := render_neutral (intStr_neutral z) []
    simpa [render_nil] using this
  | true =>
    simp only [Bool.not_true, Bool.false_eq_true, if_false, if_true]
    by_cases h1 : d < 0
    · have h0 : d ≠ 0 := by omega
      simp only [h1, h0, if_true, if_false, List.append_assoc]
      rw [render_neutral (intStr_neutral z), red, render_neutral hp, tred, List.append_nil]
    · by_cases h2 : d > 0
      · have h0 : d ≠ 0 := by omega
        simp only [h1, h2, h0, if_true, if_false, List.append_assoc]
        rw [render_neutral (intStr_neutral z), green, render_neutral hp, tgreen, List.append_nil]
      · have h0 : d = 0 := by omega
        rw [if_neg h1, if_neg h2, if_pos h0, List.append_assoc, render_neutral (intStr_neutral z), sp]
        have := render_neutral hi []
        rw [List.append_nil, render_nil, List.append_nil] at this
        rw [this]

theorem render_treeLabel (args : Args) (name : Str) (z d : Int) (h : NoMarkup name) :
    render (treeLabel args name z d) = name ++ ' ' :: shown z d (truthy args.diff) := by
  unfold treeLabel
  rw [List.append_assoc, show str " " ++ colorDiff z d (truthy args.diff) = ' ' :: colorDiff z d (truthy args.diff) from rfl,
    render_noMarkup h (by decide) (by decide) (by decide)]
  have := render_colorDiff z d (truthy args.diff) []
  rw [List.append_nil, render_nil, List.append_nil] at this
  rw [this]

theorem all2_ofMap {α β : Type} {R : α → β → Prop} {f : α → β} {l : List α} (h : ∀ x ∈ l, R x (f x)) : All2 R l (l.map f) := by
  induction l with
  | nil => trivial
  | cons x l ih => exact ⟨h x (by simp), ih fun y hy => h y (by simp [hy])⟩

theorem entriesShown_map {α : Type} (args : Args) {kids : Node α → List RTree → Prop} {f : Node α → List RTree}
    (h : ∀ x, kids x (f x)) (es : Dict Str (Node α)) :
    EntriesShown args.abbrev_ (truthy args.diff) kids es (es.map fun p =>
      .node (treeLabel args (if args.abbrev_ then p.2.abb else p.1) p.2.size p.2.sizeDiff) (f p.2)) :=
  all2_ofMap fun p _ => ⟨fun hb => render_treeLabel args _ _ _ hb, h p.2⟩

/-- **C69**: the tree has a node for each memory type, section, archive, object file and symbol, in the order of the
map and below the node it belongs to, shown with its name and size. -/
theorem C69_map_tree_partial (args : Args) (m : MemMap) : MapShown args.abbrev_ (truthy args.diff) m (mapTree args m) := by
  refine ⟨show render (str "Memory Types") = _ by decide +kernel, all2_ofMap fun p _ => ⟨fun hb => ?_, ?_⟩⟩
  · show render (typeLabel args p) = _
    have hd := render_colorDiff p.2.used p.2.usedDiff (truthy args.diff)
    unfold typeLabel
    by_cases h : p.2.size = 0
    · rw [if_neg (by simpa using h), if_pos h, List.append_assoc,
        show str " " ++ colorDiff p.2.used p.2.usedDiff (truthy args.diff) = ' ' :: (colorDiff p.2.used p.2.usedDiff (truthy args.diff) ++ []) by
          rw [List.append_nil]; rfl,
        render_noMarkup hb (by decide) (by decide) (by decide), hd, render_nil, List.append_nil, List.append_nil]
    · rw [if_pos h, if_neg h, List.append_assoc, List.append_assoc, List.append_assoc,
        show str " " ++ (colorDiff p.2.used p.2.usedDiff (truthy args.diff) ++ (str " / " ++ colorSize p.2.size p.2.sizeDiff (truthy args.diff))) =
          ' ' :: (colorDiff p.2.used p.2.usedDiff (truthy args.diff) ++ (str " / " ++ colorSize p.2.size p.2.sizeDiff (truthy args.diff))) from rfl,
        render_noMarkup hb (by decide) (by decide) (by decide), hd, render_neutral (show Neutral (str " / ") by unfold Neutral; decide), render_colorSize]
      simp
  · refine entriesShown_map args (fun s => ?_) p.2.sections
    refine entriesShown_map args (fun a => ?_) s.kids
    refine entriesShown_map args (fun o => ?_) a.kids
    exact all2_ofMap fun y _ => ⟨fun hb => render_treeLabel args _ _ _ hb, rfl⟩

/-- **C69**: the dependency tree has a node for each archive, below it one for each archive it depends on, and below
that one for each symbol if wanted. -/
theorem C69_deps_tree_partial (args : Args) (d : Deps) : DepsShown args.abbrev_ args.depSymbols d (depsTree args d) := by
  have lab : ∀ (n : Str) (z : Int), NoMarkup n → render (n ++ str " " ++ intStr z) = n ++ ' ' :: shown z 0 false := by
    intro n z h
    have := render_treeLabel { diff := none } n z 0 h
    simpa [treeLabel, colorDiff, truthy] using this
  refine all2_ofMap fun p _ => ⟨fun hb => lab _ _ hb, all2_ofMap fun q _ => ⟨fun hb => lab _ _ hb, ?_⟩⟩
  show All2 _ _ (if args.depSymbols then q.2.symbols.map fun s => RTree.node s [] else [])
  cases args.depSymbols with
  | false => trivial
  | true => exact all2_ofMap fun s _ => ⟨fun h1 h2 => renderN_plain _ s h1 h2, rfl⟩

/-! ## Reading a label -/

theorem last_word {a b w x : Str} (hw : ' ' ∉ w) (hx : ' ' ∉ x) (h : a ++ ' ' :: w = b ++ ' ' :: x) : a = b ∧ w = x := by
  rcases List.append_eq_append_iff.mp h with ⟨e, rfl, h2⟩ | ⟨e, rfl, h2⟩
  · cases e with
    | nil => simpa using h2
    | cons c e =>
      injection h2 with _ h2
      exact absurd (by rw [h2]; simp) hw
  · cases e with
    | nil => exact ⟨by simp, by simpa using h2.symm⟩
    | cons c e =>
      injection h2 with _ h2
      exact absurd (by rw [h2]; simp) hx

theorem blank_intStr (z : Int) : ' ' ∉ intStr z := fun h => by
  have := (intStr_word z).2 ' ' h
  revert this; decide

theorem intStr_injective {a b : Int} (h : intStr a = intStr b) : a = b := by
  have := pyInt10_intStr a
  rw [h, pyInt10_intStr] at this
  exact (Option.some.inj this).symm

theorem shown_padded (d : Int) : ∃ k w, (if d = 0 then int6 d else plus6 d) = List.replicate k ' ' ++ w ∧ ' ' ∉ w ∧
    k = 6 - w.length := by
  split
  · exact ⟨_, _, rfl, blank_intStr d, rfl⟩
  · refine ⟨_, _, rfl, ?_, rfl⟩
    intro h
    rcases signed_chars d ' ' h with h | h
    · revert h; unfold NumChar; decide
    · revert h; decide

theorem replicate_blank (k : Nat) (w : Str) : ' ' :: (List.replicate k ' ' ++ w) = List.replicate k ' ' ++ ' ' :: w := by
  induction k with
  | zero => rfl
  | succ k ih => rw [List.replicate_succ, List.cons_append, ih]; rfl

/-- **C69**: two labels are the same only for the same name, size and difference. -/
theorem C69_labels_distinct {n n' : Str} {z z' d d' : Int} {b : Bool} (h : n ++ ' ' :: shown z d b = n' ++ ' ' :: shown z' d' b) :
    n = n' ∧ z = z' ∧ (b = true → d = d') := by
  cases b with
  | false =>
    obtain ⟨h1, h2⟩ := last_word (blank_intStr z) (blank_intStr z') h
    exact ⟨h1, intStr_injective h2, fun h => by cases h⟩
  | true =>
    obtain ⟨x, hx, hd⟩ := shown_diff z d
    obtain ⟨x', hx', hd'⟩ := shown_diff z' d'
    obtain ⟨k, w, e, hw, hk⟩ := shown_padded d
    obtain ⟨k', w', e', hw', hk'⟩ := shown_padded d'
    have ex : x = List.replicate k ' ' ++ w := by
      have : shown z d true = intStr z ++ ' ' :: (if d = 0 then int6 d else plus6 d) := rfl
      rw [this] at hx
      have := List.append_cancel_left hx
      injection this with _ this
      rw [← this, e]
    have ex' : x' = List.replicate k' ' ' ++ w' := by
      have : shown z' d' true = intStr z' ++ ' ' :: (if d' = 0 then int6 d' else plus6 d') := rfl
      rw [this] at hx'
      have := List.append_cancel_left hx'
      injection this with _ this
      rw [← this, e']
    rw [hx, hx', ex, ex', replicate_blank, replicate_blank] at h
    have h' : (n ++ ' ' :: intStr z ++ List.replicate k ' ') ++ ' ' :: w =
        (n' ++ ' ' :: intStr z' ++ List.replicate k' ' ') ++ ' ' :: w' := by
      simpa [List.append_assoc] using h
    obtain ⟨h1, h2⟩ := last_word hw hw' h'
    subst h2
    rw [hk, hk'] at h1
    have h1 := List.append_cancel_right h1
    obtain ⟨h3, h4⟩ := last_word (blank_intStr z) (blank_intStr z') h1
    refine ⟨h3, intStr_injective h4, fun _ => ?_⟩
    rw [hk] at ex
    rw [hk'] at ex'
    rw [ex] at hd
    rw [ex'] at hd'
    rw [hd'] at hd
    exact (Option.some.inj hd).symm

theorem first_at {q : Char} {a b u v : Str} (ha : q ∉ a) (hb : q ∉ b) (h : a ++ q :: u = b ++ q :: v) : a = b ∧ u = v := by
  rcases List.append_eq_append_iff.mp h with ⟨e, rfl, h2⟩ | ⟨e, rfl, h2⟩
  · cases e with
    | nil => simpa using h2
    | cons c e =>
      injection h2 with h1 _
      exact absurd (by rw [h1]; simp) hb
  · cases e with
    | nil => exact ⟨by simp, by simpa using h2.symm⟩
    | cons c e =>
      injection h2 with h1 _
      exact absurd (by rw [h1]; simp) ha

theorem shown_noSlash (z d : Int) (b : Bool) : '/' ∉ shown z d b := by
  have key : ∀ {c : Char}, NumChar c ∨ c = '+' ∨ c = ' ' → c ≠ '/' := by
    rintro c (h | rfl | rfl)
    · rintro rfl; revert h; unfold NumChar; decide
    · decide
    · decide
  intro h
  unfold shown at h
  split at h
  · rcases List.mem_append.mp h with h | h
    · exact key (Or.inl (intStr_chars z _ h)) rfl
    · rcases List.mem_cons.mp h with h | h
      · revert h; decide
      · split at h
        · exact key (int6_chars d _ h) rfl
        · exact key (plus6_chars d _ h) rfl
  · exact key (Or.inl (intStr_chars z _ h)) rfl

/-- **C69**: the same for memory types. -/
theorem C69_type_labels_distinct {n n' : Str} {u u' ud ud' z z' zd zd' : Int} {b : Bool} (hn : '/' ∉ n) (hn' : '/' ∉ n')
    (h : n ++ ' ' :: shown u ud b ++ (if z = 0 then [] else str " / " ++ shown z zd b) =
      n' ++ ' ' :: shown u' ud' b ++ (if z' = 0 then [] else str " / " ++ shown z' zd' b)) :
    n = n' ∧ u = u' ∧ z = z' ∧ (b = true → ud = ud' ∧ (z ≠ 0 → zd = zd')) := by
  have hs : ∀ {n : Str} {u ud : Int}, '/' ∉ n → '/' ∉ n ++ ' ' :: shown u ud b := by
    intro n u ud hn hm
    rcases List.mem_append.mp hm with hm | hm
    · exact hn hm
    · rcases List.mem_cons.mp hm with hm | hm
      · revert hm; decide
      · exact shown_noSlash _ _ _ hm
  by_cases h0 : z = 0
  · by_cases h0' : z' = 0
    · rw [if_pos h0, if_pos h0', List.append_nil, List.append_nil] at h
      obtain ⟨h1, h2, h3⟩ := C69_labels_distinct h
      exact ⟨h1, h2, h0.trans h0'.symm, fun hb => ⟨h3 hb, fun hz => absurd h0 hz⟩⟩
    · rw [if_pos h0, if_neg h0', List.append_nil] at h
      exact absurd (by rw [h]; simp [str]) (hs (u := u) (ud := ud) hn)
  · by_cases h0' : z' = 0
    · rw [if_neg h0, if_pos h0', List.append_nil] at h
      exact absurd (by rw [← h]; simp [str]) (hs (u := u') (ud := ud') hn')
    · rw [if_neg h0, if_neg h0'] at h
      have h' : (n ++ ' ' :: shown u ud b ++ [' ']) ++ '/' :: (' ' :: shown z zd b) =
          (n' ++ ' ' :: shown u' ud' b ++ [' ']) ++ '/' :: (' ' :: shown z' zd' b) := by
        simpa [List.append_assoc, str] using h
      have hb : ∀ {a : Str}, '/' ∉ a → '/' ∉ a ++ [' '] := by
        intro a ha hm
        rcases List.mem_append.mp hm with hm | hm
        · exact ha hm
        · revert hm; decide
      obtain ⟨h1, h2⟩ := first_at (hb (hs hn)) (hb (hs hn')) h'
      obtain ⟨h3, h4, h5⟩ := C69_labels_distinct (List.append_cancel_right h1)
      obtain ⟨_, h6, h7⟩ := C69_labels_distinct (n := []) (n' := []) h2
      exact ⟨h3, h4, h6, fun hb => ⟨h5 hb, fun _ => h7 hb⟩⟩

/-- Labels of memory types can be equal although the names and sizes are not, but only with ` /` in a name. -/
example : str "DRAM 1 /" ++ ' ' :: shown 2 0 false = str "DRAM" ++ ' ' :: shown 1 0 false ++ (str " / " ++ shown 2 0 false) := by
  decide +kernel

example : (mapTree { diff := some (str "b.map") } ⟨[], [], [], 0, 0, [], [], [(str "DRAM", ⟨64, 0, 5, -3, []⟩)]⟩).kids.map RTree.text =
    [str "DRAM 5     -3 / 64      0"] := by decide +kernel

/-- **C69**, violated: a symbol with a C++ ABI tag is shown under the name of another. -/
theorem C69_brackets_lost : ∃ (args : Args) (o : Obj),
    (symTrees args o).map RTree.text = [str "f 4", str "f 8"] ∧ dkeys o.kids = [str "f", str "f[abi:v1]"] :=
  ⟨{}, ⟨[], 12, 0, [(str "f", ⟨[], 4, 0, false⟩), (str "f[abi:v1]", ⟨[], 8, 0, false⟩)]⟩, by decide +kernel, by decide +kernel⟩

end EspSize
