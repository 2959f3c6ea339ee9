import Verif.Props.Dot
import Verif.Props.Json
import Verif.Spec.DotText
/-! # The text of the DOT report is a graph in the DOT language -/
namespace EspSize

/-! ### Markup -/

/-- An escaped bracket is shown, also if what follows it is no tag. -/
theorem render_escaped {s : Str} (h : NoMarkup s) {q : Char} (h1 : q ≠ '[') (h2 : q ≠ '\\') (h3 : tagStart q = false) (t : Str) :
    render ('\\' :: '[' :: (s ++ q :: t)) = '[' :: (s ++ q :: render t) := by
  have hat : tagAt ('\\' :: '[' :: (s ++ q :: t)) = (tagText (s ++ q :: t)).map fun x => (1, x) := by
    show ((tagText (s ++ q :: t)).map fun y => (0, y)).map _ = _
    rw [Option.map_map]; rfl
  show renderN (('[' :: (s ++ q :: t)).length + 1) _ = _
  unfold renderN
  cases ht : tagText (s ++ q :: t) with
  | none =>
    rw [hat, ht]
    show '[' :: renderN ('[' :: (s ++ q :: t)).length (s ++ q :: t) = _
    rw [renderN_fuel _ (s ++ q :: t).length (s ++ q :: t) (by simp only [List.length_cons]; omega) (Nat.le_refl _)]
    show '[' :: render (s ++ q :: t) = _
    rw [render_noMarkup h h1 h2 h3]
  | some p =>
    obtain ⟨tag, rest⟩ := p
    have hl := tagAt_len (hat.trans (by rw [ht]; rfl : _ = some (1, tag, rest)))
    rw [hat, ht]
    simp only [Option.map_some]
    rw [renderN_fuel _ rest.length rest (by simp only [List.length_cons] at hl ⊢; omega) (Nat.le_refl _)]
    show _ ++ render rest = _
    have e : s ++ q :: t = tag ++ ']' :: rest ∧ '[' ∉ tag := by
      cases hz : s ++ q :: t with
      | nil => rw [hz] at ht; cases ht
      | cons c z =>
        rw [hz] at ht
        simp only [tagText] at ht
        split at ht
        · rename_i hc
          cases hb : tagBody z with
          | none => rw [hb] at ht; cases ht
          | some y =>
            rw [hb] at ht
            obtain ⟨b, r⟩ := y
            simp only [Option.map_some, Option.some.injEq, Prod.mk.injEq] at ht
            obtain ⟨rfl, rfl⟩ := ht
            obtain ⟨e1, e2⟩ := tagBody_some hb
            refine ⟨by rw [e1]; rfl, fun hm => ?_⟩
            rcases List.mem_cons.mp hm with hm | hm
            · rw [← hm] at hc; revert hc; decide
            · exact e2 hm
        · cases ht
    have key : tag ++ ']' :: render rest = s ++ q :: render t := by
      rcases List.append_eq_append_iff.mp e.1 with ⟨u, e1, e2⟩ | ⟨u, e1, e2⟩
      · cases u with
        | nil =>
          rw [List.nil_append] at e2
          injection e2 with e3 e4
          rw [e1, e3, e4]; simp
        | cons y u =>
          rw [List.cons_append] at e2
          injection e2 with e3 e4
          have hu : '[' ∉ u := fun hm => e.2 (by rw [e1]; simp [hm])
          rw [e4, render_before hu (by decide) (by decide), e1, e3]; simp
      · cases u with
        | nil =>
          rw [List.nil_append] at e2
          injection e2 with e3 e4
          rw [e1, e3, e4]; simp
        | cons y u =>
          rw [List.cons_append] at e2
          injection e2 with e3 e4
          subst e3
          rw [e4, render_noMarkup ((NoMarkup.suffix (s := ']' :: u) tag (e1 ▸ h)).tail) h1 h2 h3, e1]; simp
    simp [← key]

/-! ### Scanning -/

/-- The scanner over a text that may go on. -/
def dotRun : DotMode → Str → Option (List DotTok × DotMode)
  | m, [] => some ([], m)
  | m, c :: t =>
    match dotStep m c with
    | none => none
    | some (ts, m) => (dotRun m t).map fun x => (ts ++ x.1, x.2)

theorem dotRun_cons (m : DotMode) (c : Char) (t : Str) : dotRun m (c :: t) =
    match dotStep m c with
    | none => none
    | some (ts, m) => (dotRun m t).map fun x => (ts ++ x.1, x.2) := rfl

theorem dotRun_append (m : DotMode) (a b : Str) {ts : List DotTok} {m' : DotMode} (h : dotRun m a = some (ts, m')) :
    dotRun m (a ++ b) = (dotRun m' b).map fun x => (ts ++ x.1, x.2) := by
  induction a generalizing m ts with
  | nil =>
    cases h
    cases hb : dotRun _ b <;> simp [hb]
  | cons c a ih =>
    rw [List.cons_append, dotRun_cons]
    rw [dotRun_cons] at h
    split at h
    · cases h
    · rename_i ts1 m1 hs
      cases hr : dotRun m1 a with
      | none => rw [hr] at h; cases h
      | some y =>
        rw [hr] at h
        simp only [Option.map_some, Option.some.injEq, Prod.mk.injEq] at h
        obtain ⟨h1, h2⟩ := h
        rw [ih m1 (ts := y.1) (by rw [hr, ← h2])]
        cases dotRun m' b with
        | none => rfl
        | some z => simp [← h1]

theorem dotScan_run (m : DotMode) (s : Str) {ts : List DotTok} (h : dotRun m s = some (ts, .out)) : dotScan m s = some ts := by
  induction s generalizing m ts with
  | nil => cases h; rfl
  | cons c t ih =>
    rw [dotRun_cons] at h
    unfold dotScan
    split at h
    · cases h
    · rename_i ts1 m1 hs
      simp only [hs]
      cases hr : dotRun m1 t with
      | none => rw [hr] at h; cases h
      | some y =>
        rw [hr] at h
        simp only [Option.map_some, Option.some.injEq, Prod.mk.injEq] at h
        rw [ih m1 (ts := y.1) (by rw [hr, ← h.2])]
        simp [← h.1]

theorem DotSafe.tail {c : Char} {t : Str} (h : DotSafe (c :: t)) : DotSafe t where
  quote hm := h.quote (by simp [hm])
  last hl := h.last (by cases t with | nil => cases hl | cons d t => rw [List.getLast?_cons_cons]; exact hl)
  line := fun ⟨a, b, e⟩ => h.line ⟨c :: a, b, by rw [e]; rfl⟩
  markup := h.markup.tail

/-- Inside of quotes everything but quotes and backslashes at the end is read as it is. -/
theorem dotRun_quote (w s : Str) (h : DotSafe s) : dotRun (.quote w) s = some ([], .quote (w ++ s)) := by
  induction hn : s.length using Nat.strongRecOn generalizing w s with
  | _ n ih =>
    cases s with
    | nil => simp [dotRun]
    | cons c t =>
      have hq : c ≠ '"' := fun e => h.quote (by simp [e])
      by_cases hb : c = '\\'
      · subst hb
        cases t with
        | nil => exact absurd rfl h.last
        | cons d t =>
          have hd : d ≠ '"' := fun e => h.quote (by simp [e])
          have hl : d ≠ '\n' := fun e => h.line ⟨[], t, by rw [e]; rfl⟩
          rw [dotRun_cons]
          show (dotRun (.back w) (d :: t)).map _ = _
          rw [dotRun_cons]
          have : dotStep (.back w) d = some ([], .quote (w ++ ['\\', d])) := by
            unfold dotStep; simp only; rw [if_neg hd, if_neg hl]
          rw [this]
          simp only
          rw [ih t.length (by rw [← hn]; simp only [List.length_cons]; omega) (w ++ ['\\', d]) t h.tail.tail rfl]
          simp
      · rw [dotRun_cons]
        have : dotStep (.quote w) c = some ([], .quote (w ++ [c])) := by
          unfold dotStep; simp only; rw [if_neg hq, if_neg hb]
        rw [this]
        simp only
        rw [ih t.length (by rw [← hn]; simp only [List.length_cons]; omega) (w ++ [c]) t h.tail rfl]
        simp

/-- A quoted text. -/
theorem dotRun_quoted (s : Str) (h : DotSafe s) : dotRun .out ('"' :: (s ++ ['"'])) = some ([.id s], .out) := by
  show (dotRun (.quote []) (s ++ ['"'])).map _ = _
  rw [dotRun_append _ _ _ (dotRun_quote [] s h)]
  rfl

theorem dotRun_seq {m m1 m2 : DotMode} {a b : Str} {x y : List DotTok} (ha : dotRun m a = some (x, m1))
    (hb : dotRun m1 b = some (y, m2)) : dotRun m (a ++ b) = some (x ++ y, m2) := by
  rw [dotRun_append _ _ _ ha, hb]; rfl

/-! ### Lines -/

/-- What a line means. -/
def stmtOf : DotLine → DotStmt
  | .node n l z b => .node n [(str "shape", if b then str "box" else str "ellipse"), (str "label", l ++ str " (" ++ intStr z ++ str ")"),
      (str "style", str "filled"), (str "fillcolor", if b then str "darkorange3" else str "azure")]
  | .edge s d none => .edge s d []
  | .edge s d (some l) => .edge s d [(str "label", join (str "\n") l)]

/-- The names in a line can be quoted. -/
def LineSafe : DotLine → Prop
  | .node n l _ _ => DotSafe n ∧ DotSafe l
  | .edge s d none => DotSafe s ∧ DotSafe d
  | .edge s d (some l) => DotSafe s ∧ DotSafe d ∧ ∀ x ∈ l, DotSafe x

/-- The line as it is printed. -/
def DotLine.printed : DotLine → Str
  | .node name label size box =>
    '"' :: (name ++ ['"']) ++ (str " [shape=" ++ (if box then str "box" else str "ellipse") ++ str ", label=" ++
      ('"' :: (label ++ str " (" ++ intStr size ++ str ")") ++ ['"']) ++ str ", style=filled, fillcolor=\"" ++
      (if box then str "darkorange3" else str "azure") ++ str "\"]")
  | .edge src dst label =>
    '"' :: (src ++ ['"']) ++ str " -> " ++ ('"' :: (dst ++ ['"'])) ++
      match label with
      | none => []
      | some syms => str " [label=" ++ ('"' :: (join (str "\n") syms ++ ['"'])) ++ str "]"

def toksOf : DotLine → List DotTok
  | .node n l z b =>
    [.id n, .sign '[', .id (str "shape"), .sign '=', .id (if b then str "box" else str "ellipse"), .sign ',',
      .id (str "label"), .sign '=', .id (l ++ str " (" ++ intStr z ++ str ")"), .sign ',',
      .id (str "style"), .sign '=', .id (str "filled"), .sign ',',
      .id (str "fillcolor"), .sign '=', .id (if b then str "darkorange3" else str "azure"), .sign ']']
  | .edge s d none => [.id s, .arrow, .id d]
  | .edge s d (some l) => [.id s, .arrow, .id d, .sign '[', .id (str "label"), .sign '=', .id (join (str "\n") l), .sign ']']

/-- Safe texts can be joined by a character that is none of markup. -/
theorem DotSafe.sep {a b : Str} (ha : DotSafe a) (hb : DotSafe b) {q : Char} (h0 : q ≠ '"') (h1 : q ≠ '[') (h2 : q ≠ '\\')
    (h3 : tagStart q = false) : DotSafe (a ++ q :: b) where
  quote hm := by
    rcases List.mem_append.mp hm with h | h
    · exact ha.quote h
    · rcases List.mem_cons.mp h with h | h
      · exact h0 h.symm
      · exact hb.quote h
  last hl := by
    cases b with
    | nil => rw [List.getLast?_append] at hl; simp at hl; exact h2 hl
    | cons c b =>
      apply hb.last
      rw [List.getLast?_append, List.getLast?_cons_cons] at hl
      cases hx : (c :: b).getLast? with
      | none => simp at hx
      | some y => rw [hx] at hl; exact hl
  line := by
    rintro ⟨u, v, e⟩
    rcases List.append_eq_append_iff.mp e with ⟨a', e1, e2⟩ | ⟨c', e1, e2⟩
    · cases a' with
      | nil => injection e2 with e3; exact h2 e3
      | cons c a' => injection e2 with e3 e4; exact hb.line ⟨a', v, e4⟩
    · cases c' with
      | nil => injection e2 with e3; exact h2 e3.symm
      | cons c c' =>
        injection e2 with e3 e4
        subst e3
        cases c' with
        | nil => exact ha.last (by rw [e1]; simp)
        | cons d c' =>
          injection e4 with e5 e6
          subst e5
          exact ha.line ⟨u, c', e1⟩
  markup := ha.markup.sep hb.markup h3 h1 h2

/-- Characters without a meaning. -/
theorem dotSafe_chars {s : Str} (h : ∀ c ∈ s, c ≠ '"' ∧ c ≠ '\\' ∧ c ≠ '[') : DotSafe s where
  quote hm := (h _ hm).1 rfl
  last hl := (h _ (List.mem_of_getLast? hl)).2.1 rfl
  line := fun ⟨a, b, e⟩ => (h '\\' (by rw [e]; simp)).2.1 rfl
  markup := .of_noBracket fun hm => (h _ hm).2.2 rfl

theorem int_chars (z : Int) : ∀ c ∈ intStr z, c ≠ '"' ∧ c ≠ '\\' ∧ c ≠ '[' := by
  intro c hc
  have := intStr_chars z c hc
  refine ⟨?_, ?_, ?_⟩ <;> rintro rfl <;> revert this <;> unfold NumChar <;> decide

theorem dotSafe_size (z : Int) : DotSafe ('(' :: (intStr z ++ [')'])) := by
  apply dotSafe_chars
  intro c hc
  rcases List.mem_cons.mp hc with rfl | hc
  · decide
  rcases List.mem_append.mp hc with hc | hc
  · exact int_chars z c hc
  · rw [List.mem_singleton.mp hc]; decide

theorem dotSafe_label {l : Str} (h : DotSafe l) (z : Int) : DotSafe (l ++ str " (" ++ intStr z ++ str ")") := by
  have := h.sep (dotSafe_size z) (q := ' ') (by decide) (by decide) (by decide) (by decide)
  simpa [str] using this

theorem dotSafe_join {l : List Str} (h : ∀ x ∈ l, DotSafe x) : DotSafe (join (str "\n") l) := by
  induction l with
  | nil => exact dotSafe_chars fun c hc => nomatch hc
  | cons a l ih =>
    cases l with
    | nil => exact h a (by simp)
    | cons b l =>
      have := (h a (by simp)).sep (ih fun x hx => h x (by simp [hx])) (q := '\n') (by decide) (by decide) (by decide) (by decide)
      simpa [join, str] using this

/-- Scanning a line. -/
theorem scan_line (l : DotLine) (h : LineSafe l) : dotRun .out l.printed = some (toksOf l, .out) := by
  cases l with
  | node n l z b =>
    obtain ⟨hn, hl⟩ := h
    have hlab := dotRun_quoted _ (dotSafe_label hl z)
    have hpre : dotRun .out (str " [shape=" ++ (if b then str "box" else str "ellipse") ++ str ", label=") =
        some ([.sign '[', .id (str "shape"), .sign '=', .id (if b then str "box" else str "ellipse"), .sign ',', .id (str "label"), .sign '='], .out) := by
      cases b <;> decide +kernel
    have hpost : dotRun .out (str ", style=filled, fillcolor=\"" ++ (if b then str "darkorange3" else str "azure") ++ str "\"]") =
        some ([.sign ',', .id (str "style"), .sign '=', .id (str "filled"), .sign ',', .id (str "fillcolor"), .sign '=',
          .id (if b then str "darkorange3" else str "azure"), .sign ']'], .out) := by
      cases b <;> decide +kernel
    have := dotRun_seq (dotRun_quoted n hn) (dotRun_seq hpre (dotRun_seq hlab hpost))
    simpa [DotLine.printed, toksOf] using this
  | edge s d lab =>
    have harrow : dotRun .out (str " -> ") = some ([.arrow], .out) := by decide +kernel
    cases lab with
    | none =>
      have := dotRun_seq (dotRun_quoted s h.1) (dotRun_seq harrow (dotRun_quoted d h.2))
      simpa [DotLine.printed, toksOf] using this
    | some l =>
      have hpre : dotRun .out (str " [label=") = some ([.sign '[', .id (str "label"), .sign '='], .out) := by decide +kernel
      have hpost : dotRun .out (str "]") = some ([.sign ']'], .out) := by decide +kernel
      have := dotRun_seq (dotRun_quoted s h.1) (dotRun_seq harrow (dotRun_seq (dotRun_quoted d h.2.1)
        (dotRun_seq hpre (dotRun_seq (dotRun_quoted _ (dotSafe_join h.2.2)) hpost))))
      simpa [DotLine.printed, toksOf] using this

/-- A quoted name. -/
theorem render_quoted {s : Str} (h : NoMarkup s) (t : Str) : render ('"' :: (s ++ '"' :: t)) = '"' :: (s ++ '"' :: render t) := by
  rw [render_cons (by decide) (by decide), render_noMarkup h (by decide) (by decide) (by decide)]

/-- Markup of a line. -/
theorem render_dotLine (l : DotLine) (h : LineSafe l) (t : Str) : render (l.text ++ '\n' :: t) = l.printed ++ '\n' :: render t := by
  cases l with
  | node n l z b =>
    obtain ⟨hn, hl⟩ := h
    have e : ∃ body, NoMarkup body ∧ DotLine.text (.node n l z b) = '"' :: (n ++ '"' :: ' ' :: '\\' :: '[' :: body) ∧
        DotLine.printed (.node n l z b) = '"' :: (n ++ '"' :: ' ' :: '[' :: body) := by
      refine ⟨str "shape=" ++ (if b then str "box" else str "ellipse") ++ str ", label=\"" ++ (l ++
        str " (" ++ intStr z ++ str ")") ++ '"' :: (str ", style=filled, fillcolor=\"" ++ (if b then str "darkorange3" else str "azure") ++ str "\"]"), ?_, ?_, ?_⟩
      · have h0 : ∀ c ∈ str "shape=" ++ (if b then str "box" else str "ellipse") ++ str ", label=\"", c ≠ '[' ∧ c ≠ '\\' := by cases b <;> decide
        have h1 : '[' ∉ str ", style=filled, fillcolor=\"" ++ (if b then str "darkorange3" else str "azure") ++ str "\"]" := by cases b <;> decide
        have := NoMarkup.after h0 ((dotSafe_label hl z).markup.sep (.of_noBracket h1) (q := '"') (by decide) (by decide) (by decide))
        simpa only [List.append_assoc] using this
      · simp [DotLine.text, str]
      · simp [DotLine.printed, str]
    obtain ⟨body, hb, e1, e2⟩ := e
    have hr := render_escaped hb (q := '\n') (by decide) (by decide) (by decide) t
    have := render_quoted hn.markup (' ' :: '\\' :: '[' :: (body ++ '\n' :: t))
    rw [render_cons (c := ' ') (by decide) (by decide), hr] at this
    rw [e1, e2]
    simpa using this
  | edge s d lab =>
    cases lab with
    | none =>
      have h2 := render_quoted h.2.markup ('\n' :: t)
      rw [render_cons (c := '\n') (by decide) (by decide)] at h2
      have h1 := render_quoted h.1.markup (str " -> " ++ '"' :: (d ++ '"' :: '\n' :: t))
      rw [render_neutral (by unfold Neutral; decide : Neutral (str " -> ")), h2] at h1
      simpa [DotLine.text, DotLine.printed, str] using h1
    | some l =>
      have hj := (dotSafe_join h.2.2).markup
      have hbody : NoMarkup (str "label=\"" ++ (join (str "\n") l ++ '"' :: str "]")) :=
        .after (by decide) (hj.sep (.of_noBracket (by decide)) (by decide) (by decide) (by decide))
      have h3 := render_escaped hbody (q := '\n') (by decide) (by decide) (by decide) t
      have h2 := render_quoted h.2.1.markup (' ' :: '\\' :: '[' :: (str "label=\"" ++ (join (str "\n") l ++ '"' :: str "]") ++ '\n' :: t))
      rw [render_cons (c := ' ') (by decide) (by decide), h3] at h2
      have h1 := render_quoted h.1.markup (str " -> " ++ '"' :: (d ++ '"' :: ' ' :: '\\' :: '[' :: (str "label=\"" ++ (join (str "\n") l ++ '"' :: str "]") ++ '\n' :: t)))
      rw [render_neutral (by unfold Neutral; decide : Neutral (str " -> ")), h2] at h1
      simpa [DotLine.text, DotLine.printed, str] using h1

/-! ### The whole text -/

theorem join_lines (ls : List Str) (z : Str) : join (str "\n") (ls ++ [z]) = ls.flatMap (fun l => l ++ str "\n") ++ z := by
  induction ls with
  | nil => rfl
  | cons a ls ih =>
    have : join (str "\n") (a :: (ls ++ [z])) = a ++ str "\n" ++ join (str "\n") (ls ++ [z]) := by
      cases ls <;> rfl
    rw [List.cons_append, this, ih]
    simp

theorem dotOptAttrs_end {r : List DotTok} (h : ∀ c x, r = .sign c :: x → c ≠ '[') : dotOptAttrs r = some ([], r) := by
  unfold dotOptAttrs
  split
  · rename_i x
    exact absurd rfl (h '[' x rfl)
  · rfl

/-- Reading the statements. -/
theorem read_stmts (ls : List DotLine) : ∀ n, ls.length ≤ n → dotStmts n (ls.flatMap toksOf ++ [.sign '}']) = some (ls.map stmtOf) := by
  induction ls with
  | nil => intro n _; cases n <;> rfl
  | cons l ls ih =>
    intro n hn
    cases n with
    | zero => simp at hn
    | succ n =>
      have hi := ih n (by simpa using hn)
      rw [List.flatMap_cons, List.append_assoc]
      generalize hr : ls.flatMap toksOf ++ [DotTok.sign '}'] = r at hi
      have hnb : ∀ c x, r = .sign c :: x → c ≠ '[' := by
        intro c x hx
        rw [← hr] at hx
        cases ls with
        | nil => cases hx; decide
        | cons l' ls =>
          cases l' with
          | node n l z b => cases hx
          | edge s d lab => cases lab <;> cases hx
      cases l with
      | node a l z b =>
        show (match dotOptAttrs ((toksOf (.node a l z b)).tail ++ r) with
          | none => none
          | some (as, r) => (dotStmts n r).map fun x => DotStmt.node a as :: x) = _
        rw [show dotOptAttrs _ = some ([(str "shape", if b then str "box" else str "ellipse"), (str "label", l ++ str " (" ++ intStr z ++ str ")"),
          (str "style", str "filled"), (str "fillcolor", if b then str "darkorange3" else str "azure")], r) from rfl]
        simp only [hi]
        rfl
      | edge s d lab =>
        cases lab with
        | none =>
          show (match dotOptAttrs r with
            | none => none
            | some (as, r) => (dotStmts n r).map fun x => DotStmt.edge s d as :: x) = _
          rw [dotOptAttrs_end hnb]
          simp only [hi]
          rfl
        | some l =>
          show (match dotOptAttrs ((toksOf (.edge s d (some l))).tail.tail.tail ++ r) with
            | none => none
            | some (as, r) => (dotStmts n r).map fun x => DotStmt.edge s d as :: x) = _
          rw [show dotOptAttrs _ = some ([(str "label", join (str "\n") l)], r) from rfl]
          simp only [hi]
          rfl

/-- **C37** (partial) reading the DOT text that is printed gives back its nodes and edges. -/
theorem C37_text_partial (ls : List DotLine) (h : ∀ l ∈ ls, LineSafe l) :
    readDot (render (join (str "\n") ([str "strict digraph {"] ++ ls.map DotLine.text ++ [str "}"]))) = some (ls.map stmtOf) := by
  have hr : render (join (str "\n") ([str "strict digraph {"] ++ ls.map DotLine.text ++ [str "}"])) =
      str "strict digraph {\n" ++ (ls.flatMap (fun l => l.printed ++ str "\n") ++ str "}") := by
    rw [join_lines, List.flatMap_append, List.append_assoc]
    have h0 : Neutral (str "strict digraph {\n") := by unfold Neutral; decide
    show render (str "strict digraph {\n" ++ _) = _
    rw [render_neutral h0]
    congr 1
    clear h0
    induction ls with
    | nil => decide +kernel
    | cons l ls ih =>
      simp only [List.map_cons, List.flatMap_cons, List.append_assoc]
      have := render_dotLine l (h l (by simp)) (ls.flatMap (fun l => l.text ++ str "\n") ++ str "}")
      rw [show ∀ x, str "\n" ++ x = '\n' :: x from fun _ => rfl]
      rw [List.flatMap_map] at ih ⊢
      rw [this, ih fun x hx => h x (by simp [hx])]
      rfl
  have hs : dotRun .out (ls.flatMap (fun l => l.printed ++ str "\n") ++ str "}") = some (ls.flatMap toksOf ++ [.sign '}'], .out) := by
    clear hr
    induction ls with
    | nil => decide +kernel
    | cons l ls ih =>
      have hnl : dotRun .out (str "\n") = some ([], .out) := by decide +kernel
      have := dotRun_seq (dotRun_seq (scan_line l (h l (by simp))) hnl) (ih fun x hx => h x (by simp [hx]))
      simpa using this
  have h0 : dotRun .out (str "strict digraph {\n") = some ([.id (str "strict"), .id (str "digraph"), .sign '{'], .out) := by decide +kernel
  rw [hr]
  unfold readDot
  rw [dotScan_run _ _ (dotRun_seq h0 hs)]
  show (if _ then _ else _) = _
  rw [if_pos ⟨rfl, rfl⟩]
  apply read_stmts
  have : ∀ ls : List DotLine, ls.length ≤ (ls.flatMap toksOf).length := by
    intro ls
    induction ls with
    | nil => exact Nat.le_refl _
    | cons l ls ih =>
      have : 1 ≤ (toksOf l).length := by
        cases l with
        | node => simp [toksOf]
        | edge s d lab => cases lab <;> simp [toksOf]
      simp only [List.flatMap_cons, List.length_append, List.length_cons]
      omega
  have := this ls
  exact Nat.le_trans this (by simp)

theorem stmtNodes_of (ls : List DotLine) : stmtNodes (ls.map stmtOf) = declared ls := by
  induction ls with
  | nil => rfl
  | cons l ls ih =>
    unfold stmtNodes declared at *
    rw [List.map_cons, List.filterMap_cons, List.filterMap_cons, ih]
    cases l with
    | node => rfl
    | edge s d lab => cases lab <;> rfl

theorem stmtEdges_of (ls : List DotLine) : stmtEdges (ls.map stmtOf) = (edges ls).map fun e => (e.1, e.2.1) := by
  induction ls with
  | nil => rfl
  | cons l ls ih =>
    unfold stmtEdges edges at *
    rw [List.map_cons, List.filterMap_cons, List.filterMap_cons, ih]
    cases l with
    | node => rfl
    | edge s d lab => cases lab <;> rfl

theorem DotSafe.lastPart {n l : Str} (h : DotSafe n) (hl : LastPart n l) : DotSafe l := by
  rcases hl.2 with rfl | ⟨d, rfl⟩
  · exact h
  · clear hl
    induction d with
    | nil => exact h.tail
    | cons c d ih => exact ih h.tail

/-- **C37** (partial) the text printed for a project whose names can be quoted is a strict directed graph: an edge
from `A` to `B` iff `A` depends on `B` by the cross reference table and the filter accepts the archive listed first;
every end of an edge is declared, once. -/
theorem C37_graph_partial (ord : List Str → List Str) (hord : SetOrder ord) (m : MemMap) (hm : m.WF) (crt : Crt)
    (hn : KeysNodup crt) (hne : ∀ p ∈ crt, p.2 ≠ []) (syms : List ElfSym) (args : Args)
    (hargs : args.archiveDependencies = true)
    (hsafe : ∀ row ∈ crt, DotSafe row.1 ∧ ∀ r ∈ row.2, DotSafe r.1) :
    ∃ lines graph, showDot ord m (some crt) (some syms) args = .ok lines ∧
      readDot (render (join (str "\n") lines)) = some graph ∧
      (stmtNodes graph).Nodup ∧ (stmtEdges graph).Nodup ∧
      (∀ A B, (A, B) ∈ stmtEdges graph → A ∈ stmtNodes graph ∧ B ∈ stmtNodes graph) ∧
      ∀ A B, (A, B) ∈ stmtEdges graph ↔
        (∃ row ∈ crt, Refers (Counted m args) (LinkedSym syms) A B row) ∧
        (∃ abb, LastPart (if args.depReverse then B else A) abb ∧
          FilterAccepts args (if args.abbrev_ then abb else if args.depReverse then B else A)) := by
  obtain ⟨ls, h1, h2, h3, h4, h5, h6, h7⟩ := C37_dot_output ord hord m hm crt hn hne syms args hargs
  have hmem : ∀ A B, (A, B) ∈ (edges ls).map (fun e => (e.1, e.2.1)) ↔ ∃ lab, DotLine.edge A B lab ∈ ls := by
    intro A B
    simp only [List.mem_map, Prod.mk.injEq]
    constructor
    · rintro ⟨⟨a, b, l⟩, he, rfl, rfl⟩
      exact ⟨l, mem_edges.mp he⟩
    · rintro ⟨l, he⟩
      exact ⟨(A, B, l), mem_edges.mpr he, rfl, rfl⟩
  have hdecl : ∀ A B lab, DotLine.edge A B lab ∈ ls → A ∈ declared ls ∧ B ∈ declared ls := by
    intro A B lab he
    obtain ⟨l1, l2, rfl⟩ := List.append_of_mem he
    obtain ⟨ha, hb⟩ := h3 l1 A B lab l2 rfl
    rw [declared_append]
    exact ⟨by simp [ha], by simp [hb]⟩
  have hname : ∀ n ∈ declared ls, DotSafe n := by
    intro n hx
    unfold declared at hx
    obtain ⟨l, hl, he⟩ := List.mem_filterMap.mp hx
    cases l with
    | edge => cases he
    | node n' lab z b =>
      cases he
      obtain ⟨_, _, _, row, hrow, r, hr, rfl⟩ := h5 _ _ _ _ hl
      exact (hsafe row hrow).2 r hr
  have hls : ∀ l ∈ ls, LineSafe l := by
    intro l hl
    cases l with
    | node n lab z b =>
      obtain ⟨_, g2, _, row, hrow, r, hr, he⟩ := h5 _ _ _ _ hl
      have hnn : DotSafe n := he ▸ (hsafe row hrow).2 r hr
      refine ⟨hnn, ?_⟩
      split at g2
      · exact hnn.lastPart g2
      · rw [g2]; exact hnn
    | edge A B lab =>
      obtain ⟨ha, hb⟩ := hdecl A B lab hl
      have := h6 A B lab hl
      cases lab with
      | none => exact ⟨hname A ha, hname B hb⟩
      | some l =>
        refine ⟨hname A ha, hname B hb, ?_⟩
        split at this
        · cases this
          intro x hx
          obtain ⟨row, hrow, rfl⟩ := List.mem_map.mp hx
          exact (hsafe row (List.mem_filter.mp hrow).1).1
        · cases this
  refine ⟨_, ls.map stmtOf, h1, C37_text_partial ls hls, ?_, ?_, ?_, ?_⟩
  · rw [stmtNodes_of]; exact h2
  · rw [stmtEdges_of]; exact h4
  · intro A B hAB
    rw [stmtEdges_of, hmem] at hAB
    obtain ⟨lab, hl⟩ := hAB
    rw [stmtNodes_of]
    exact hdecl A B lab hl
  · intro A B
    rw [stmtEdges_of, hmem]
    exact h7 A B

/-- The graph of an example. -/
example : ((showDot ordFirst exMapD (some exCrt) (some exSyms) { archiveDependencies := true, depSymbols := true }).toOption.bind
      fun lines => readDot (render (join (str "\n") lines))) = some [
    .node (str "y/libb.a") [(str "shape", str "box"), (str "label", str "libb.a (20)"), (str "style", str "filled"), (str "fillcolor", str "darkorange3")],
    .node (str "x/liba.a") [(str "shape", str "ellipse"), (str "label", str "liba.a (10)"), (str "style", str "filled"), (str "fillcolor", str "azure")],
    .edge (str "y/libb.a") (str "x/liba.a") [(str "label", str "f")],
    .node (str "z/libc.a") [(str "shape", str "box"), (str "label", str "libc.a (30)"), (str "style", str "filled"), (str "fillcolor", str "darkorange3")],
    .edge (str "z/libc.a") (str "x/liba.a") [(str "label", str "f")]] := by decide +kernel

example : ∀ row ∈ exCrt, DotSafe row.1 ∧ ∀ r ∈ row.2, DotSafe r.1 := by
  have : ∀ row ∈ exCrt, (∀ c ∈ row.1, c ≠ '"' ∧ c ≠ '\\' ∧ c ≠ '[') ∧ ∀ r ∈ row.2, ∀ c ∈ r.1, c ≠ '"' ∧ c ≠ '\\' ∧ c ≠ '[' := by decide
  exact fun row hrow => ⟨dotSafe_chars (this row hrow).1, fun r hr => dotSafe_chars ((this row hrow).2 r hr)⟩

/-- Operators and paths with backslashes. -/
example : DotSafe (str "operator[]") := ⟨by decide, by decide, fun ⟨_, _, e⟩ => absurd (e ▸ List.mem_append_right _ (by simp) : '\\' ∈ str "operator[]") (by decide), noMarkup_operator⟩

example : DotSafe (str "c:\\x\\libx.a") :=
  ⟨by decide, by decide, fun ⟨_, _, e⟩ => absurd (e ▸ List.mem_append_right _ (by simp) : '\n' ∈ str "c:\\x\\libx.a") (by decide), .of_noBracket (by decide)⟩

/-- A symbol with quotes in its name. -/
def exLiteral : Crt := [(str "operator\"\" _s", [(str "x/liba.a", str "f.o"), (str "y/libb.a", str "b.o")])]

/-- **C37** fails for symbols with quotes in their names: what is printed is no graph. -/
theorem C37_quotes_break : ∃ lines,
    showDot ordFirst exMapD (some exLiteral) (some [{ name := str "operator\"\" _s", value := 16, size := 4, type := 2 }])
      { archiveDependencies := true, depSymbols := true } = .ok lines ∧
    readDot (render (join (str "\n") lines)) = none := by
  refine ⟨_, rfl, ?_⟩
  decide +kernel

end EspSize
