import Verif.Spec.Dot
import Verif.Props.Deps
/-! # C37: the DOT report -/
namespace EspSize

/-- State of the loop: `lines` and `seen`. -/
structure DotInv (d : Deps) (st : List DotLine × List Str) : Prop where
  seen : st.2 = declared st.1
  nodup : st.2.Nodup
  first : DeclaredFirst st.1
  box : ∀ n l z b, DotLine.node n l z b ∈ st.1 → b = dhas d n

theorem declared_append (a b : List DotLine) : declared (a ++ b) = declared a ++ declared b := by
  simp [declared]
theorem edges_append (a b : List DotLine) : edges (a ++ b) = edges a ++ edges b := by
  simp [edges]

theorem DeclaredFirst.snoc_node {ls : List DotLine} (h : DeclaredFirst ls) (n l : Str) (z : Int) (b : Bool) :
    DeclaredFirst (ls ++ [.node n l z b]) := by
  intro l1 s d lab l2 he
  rcases List.eq_nil_or_concat l2 with rfl | ⟨l2', x, rfl⟩
  · have := congrArg List.getLast? he
    simp at this
  · rw [List.concat_eq_append, ← List.cons_append, ← List.append_assoc] at he
    have := List.append_inj' he rfl
    exact h l1 s d lab l2' this.1

theorem DeclaredFirst.snoc_edge {ls : List DotLine} (h : DeclaredFirst ls) (s d : Str) (lab : Option (List Str))
    (hs : s ∈ declared ls) (hd : d ∈ declared ls) : DeclaredFirst (ls ++ [.edge s d lab]) := by
  intro l1 s' d' lab' l2 he
  rcases List.eq_nil_or_concat l2 with rfl | ⟨l2', x, rfl⟩
  · obtain ⟨rfl, h2⟩ := List.append_inj' he rfl
    simp only [List.cons.injEq, DotLine.edge.injEq, and_true] at h2
    obtain ⟨rfl, rfl, rfl⟩ := h2
    exact ⟨hs, hd⟩
  · rw [List.concat_eq_append, ← List.cons_append, ← List.append_assoc] at he
    have := List.append_inj' he rfl
    exact h l1 s' d' lab' l2' this.1

theorem dotNode_inv {d : Deps} {st : List DotLine × List Str} (h : DotInv d st) (n l : Str) (z : Int) :
    DotInv d (dotNode d st n l z) ∧ n ∈ declared (dotNode d st n l z).1 ∧
    edges (dotNode d st n l z).1 = edges st.1 ∧
    (∀ x, x ∈ declared (dotNode d st n l z).1 ↔ x = n ∨ x ∈ declared st.1) := by
  unfold dotNode
  by_cases hc : st.2.contains n = true
  · rw [if_pos hc]
    have hn : n ∈ declared st.1 := by rw [← h.seen]; simpa using hc
    refine ⟨h, hn, rfl, fun x => ⟨Or.inr, ?_⟩⟩
    rintro (rfl | h)
    · exact hn
    · exact h
  · rw [if_neg hc]
    have hn : n ∉ st.2 := by simpa using hc
    have hdec : declared (st.1 ++ [DotLine.node n l z (dhas d n)]) = declared st.1 ++ [n] := by
      rw [declared_append]; rfl
    refine ⟨⟨?_, ?_, h.first.snoc_node _ _ _ _, ?_⟩, ?_, ?_, ?_⟩
    · simp only [hdec, h.seen]
    · rw [List.nodup_append]
      refine ⟨h.nodup, by simp, ?_⟩
      intro a ha b hb
      simp only [List.mem_singleton] at hb
      subst hb
      rintro rfl
      exact hn ha
    · intro n' l' z' b' hmem
      rcases List.mem_append.mp hmem with hm | hm
      · exact h.box _ _ _ _ hm
      · simp only [List.mem_singleton, DotLine.node.injEq] at hm
        obtain ⟨rfl, _, _, rfl⟩ := hm
        rfl
    · rw [hdec]; simp
    · rw [edges_append]; simp [edges]
    · intro x
      rw [hdec, List.mem_append, List.mem_singleton]
      exact Or.comm

theorem dotInner_inv {d : Deps} {args : Args} {n : Str} {st : List DotLine × List Str} (h : DotInv d st)
    (hn : n ∈ declared st.1) (q : Str × DepInfo) :
    DotInv d (dotInner d args n st q) ∧ n ∈ declared (dotInner d args n st q).1 ∧
    edges (dotInner d args n st q).1 = edges st.1 ++
      [if args.depReverse then (q.1, n, if args.depSymbols then some q.2.symbols else none)
       else (n, q.1, if args.depSymbols then some q.2.symbols else none)] ∧
    (∀ x, x ∈ declared (dotInner d args n st q).1 ↔ x = q.1 ∨ x ∈ declared st.1) := by
  obtain ⟨hi, hq, he, hm⟩ := dotNode_inv h q.1 (if args.abbrev_ then q.2.abb else q.1) q.2.size
  have hn' := (hm n).mpr (Or.inr hn)
  unfold dotInner
  generalize dotNode d st q.1 (if args.abbrev_ then q.2.abb else q.1) q.2.size = st' at hi hq he hm hn'
  have hdec : ∀ s t lab, declared (st'.1 ++ [DotLine.edge s t lab]) = declared st'.1 := by
    intro s t lab; rw [declared_append]; simp [declared]
  have main : ∀ s t lab, s ∈ declared st'.1 → t ∈ declared st'.1 →
      DotInv d (st'.1 ++ [DotLine.edge s t lab], st'.2) := by
    intro s t lab hs ht
    refine ⟨by simp only [hdec]; exact hi.seen, hi.nodup, hi.first.snoc_edge s t lab hs ht, ?_⟩
    intro n' l' z' b' hmem
    rcases List.mem_append.mp hmem with hm | hm
    · exact hi.box _ _ _ _ hm
    · simp at hm
  cases args.depReverse
  · simp only [Bool.false_eq_true, if_false]
    refine ⟨main _ _ _ hn' hq, by rw [hdec]; exact hn', ?_, fun x => by rw [hdec]; exact hm x⟩
    rw [edges_append, he]; rfl
  · simp only [if_true]
    refine ⟨main _ _ _ hq hn', by rw [hdec]; exact hn', ?_, fun x => by rw [hdec]; exact hm x⟩
    rw [edges_append, he]; rfl

/-- The edge printed for a dependency. -/
def edgeFor (args : Args) (e : Str × Str × List Str) : Str × Str × Option (List Str) :=
  (e.1, e.2.1, if args.depSymbols then some e.2.2 else none)

theorem dotInners_inv {d : Deps} {args : Args} {n : Str} {st : List DotLine × List Str} (h : DotInv d st)
    (hn : n ∈ declared st.1) (qs : Dict Str DepInfo) :
    DotInv d (qs.foldl (dotInner d args n) st) ∧
    edges (qs.foldl (dotInner d args n) st).1 = edges st.1 ++
      (qs.map fun q => if args.depReverse then (q.1, n, q.2.symbols) else (n, q.1, q.2.symbols)).map (edgeFor args) ∧
    (∀ x, x ∈ declared (qs.foldl (dotInner d args n) st).1 ↔ x ∈ dkeys qs ∨ x ∈ declared st.1) := by
  induction qs generalizing st with
  | nil => exact ⟨h, by simp, fun x => by simp⟩
  | cons q t ih =>
    obtain ⟨hi, hn', he, hm⟩ := dotInner_inv (args := args) h hn q
    obtain ⟨hi2, he2, hm2⟩ := ih hi hn'
    simp only [List.foldl_cons]
    refine ⟨hi2, ?_, fun x => ?_⟩
    · rw [he2, he, List.append_assoc]
      simp only [List.map_cons]
      cases args.depReverse <;> rfl
    · rw [hm2, hm, dkeys_cons, List.mem_cons]
      constructor
      · rintro (h | h | h)
        · exact Or.inl (Or.inr h)
        · exact Or.inl (Or.inl h)
        · exact Or.inr h
      · rintro ((h | h) | h)
        · exact Or.inr (Or.inl h)
        · exact Or.inl h
        · exact Or.inr (Or.inr h)

theorem dotOuters_inv {d : Deps} {args : Args} (ps : Deps) {st : List DotLine × List Str} (h : DotInv d st) :
    DotInv d (ps.foldl (dotOuter d args) st) ∧
    edges (ps.foldl (dotOuter d args) st).1 = edges st.1 ++ (dependencies args.depReverse ps).map (edgeFor args) ∧
    (∀ x, x ∈ declared (ps.foldl (dotOuter d args) st).1 ↔ Occurs ps x ∨ x ∈ declared st.1) := by
  induction ps generalizing st with
  | nil => exact ⟨h, by simp [dependencies], fun x => by simp [Occurs]⟩
  | cons p t ih =>
    obtain ⟨hi, hn, he, hm⟩ := dotNode_inv h p.1 (if args.abbrev_ then p.2.abb else p.1) p.2.size
    obtain ⟨hi2, he2, hm2⟩ := dotInners_inv (args := args) hi hn p.2.archives
    obtain ⟨hi3, he3, hm3⟩ := ih hi2
    simp only [List.foldl_cons]
    refine ⟨hi3, ?_, fun x => ?_⟩
    · have hstep : dotOuter d args st p = p.2.archives.foldl (dotInner d args p.1)
        (dotNode d st p.1 (if args.abbrev_ then p.2.abb else p.1) p.2.size) := rfl
      rw [hstep, he3, he2, he]
      simp only [dependencies, List.flatMap_cons, List.map_append, List.append_assoc]
    · have hstep : dotOuter d args st p = p.2.archives.foldl (dotInner d args p.1)
        (dotNode d st p.1 (if args.abbrev_ then p.2.abb else p.1) p.2.size) := rfl
      rw [hstep, hm3, hm2, hm]
      simp only [Occurs, dkeys_cons, List.mem_cons, exists_eq_or_imp]
      constructor
      · rintro ((h | ⟨y, h⟩) | h | h | h)
        · exact Or.inl (Or.inl (Or.inr h))
        · exact Or.inl (Or.inr (Or.inr ⟨y, h⟩))
        · exact Or.inl (Or.inr (Or.inl h))
        · exact Or.inl (Or.inl (Or.inl h))
        · exact Or.inr h
      · rintro (((h | h) | h | ⟨y, h⟩) | h)
        · exact Or.inr (Or.inr (Or.inl h))
        · exact Or.inl (Or.inl h)
        · exact Or.inr (Or.inl h)
        · exact Or.inl (Or.inr ⟨y, h⟩)
        · exact Or.inr (Or.inr (Or.inr h))

/-- **C37** the DOT lines of any dependency report: every archive that occurs is declared, once, before its
edges; there is one edge per dependency, in order, from the dependent to the dependency; boxes are the
archives with an entry of their own. -/
theorem C37_dot (d : Deps) (args : Args) :
    (declared (dotLines d args)).Nodup ∧
    (∀ n, n ∈ declared (dotLines d args) ↔ Occurs d n) ∧
    DeclaredFirst (dotLines d args) ∧
    edges (dotLines d args) = (dependencies args.depReverse d).map
      (fun e => (e.1, e.2.1, if args.depSymbols then some e.2.2 else none)) ∧
    (∀ n l z b, DotLine.node n l z b ∈ dotLines d args → (b = true ↔ n ∈ dkeys d)) := by
  have h0 : DotInv d ([], []) := by
    refine ⟨rfl, List.nodup_nil, ?_, by simp⟩
    intro l1 s t lab l2 he
    have := congrArg List.length he
    simp at this
  obtain ⟨hi, he, hm⟩ := dotOuters_inv (args := args) d h0
  refine ⟨?_, fun n => ?_, hi.first, ?_, fun n l z b hmem => ?_⟩
  · have := hi.nodup; rw [hi.seen] at this; exact this
  · have := hm n
    simpa [declared, dotLines] using this
  · rw [dotLines, he]; simp [edges, edgeFor]
  · rw [hi.box n l z b hmem, dhas_iff]

theorem mem_edges {ls : List DotLine} {s d : Str} {l : Option (List Str)} :
    (s, d, l) ∈ edges ls ↔ DotLine.edge s d l ∈ ls := by
  simp only [edges, List.mem_filterMap]
  constructor
  · rintro ⟨x, hx, h⟩
    cases x <;> simp at h
    obtain ⟨rfl, rfl, rfl⟩ := h
    exact hx
  · intro h; exact ⟨_, h, rfl⟩

/-- Does the filter of the command line accept the entry? -/
def FilterAccepts (args : Args) (shown : Str) : Prop :=
  ∀ pats, args.filter = some pats → ∃ p ∈ pats, fnmatch shown (str "*" ++ p ++ str "*") = true

theorem dget_filtered {R : Deps} (hR : KeysNodup R) (args : Args) (O : Str) (a : DepArch) :
    dget (getSummaryFiltered DepArch.abb R args) O = some a ↔
      dget R O = some a ∧ FilterAccepts args (if args.abbrev_ then a.abb else O) := by
  unfold getSummaryFiltered FilterAccepts
  cases hf : args.filter with
  | none => simp
  | some pats =>
    simp only [Option.some.injEq, forall_eq']
    rw [dget_dfilter hR]
    cases dget R O with
    | none => simp
    | some b =>
      simp only [Option.some.injEq]
      by_cases hp : (pats.any fun p => fnmatch (if args.abbrev_ then b.abb else O) (str "*" ++ p ++ str "*")) = true
      · simp only [Option.filter_some, hp, if_true, Option.some.injEq]
        rw [List.any_eq_true] at hp
        constructor
        · rintro rfl; exact ⟨rfl, hp⟩
        · rintro ⟨rfl, _⟩; rfl
      · simp only [Option.filter_some, hp]
        constructor
        · intro h; simp at h
        · rintro ⟨rfl, h⟩
          rw [← List.any_eq_true] at h
          exact absurd h hp

theorem nodup_of_map {α β : Type} (f : α → β) {l : List α} (h : (l.map f).Nodup) : l.Nodup := by
  unfold List.Nodup at h
  rw [List.pairwise_map] at h
  exact h.imp fun h e => h (congrArg f e)

/-- A property of every line of the output. -/
theorem dotLines_forall (d : Deps) (args : Args) (P : DotLine → Prop)
    (h1 : ∀ p ∈ d, P (.node p.1 (if args.abbrev_ then p.2.abb else p.1) p.2.size (dhas d p.1)))
    (h2 : ∀ p ∈ d, ∀ q ∈ p.2.archives, P (.node q.1 (if args.abbrev_ then q.2.abb else q.1) q.2.size (dhas d q.1)) ∧
      P (if args.depReverse then .edge q.1 p.1 (if args.depSymbols then some q.2.symbols else none)
        else .edge p.1 q.1 (if args.depSymbols then some q.2.symbols else none))) :
    ∀ l ∈ dotLines d args, P l := by
  have hnode : ∀ (st : List DotLine × List Str) n lab z, (∀ l ∈ st.1, P l) → P (.node n lab z (dhas d n)) →
      ∀ l ∈ (dotNode d st n lab z).1, P l := by
    intro st n lab z hst hp l hl
    unfold dotNode at hl
    split at hl
    · exact hst l hl
    · rcases List.mem_append.mp hl with h | h
      · exact hst l h
      · rw [List.mem_singleton.mp h]; exact hp
  have hinner : ∀ p ∈ d, ∀ qs : List (Str × DepInfo), (∀ q ∈ qs, q ∈ p.2.archives) → ∀ st : List DotLine × List Str, (∀ l ∈ st.1, P l) →
      ∀ l ∈ (qs.foldl (dotInner d args p.1) st).1, P l := by
    intro p hp qs
    induction qs with
    | nil => intro _ st hst; exact hst
    | cons q qs ih =>
      intro hqs st hst
      refine ih (fun x hx => hqs x (by simp [hx])) _ ?_
      intro l hl
      obtain ⟨ha, hb⟩ := h2 p hp q (hqs q (by simp))
      unfold dotInner at hl
      cases hrev : args.depReverse <;> simp only [hrev] at hl hb <;> rcases List.mem_append.mp hl with h | h
      · exact hnode st _ _ _ hst ha l h
      · rw [List.mem_singleton.mp h]; exact hb
      · exact hnode st _ _ _ hst ha l h
      · rw [List.mem_singleton.mp h]; exact hb
  have houter : ∀ ps : List (Str × DepArch), (∀ p ∈ ps, p ∈ d) → ∀ st : List DotLine × List Str, (∀ l ∈ st.1, P l) →
      ∀ l ∈ (ps.foldl (dotOuter d args) st).1, P l := by
    intro ps
    induction ps with
    | nil => intro _ st hst; exact hst
    | cons p ps ih =>
      intro hps st hst
      refine ih (fun x hx => hps x (by simp [hx])) _ ?_
      exact hinner p (hps p (by simp)) _ (fun q hq => hq) _ (hnode st _ _ _ hst (h1 p (hps p (by simp))))
  exact houter d (fun p hp => hp) ([], []) (fun l hl => nomatch hl)

open Classical in
/-- **C37** the whole DOT output for a link map: between the first and the last line there is an edge from `A`
to `B` iff `A` depends on `B` by the cross reference table and the filter accepts the archive listed first;
the edges are distinct.  A node is labelled with the name and the total size of the archive, it is a box iff the
archive is the one listed first in some dependency; an edge is labelled with the symbols that cause it. -/
theorem C37_dot_output (ord : List Str → List Str) (hord : SetOrder ord) (m : MemMap) (hm : m.WF) (crt : Crt)
    (hn : KeysNodup crt) (hne : ∀ p ∈ crt, p.2 ≠ []) (syms : List ElfSym) (args : Args)
    (hargs : args.archiveDependencies = true) :
    ∃ ls, showDot ord m (some crt) (some syms) args =
        .ok ([str "strict digraph {"] ++ ls.map DotLine.text ++ [str "}"]) ∧
      (declared ls).Nodup ∧ DeclaredFirst ls ∧ ((edges ls).map fun e => (e.1, e.2.1)).Nodup ∧
      (∀ n lab z b, DotLine.node n lab z b ∈ ls → z = archTotal Node.size m n ∧ (if args.abbrev_ then LastPart n lab else lab = n) ∧
        (b = true ↔ ∃ X lab, (if args.depReverse then DotLine.edge X n lab else DotLine.edge n X lab) ∈ ls) ∧
        ∃ row ∈ crt, ∃ r ∈ row.2, r.1 = n) ∧
      (∀ A B lab, DotLine.edge A B lab ∈ ls → lab = if args.depSymbols then
        some ((crt.filter fun row => decide (Refers (Counted m args) (LinkedSym syms) A B row)).map (·.1)) else none) ∧
      ∀ A B, (∃ lab, DotLine.edge A B lab ∈ ls) ↔
        (∃ row ∈ crt, Refers (Counted m args) (LinkedSym syms) A B row) ∧
        (∃ abb, LastPart (if args.depReverse then B else A) abb ∧
          FilterAccepts args (if args.abbrev_ then abb else if args.depReverse then B else A)) := by
  obtain ⟨R, hR, hRn, hout, hdet⟩ := C35_report ord hord m hm crt hn hne syms args
  refine ⟨dotLines (getSummaryFiltered DepArch.abb R args) args, ?_, ?_⟩
  · unfold showDot
    rw [hargs, hR]
    rfl
  have hfn : KeysNodup (getSummaryFiltered DepArch.abb R args) := by
    unfold getSummaryFiltered
    cases args.filter with
    | none => exact hRn
    | some p => exact hRn.dfilter _
  have hget := dget_filtered hRn args
  generalize getSummaryFiltered DepArch.abb R args = F at hfn hget
  obtain ⟨h1, h2, h3, h4, h5⟩ := C37_dot F args
  have hlisted : ∀ O I row, Linked m args syms O I row → (∃ r ∈ row.2, r.1 = O) ∧ ∃ r ∈ row.2, r.1 = I := by
    intro O I row hl
    have key : ∀ A B, Refers (Counted m args) (LinkedSym syms) A B row → (∃ r ∈ row.2, r.1 = A) ∧ ∃ r ∈ row.2, r.1 = B := by
      rintro A B ⟨_, _, _, _, df, refs, hrow, hdf, o, ho⟩
      rw [hrow]
      exact ⟨⟨(A, o), by simp [ho], rfl⟩, ⟨df, by simp, hdf⟩⟩
    unfold Linked at hl
    split at hl
    · exact ⟨(key _ _ hl).2, (key _ _ hl).1⟩
    · exact key _ _ hl
  refine ⟨h1, h3, ?_, ?_, ?_, fun A B => ?_⟩
  rotate_left
  · have hall := dotLines_forall F args (fun l => match l with
      | .node n lab z b => z = archTotal Node.size m n ∧ (if args.abbrev_ then LastPart n lab else lab = n) ∧
          ∃ row ∈ crt, ∃ r ∈ row.2, r.1 = n
      | .edge _ _ _ => True) (by
        intro p hp
        have hpR := ((hget p.1 p.2).mp (dget_of_mem hfn hp)).1
        obtain ⟨ha, hb, _⟩ := hdet p.1 p.2 hpR
        refine ⟨hb, ?_, ?_⟩
        · split
          · exact ha
          · rfl
        · obtain ⟨I, row, hrow, hl⟩ := (hout p.1).mp (by rw [hpR]; rfl)
          exact ⟨row, hrow, (hlisted _ _ _ hl).1⟩) (by
        intro p hp q hq
        have hpR := ((hget p.1 p.2).mp (dget_of_mem hfn hp)).1
        obtain ⟨_, _, hk, hin, hdi⟩ := hdet p.1 p.2 hpR
        have hq' := dget_of_mem hk hq
        obtain ⟨ha, hb, _⟩ := hdi q.1 q.2 hq'
        refine ⟨⟨hb, ?_, ?_⟩, by cases args.depReverse <;> exact trivial⟩
        · split
          · exact ha
          · rfl
        · obtain ⟨row, hrow, hl⟩ := (hin q.1).mp (by rw [hq']; rfl)
          exact ⟨row, hrow, (hlisted _ _ _ hl).2⟩)
    intro n lab z b hmem
    obtain ⟨g1, g2, g3⟩ := hall _ hmem
    refine ⟨g1, g2, ?_, g3⟩
    rw [h5 n lab z b hmem]
    have hkeys : n ∈ dkeys F ↔ ∃ p ∈ F, p.1 = n := List.mem_map
    have hedge : ∀ s d l, DotLine.edge s d l ∈ dotLines F args ↔ ∃ p ∈ F, ∃ q ∈ p.2.archives,
        (if args.depReverse then (q.1, p.1) else (p.1, q.1)) = (s, d) ∧ l = if args.depSymbols then some q.2.symbols else none := by
      intro s d l
      rw [← mem_edges, h4]
      simp only [List.mem_map, dependencies, List.mem_flatMap]
      constructor
      · rintro ⟨e, ⟨p, hp, q, hq, rfl⟩, he⟩
        refine ⟨p, hp, q, hq, ?_⟩
        cases hrev : args.depReverse <;> simp [hrev] at he ⊢ <;> simp [he]
      · rintro ⟨p, hp, q, hq, he, rfl⟩
        refine ⟨_, ⟨p, hp, q, hq, rfl⟩, ?_⟩
        cases hrev : args.depReverse <;> simp [hrev] at he ⊢ <;> simp [he]
    rw [hkeys]
    constructor
    · rintro ⟨p, hp, rfl⟩
      have hpR := ((hget p.1 p.2).mp (dget_of_mem hfn hp)).1
      obtain ⟨I, hI⟩ := (hout p.1).mp (by rw [hpR]; rfl)
      obtain ⟨i, hi⟩ := Option.isSome_iff_exists.mp (((hdet p.1 p.2 hpR).2.2.2.1 I).mpr hI)
      refine ⟨I, if args.depSymbols then some i.symbols else none, ?_⟩
      cases hrev : args.depReverse
      · exact (hedge _ _ _).mpr ⟨p, hp, _, mem_of_dget hi, by rw [hrev]; rfl, rfl⟩
      · exact (hedge _ _ _).mpr ⟨p, hp, _, mem_of_dget hi, by rw [hrev]; rfl, rfl⟩
    · rintro ⟨X, l, hl⟩
      cases hrev : args.depReverse <;> rw [hrev] at hl
      · obtain ⟨p, hp, q, _, he, _⟩ := (hedge _ _ _).mp hl
        rw [hrev] at he
        exact ⟨p, hp, congrArg Prod.fst he⟩
      · obtain ⟨p, hp, q, _, he, _⟩ := (hedge _ _ _).mp hl
        rw [hrev] at he
        exact ⟨p, hp, congrArg Prod.snd he⟩
  · have hall := dotLines_forall F args (fun l => match l with
      | .node _ _ _ _ => True
      | .edge A B lab => lab = if args.depSymbols then
          some ((crt.filter fun row => decide (Refers (Counted m args) (LinkedSym syms) A B row)).map (·.1)) else none)
      (fun _ _ => trivial) (by
        intro p hp q hq
        refine ⟨trivial, ?_⟩
        have hpR := ((hget p.1 p.2).mp (dget_of_mem hfn hp)).1
        obtain ⟨_, _, hk, hin, hdi⟩ := hdet p.1 p.2 hpR
        obtain ⟨_, _, hs⟩ := hdi q.1 q.2 (dget_of_mem hk hq)
        unfold Linked at hs
        cases hrev : args.depReverse <;> simp only [hrev, if_true, Bool.false_eq_true, if_false] at hs ⊢ <;> rw [hs])
    exact fun A B lab hm => hall _ hm
  rotate_left
  · rw [h4, List.map_map]
    have hinn : ∀ p ∈ F, KeysNodup p.2.archives := by
      intro p hp
      have := ((hget p.1 p.2).mp (dget_of_mem hfn hp)).1
      exact (hdet p.1 p.2 this).2.2.1
    clear hget h5 h4 h3 h2 h1
    induction F with
    | nil => simp [dependencies]
    | cons p t ih =>
      obtain ⟨hp, ht⟩ := KeysNodup.cons_iff.mp hfn
      simp only [dependencies, List.flatMap_cons, List.map_append]
      rw [List.nodup_append]
      refine ⟨?_, ih ht fun q hq => hinn q (by simp [hq]), ?_⟩
      · have := hinn p (by simp)
        rw [List.map_map]
        unfold KeysNodup dkeys at this
        refine nodup_of_map (fun e => if args.depReverse then e.1 else e.2) ?_
        rw [List.map_map]
        have hf : ((fun e : Str × Str => if args.depReverse then e.1 else e.2) ∘
            ((fun e : Str × Str × Option (List Str) => (e.1, e.2.1)) ∘
              fun e : Str × Str × List Str => (e.1, e.2.1, if args.depSymbols then some e.2.2 else none)) ∘
            fun q : Str × DepInfo => if args.depReverse then (q.1, p.1, q.2.symbols) else (p.1, q.1, q.2.symbols)) =
            (·.1) := by
          funext q
          cases hrev : args.depReverse <;> simp [Function.comp]
        rw [hf]
        exact this
      · intro a ha b hb hab
        subst hab
        simp only [List.mem_map] at ha hb
        obtain ⟨e, ⟨q, _, rfl⟩, rfl⟩ := ha
        obtain ⟨e', he', h⟩ := hb
        simp only [List.mem_flatMap, List.mem_map] at he'
        obtain ⟨p', hp', q', _, rfl⟩ := he'
        apply hp
        have : p'.1 = p.1 := by
          cases hrev : args.depReverse <;> simp [hrev] at h
          · exact h.1
          · exact h.2
        rw [← this]
        exact List.mem_map_of_mem hp'
  · have e1 : (∃ lab, DotLine.edge A B lab ∈ dotLines F args) ↔
        ∃ a i, dget F (if args.depReverse then B else A) = some a ∧
          dget a.archives (if args.depReverse then A else B) = some i := by
      simp only [← mem_edges, h4, List.mem_map, dependencies, List.mem_flatMap]
      constructor
      · rintro ⟨lab, e, ⟨p, hp, q, hq, rfl⟩, he⟩
        have hp' := dget_of_mem hfn hp
        have hq' := dget_of_mem ((hdet p.1 p.2 ((hget p.1 p.2).mp hp').1).2.2.1) hq
        refine ⟨p.2, q.2, ?_⟩
        cases hrev : args.depReverse <;> simp [hrev] at he ⊢
        · obtain ⟨rfl, rfl, _⟩ := he; exact ⟨hp', hq'⟩
        · obtain ⟨rfl, rfl, _⟩ := he; exact ⟨hp', hq'⟩
      · rintro ⟨a, i, ha, hi⟩
        refine ⟨if args.depSymbols then some i.symbols else none, _, ⟨_, mem_of_dget ha, _, mem_of_dget hi, rfl⟩, ?_⟩
        cases hrev : args.depReverse <;> simp
    rw [e1]
    have hlink : ∀ row, Refers (Counted m args) (LinkedSym syms) A B row ↔
        Linked m args syms (if args.depReverse then B else A) (if args.depReverse then A else B) row := by
      intro row; unfold Linked; cases args.depReverse <;> simp
    simp only [hlink]
    generalize (if args.depReverse then B else A) = O
    generalize (if args.depReverse then A else B) = I
    constructor
    · rintro ⟨a, i, ha, hi⟩
      obtain ⟨ha1, hacc⟩ := (hget O a).mp ha
      refine ⟨((hdet O a ha1).2.2.2.1 I).mp (by rw [hi]; rfl), a.abb, (hdet O a ha1).1, hacc⟩
    · rintro ⟨hex, abb, hab, hacc⟩
      obtain ⟨a, ha⟩ := Option.isSome_iff_exists.mp ((hout O).mpr ⟨I, hex⟩)
      obtain ⟨i, hi⟩ := Option.isSome_iff_exists.mp (((hdet O a ha).2.2.2.1 I).mpr hex)
      have : abb = a.abb := lastPart_unique hab (hdet O a ha).1
      subst this
      exact ⟨a, i, (hget O a).mpr ⟨ha, hacc⟩, hi⟩

/-- The DOT format is for dependencies only. -/
theorem C37_only_dependencies (ord : List Str → List Str) (m : MemMap) (crt : Option Crt)
    (elf : Option (List ElfSym)) (args : Args) (h : args.archiveDependencies = false) :
    showDot ord m crt elf args = .error .exit := by
  simp [showDot, h]

example : showDot ordFirst exMapD (some exCrt) (some exSyms) { archiveDependencies := true } = .ok (
    ["strict digraph {",
     "\"y/libb.a\" \\[shape=box, label=\"libb.a (20)\", style=filled, fillcolor=\"darkorange3\"]",
     "\"x/liba.a\" \\[shape=ellipse, label=\"liba.a (10)\", style=filled, fillcolor=\"azure\"]",
     "\"y/libb.a\" -> \"x/liba.a\"",
     "\"z/libc.a\" \\[shape=box, label=\"libc.a (30)\", style=filled, fillcolor=\"darkorange3\"]",
     "\"z/libc.a\" -> \"x/liba.a\"",
     "}"].map str) := by decide +kernel

end EspSize
