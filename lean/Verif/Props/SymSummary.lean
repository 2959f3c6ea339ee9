import Verif.Props.Summary
/-! # C13: the symbol report -/
namespace EspSize

theorem symRec_shape {u : Bool} {d : Option Str} {i : Item} {r : Rec} (h : symRec u d i = some r) :
    ∃ s a o y, i.sec = some s ∧ i.arch = some a ∧ i.obj = some o ∧ i.sym = some y ∧ some a.2.abb = d ∧
      r = { key := if u then y.2.abb else join (str ":") [a.1, o.1, y.1], abb := y.1,
            type := i.type.1, sec := s.1, size := y.2.size, sizeDiff := y.2.sizeDiff } := by
  unfold symRec at h
  split at h
  · rename_i s a o y hs ha ho hy
    split at h
    · cases h
    · rename_i hd
      cases h
      exact ⟨s, a, o, y, hs, ha, ho, hy, Decidable.not_not.mp hd, rfl⟩
  · cases h

theorem symRecs_ok {m : MemMap} (hm : m.WF) (u : Bool) (d : Option Str) :
    ∀ r ∈ (walk m (str "all")).filterMap (symRec u d), RecOk (summaryTypes m) r := by
  intro r hr
  obtain ⟨i, hi, hr⟩ := List.mem_filterMap.mp hr
  obtain ⟨s, a, o, y, hs, _, _, _, _, rfl⟩ := symRec_shape hr
  exact recOk_of hm hi hs rfl rfl

/-- Sum over the symbols of the archives whose abbreviated name is `d`. -/
def symTotal (F : Sym → Int) (m : MemMap) (d : Option Str) : Int :=
  sumBy (fun t => sumBy (fun s => sumBy (fun a =>
    if some a.2.abb = d then sumBy (fun o => sumBy (fun y => F y.2) o.2.kids) a.2.kids else 0)
    s.2.kids) t.2.sections) m.memoryTypes

theorem symRecs_sum (m : MemMap) (u : Bool) (d : Option Str) (f : Rec → Int) (F : Sym → Int)
    (hf : ∀ k b t s (x : Sym), f { key := k, abb := b, type := t, sec := s, size := x.size, sizeDiff := x.sizeDiff } = F x) :
    sumBy f ((walk m (str "all")).filterMap (symRec u d)) = symTotal F m d := by
  have n1 : str "all" ≠ str "types" := by decide
  have n2 : str "all" ≠ str "sections" := by decide
  have n3 : str "all" ≠ str "archives" := by decide
  have n4 : str "all" ≠ str "objects" := by decide
  unfold walk walkType walkSec walkArch walkObj symTotal
  simp only [if_neg n1, if_neg n2, if_neg n3, if_neg n4, List.filterMap_flatMap, sumBy_flatMap]
  congr 1; funext t; congr 1; funext s; congr 1; funext a
  by_cases e : some a.2.abb = d
  · rw [if_pos e]
    congr 1; funext o
    induction o.2.kids with
    | nil => rfl
    | cons y ys ih =>
      simp only [List.map_cons, List.filterMap_cons, symRec, e, ne_eq, not_true_eq_false, if_false, sumBy, hf]
      rw [ih]
  · rw [if_neg e]
    apply sumBy_zero
    intro o _
    induction o.2.kids with
    | nil => rfl
    | cons y ys ih =>
      simp only [List.map_cons, List.filterMap_cons, symRec, e, ne_eq, not_false_eq_true, if_true]
      exact ih

/-- Two reported symbols of one section never get the same report key. -/
def SymKeysInj (u : Bool) (d : Option Str) (m : MemMap) : Prop :=
  ∀ t s a o y a' o' y' ax ax' yx yx', getArch m t s a = some ax → getArch m t s a' = some ax' →
    some ax.abb = d → some ax'.abb = d →
    getSym m t s a o y = some yx → getSym m t s a' o' y' = some yx' →
    (if u then yx.abb else join (str ":") [a, o, y]) = (if u then yx'.abb else join (str ":") [a', o', y']) →
    a = a' ∧ o = o' ∧ y = y'

theorem symKeysInj_of_noColon (m : MemMap) (d : Option Str)
    (h : ∀ t s a o y yx, getSym m t s a o y = some yx → ':' ∉ o ∧ ':' ∉ y) : SymKeysInj false d m := by
  intro t s a o y a' o' y' _ _ yx yx' _ _ _ _ hy hy' hk
  have h1 := h _ _ _ _ _ _ hy
  have h2 := h _ _ _ _ _ _ hy'
  have hk' : (a ++ ':' :: o) ++ ':' :: y = (a' ++ ':' :: o') ++ ':' :: y' := by
    simpa [join, str] using hk
  obtain ⟨h3, h4⟩ := colon_split h1.2 h2.2 hk'
  obtain ⟨h5, h6⟩ := colon_split h1.1 h2.1 h3
  exact ⟨h5, h6, h4⟩

theorem fullAll : FullDepth (str "all") := by unfold FullDepth; decide

theorem symRecs_noClash {m : MemMap} (hm : m.WF) {u : Bool} {d : Option Str} (hinj : SymKeysInj u d m) :
    NoClash ((walk m (str "all")).filterMap (symRec u d)) := by
  apply noClash_of hm
  · intro i _ r hr
    obtain ⟨s, a, o, y, hs, _, _, _, _, rfl⟩ := symRec_shape hr
    exact ⟨s, hs, rfl, rfl⟩
  · intro i hi j hj hlt et es r r' hr hr' hk
    obtain ⟨t, s, a, o, y, x, sx, ax, ox, yx, ht, hs, ha, ho, hy, rfl⟩ :=
      ((C54_walk_mem m hm i).2.2.2.2 _ fullAll).mp hi
    obtain ⟨t', s', a', o', y', x', sx', ax', ox', yx', ht', hs', ha', ho', hy', rfl⟩ :=
      ((C54_walk_mem m hm j).2.2.2.2 _ fullAll).mp hj
    obtain ⟨_, _, _, _, e1, e2, e3, e4, hd, rfl⟩ := symRec_shape hr
    cases e1; cases e2; cases e3; cases e4
    obtain ⟨_, _, _, _, e1, e2, e3, e4, hd', rfl⟩ := symRec_shape hr'
    cases e1; cases e2; cases e3; cases e4
    simp only [Prod.mk.injEq, Option.some.injEq] at et es hk
    obtain ⟨rfl, rfl⟩ := et
    obtain ⟨rfl, rfl⟩ := es
    obtain ⟨rfl, rfl, rfl⟩ := hinj _ _ _ _ _ _ _ _ _ _ _ _ ha ha' hd hd' hy hy' hk
    rcases hlt with hb | ⟨_, s1, s2, e1, e2, hrest⟩
    · exact not_before_self hm.1 _ hb
    · cases e1; cases e2
      rcases hrest with hb | ⟨_, a1, a2, e1, e2, hrest⟩
      · exact not_before_self (hm.getType ht).1 _ hb
      · cases e1; cases e2
        rcases hrest with hb | ⟨_, o1, o2, e1, e2, hrest⟩
        · exact not_before_self (hm.getSec hs).1 _ hb
        · cases e1; cases e2
          rcases hrest with hb | ⟨_, y1, y2, e1, e2, hb⟩
          · exact not_before_self (hm.getArch ha).1 _ hb
          · cases e1; cases e2
            exact not_before_self (hm.getObj ho).1 _ hb

/-- Some symbol belongs to an archive whose abbreviated name is `d`. -/
def HasSymbol (m : MemMap) (d : Option Str) : Prop :=
  ∃ t s a o y ax yx, getArch m t s a = some ax ∧ some ax.abb = d ∧ getSym m t s a o y = some yx

theorem symRecs_mem {m : MemMap} (hm : m.WF) (u : Bool) (d : Option Str) (k : Str) :
    (∃ r ∈ (walk m (str "all")).filterMap (symRec u d), r.key = k) ↔
      ∃ t s a o y ax yx, getArch m t s a = some ax ∧ some ax.abb = d ∧ getSym m t s a o y = some yx ∧
        k = if u then yx.abb else join (str ":") [a, o, y] := by
  simp only [List.mem_filterMap]
  constructor
  · rintro ⟨r, ⟨i, hi, hr⟩, hk⟩
    obtain ⟨t, s, a, o, y, x, sx, ax, ox, yx, ht, hs, ha, ho, hy, rfl⟩ :=
      ((C54_walk_mem m hm i).2.2.2.2 _ fullAll).mp hi
    obtain ⟨_, _, _, _, e1, e2, e3, e4, hd, rfl⟩ := symRec_shape hr
    cases e1; cases e2; cases e3; cases e4
    exact ⟨t, s, a, o, y, ax, yx, ha, hd, hy, hk.symm⟩
  · rintro ⟨t, s, a, o, y, ax, yx, ha, hd, hy, rfl⟩
    obtain ⟨ox, ho, hyx⟩ := Option.bind_eq_some_iff.mp hy
    obtain ⟨ax', ha', hox⟩ := Option.bind_eq_some_iff.mp ho
    rw [ha] at ha'; cases ha'
    obtain ⟨sx, hs, hax⟩ := Option.bind_eq_some_iff.mp ha
    obtain ⟨x, hx, hsx⟩ := Option.bind_eq_some_iff.mp hs
    refine ⟨⟨if u then yx.abb else join (str ":") [a, o, y], y, t, s, yx.size, yx.sizeDiff⟩,
      ⟨_, ((C54_walk_mem m hm _).2.2.2.2 _ fullAll).mpr
      ⟨t, s, a, o, y, x, sx, ax, ox, yx, hx, hs, ha, ho, hy, rfl⟩, ?_⟩, rfl⟩
    unfold symRec
    simp only []
    rw [if_neg (fun h => h hd)]

/-- **C13** (except that an archive without symbols counts as absent, and for the per-section sizes
under colliding names) the symbol report. -/
theorem C13_symbols_summary_partial (m : MemMap) (hm : m.WF) (args : Args) :
    (getSymbolsSummary m args = .error .exit ↔ ¬ HasSymbol m args.archiveDetails) ∧
    (HasSymbol m args.archiveDetails → ∃ E R, getSymbolsSummary m args = .ok R ∧ KeysNodup E ∧
      (∀ k e, dget R k = some e ↔ dget E k = some e ∧
        (truthy args.diff = true → args.showUnchanged = false → e.sizeDiff ≠ 0)) ∧
      (∀ k, (dget E k).isSome = true ↔
        ∃ t s a o y ax yx, getArch m t s a = some ax ∧ some ax.abb = args.archiveDetails ∧
          getSym m t s a o y = some yx ∧ k = if args.unify then yx.abb else join (str ":") [a, o, y]) ∧
      (∀ k e, dget E k = some e →
        Consistent m e ∧ (SymKeysInj args.unify args.archiveDetails m → SecConsistent m e)) ∧
      sumBy (fun p => p.2.size) E = symTotal Sym.size m args.archiveDetails ∧
      sumBy (fun p => p.2.sizeDiff) E = symTotal Sym.sizeDiff m args.archiveDetails) := by
  have hok := symRecs_ok hm args.unify args.archiveDetails
  obtain ⟨E, hE, inv⟩ := summarize_inv (mtWF_summaryTypes hm) _ hok
  have hdef : getSymbolsSummary m args =
      if ((walk m (str "all")).filterMap (symRec args.unify args.archiveDetails)).isEmpty then .error .exit
      else .ok (remSummaryUnchanged E args) := by
    unfold getSymbolsSummary
    simp only [hE, bind, Except.bind]
  have hemp : ((walk m (str "all")).filterMap (symRec args.unify args.archiveDetails)).isEmpty = true ↔
      ¬ HasSymbol m args.archiveDetails := by
    rw [List.isEmpty_iff]
    constructor
    · rintro h ⟨t, s, a, o, y, ax, yx, ha, hd, hy⟩
      obtain ⟨r, hr, _⟩ := (symRecs_mem hm args.unify args.archiveDetails _).mpr
        ⟨t, s, a, o, y, ax, yx, ha, hd, hy, rfl⟩
      rw [h] at hr; cases hr
    · intro h
      apply List.eq_nil_iff_forall_not_mem.mpr
      intro r hr
      obtain ⟨t, s, a, o, y, ax, yx, ha, hd, hy, _⟩ :=
        (symRecs_mem hm args.unify args.archiveDetails r.key).mp ⟨r, hr, rfl⟩
      exact h ⟨t, s, a, o, y, ax, yx, ha, hd, hy⟩
  constructor
  · rw [hdef, ← hemp]
    split <;> simp_all
  · intro hs
    refine ⟨E, remSummaryUnchanged E args, ?_, inv.nodup, ?_, ?_, ?_, ?_, ?_⟩
    · rw [hdef, if_neg]
      rw [hemp]; exact fun h => h hs
    · exact fun a e => remSummaryUnchanged_spec args E inv.nodup a e
    · intro k
      rw [inv.look k, ← symRecs_mem hm]
      have : ((walk m (str "all")).filterMap (symRec args.unify args.archiveDetails)).any (onK k) = true ↔
          ∃ r ∈ (walk m (str "all")).filterMap (symRec args.unify args.archiveDetails), r.key = k := by
        simp only [List.any_eq_true, onK, decide_eq_true_eq]
      rw [← this]
      split <;> simp_all
    · intro k e he
      rw [inv.look k] at he
      split at he
      · cases he
        exact ⟨consistent_entryOf hm k _ hok,
          fun hinj => secConsistent_entryOf hm k _ hok (symRecs_noClash hm hinj)⟩
      · cases he
    · rw [inv.total]; exact symRecs_sum m _ _ _ _ fun _ _ _ _ _ => rfl
    · rw [inv.totalDiff]; exact symRecs_sum m _ _ _ _ fun _ _ _ _ _ => rfl

/-- **C13** (violated part) an archive that is in the map, with code, but for which no symbols were
assigned is reported as missing: the tool exits with an error. -/
theorem C13_present_not_found :
    exSameObj.WF ∧ (getArch exSameObj (str "DRAM") (str ".bss") (str "libb.a")).map (fun a => (a.abb, a.size)) =
      some (str "libb.a", 7) ∧
    getSymbolsSummary exSameObj { archiveDetails := some (str "libb.a") } = .error .exit := by decide

/-- **C13** (violated part) with `--unify`, static symbols of the same name in two object files of an
archive share an entry whose section size is only the last one's: 0 instead of 5. -/
theorem C13_unify_section_lost :
    (getSymbolsSummary (unify exSameObj) { unify := true, archiveDetails := some (str "liba.a") }).map (fun E =>
      (dget E (str "s")).bind fun e => (dget e.types (str "DRAM")).bind fun t =>
        (dget t.sections (str ".bss")).map fun s => (e.size, t.size, s.size)) =
      .ok (some (5, 5, 0)) := by decide

example : HasSymbol exSameObj (some (str "liba.a")) ∧
    SymKeysInj false (some (str "liba.a")) exSameObj := by
  refine ⟨⟨str "DRAM", str ".bss", str "liba.a", str "main.c.obj", str "s", _, _, rfl, rfl, rfl⟩, ?_⟩
  apply symKeysInj_of_noColon
  intro t s a o y yx h
  obtain ⟨ox, ho, h⟩ := Option.bind_eq_some_iff.mp h
  obtain ⟨ax, ha, ho⟩ := Option.bind_eq_some_iff.mp ho
  obtain ⟨sx, hs, ha⟩ := Option.bind_eq_some_iff.mp ha
  obtain ⟨x, ht, hs⟩ := Option.bind_eq_some_iff.mp hs
  have key : ∀ t ∈ exSameObj.memoryTypes, ∀ s ∈ t.2.sections, ∀ a ∈ s.2.kids, ∀ o ∈ a.2.kids,
      (o.2.kids.all fun y => !o.1.contains ':' && !y.1.contains ':') = true := by decide
  have := List.all_eq_true.mp (key _ (mem_of_dget ht) _ (mem_of_dget hs) _ (mem_of_dget ha) _ (mem_of_dget ho))
    _ (mem_of_dget h)
  simpa using this

end EspSize
