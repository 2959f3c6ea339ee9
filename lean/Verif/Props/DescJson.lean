import Verif.Spec.DescJson
import Verif.Props.Lazy
/-! # C105: descriptions and configurations of any JSON type -/
namespace EspSize

/-! ### Descriptions of the expected types -/

theorem desc_obj {v : JVal} {d : ProjDesc} (h : descOf v = some d) :
    ∃ l, v = .obj l ∧ optStr (dget l (str "app_elf")) = some d.appElf ∧ optStr (dget l (str "target")) = some d.target ∧
      optStr (dget l (str "build_dir")) = some d.build ∧ compsOf (dget l (str "build_component_info")) = some d.comps ∧
      d.other = l.any fun p => !descKeys.contains p.1 := by
  cases v with
  | obj l =>
    unfold descOf at h
    simp only [Option.bind_eq_bind, Option.bind_eq_some_iff, Option.some.injEq] at h
    obtain ⟨a, ha, t, ht, b, hb, c, hc, rfl⟩ := h
    exact ⟨l, rfl, ha, ht, hb, hc, rfl⟩
  | _ => cases h

theorem optStr_some {o : Option JVal} {r : Option Str} (h : optStr o = some r) : o = r.map JVal.str := by
  cases o with
  | none => cases h; rfl
  | some v => cases v <;> cases h <;> rfl

theorem comps_isSome {o : Option JVal} {r : Option (List Comp)} (h : compsOf o = some r) : o.isSome = r.isSome := by
  cases o with
  | none => cases h; rfl
  | some v =>
    cases v with
    | obj l =>
      unfold compsOf at h
      simp only [Option.map_eq_some_iff] at h
      obtain ⟨_, _, rfl⟩ := h
      rfl
    | _ => cases h

/-- The description is empty if the dictionary is. -/
theorem desc_nonempty {l : Dict Str JVal} {d : ProjDesc} (ha : dget l (str "app_elf") = d.appElf.map JVal.str)
    (ht : dget l (str "target") = d.target.map JVal.str) (hb : dget l (str "build_dir") = d.build.map JVal.str)
    (hc : (dget l (str "build_component_info")).isSome = d.comps.isSome) (ho : d.other = l.any fun p => !descKeys.contains p.1) :
    d.nonempty = !l.isEmpty := by
  have e1 : d.appElf.isSome = (dget l (str "app_elf")).isSome := by rw [ha]; cases d.appElf <;> rfl
  have e2 : d.target.isSome = (dget l (str "target")).isSome := by rw [ht]; cases d.target <;> rfl
  have e3 : d.build.isSome = (dget l (str "build_dir")).isSome := by rw [hb]; cases d.build <;> rfl
  unfold ProjDesc.nonempty
  rw [e1, e2, e3, ← hc, ho]
  cases l with
  | nil => rfl
  | cons p t =>
    have hg : ∀ k, (dget (p :: t) k).isSome = (decide (p.1 = k) || (dget t k).isSome) := by
      intro k
      show (if p.1 = k then some p.2 else dget t k).isSome = _
      by_cases h : p.1 = k
      · rw [if_pos h]; simp [h]
      · rw [if_neg h]; simp [h]
    simp only [hg, List.any_cons, List.isEmpty_cons, Bool.not_false]
    by_cases h1 : p.1 = str "app_elf"
    · simp [h1]
    · by_cases h2 : p.1 = str "target"
      · simp [h2]
      · by_cases h3 : p.1 = str "build_dir"
        · simp [h3]
        · by_cases h4 : p.1 = str "build_component_info"
          · simp [h4]
          · have : descKeys.contains p.1 = false := by
              unfold descKeys
              simp [h1, h2, h3, h4]
            rw [this]
            simp only [Bool.not_false, Bool.true_or, Bool.or_true]

theorem mapM_opt_all {α β : Type} {f : α → Option β} {l : List α} {r : List β} (h : l.mapM f = some r) : All2 (fun x y => f x = some y) l r := by
  induction l generalizing r with
  | nil => cases h; exact trivial
  | cons x t ih =>
    rw [List.mapM_cons] at h
    simp only [Option.bind_eq_bind, Option.bind_eq_some_iff] at h
    obtain ⟨y, hy, ys, hys, h⟩ := h
    cases h
    exact ⟨hy, ih hys⟩

theorem comp_fields {v : JVal} {c : Comp} (h : compOf v = some c) :
    v.item (str "dir") = .ok (.str c.dir) ∧ v.item (str "file") = .ok (.str c.file) := by
  cases v with
  | obj d =>
    unfold compOf at h
    simp only [] at h
    split at h
    · rename_i a b h1 h2
      cases h
      unfold JVal.item
      simp only [h1, h2]
      exact ⟨rfl, rfl⟩
    · cases h
  | _ => cases h

theorem comps_typed {zero : Str → Bool} {l : List (Str × JVal)} {cs : List Comp} (h : All2 (fun p c => compOf p.2 = some c) l cs) :
    ∃ vs, compsJ zero (some (.obj l)) = .ok vs ∧ All2 (fun v c => compOf v = some c) vs (cs.filter fun c => !c.file.isEmpty) := by
  have : ∃ fs, (l.mapM fun p => (do
      let f ← p.2.item (str "file")
      .ok (p.2, f) : Except Err (JVal × JVal))) = .ok fs ∧ All2 (fun (v : JVal × JVal) c => compOf v.1 = some c ∧ v.2 = .str c.file) fs cs := by
    induction l generalizing cs with
    | nil =>
      cases cs with
      | nil => exact ⟨[], rfl, trivial⟩
      | cons c t => cases h
    | cons p t ih =>
      cases cs with
      | nil => cases h
      | cons c u =>
        obtain ⟨h1, h2⟩ := h
        obtain ⟨fs, hf, ha⟩ := ih h2
        refine ⟨(p.2, .str c.file) :: fs, ?_, ⟨h1, rfl⟩, ha⟩
        rw [List.mapM_cons, hf, (comp_fields h1).2]
        rfl
  obtain ⟨fs, hf, ha⟩ := this
  refine ⟨_, by unfold compsJ; simp only []; rw [hf]; rfl, ?_⟩
  clear hf h
  induction fs generalizing cs with
  | nil =>
    cases cs with
    | nil => exact trivial
    | cons c t => cases ha
  | cons p t ih =>
    cases cs with
    | nil => cases ha
    | cons c u =>
      obtain ⟨⟨h1, h2⟩, h3⟩ := ha
      have ht : p.2.truthy zero = !c.file.isEmpty := by rw [h2]; rfl
      rw [List.filter_cons, List.filter_cons, ht]
      by_cases hc : c.file.isEmpty = true
      · simp only [hc, Bool.not_true, Bool.false_eq_true, if_false]
        exact ih h3
      · simp only [Bool.not_eq_true] at hc
        simp only [hc, Bool.not_false, if_true]
        exact ⟨h1, ih h3⟩

theorem compsJ_sorted {build : Str} {vs : List JVal} {cs : List Comp} (h : All2 (fun v c => compOf v = some c) vs cs) :
    vs.mapM (compJ build) = cs.mapM fun c => (do
      let rel ← relativeTo c.file build
      .ok (asPosix c.dir, rel) : Except Err (Str × Str)) := by
  induction vs generalizing cs with
  | nil =>
    cases cs with
    | nil => rfl
    | cons c t => cases h
  | cons v t ih =>
    cases cs with
    | nil => cases h
    | cons c u =>
      obtain ⟨h1, h2⟩ := h
      rw [List.mapM_cons, List.mapM_cons, ih h2]
      congr 1
      unfold compJ
      rw [(comp_fields h1).1, (comp_fields h1).2]
      rfl

theorem expandInputSections_eq (b : Str) (cs : List Comp) (cu : Dict Int CuSym) (ss : List OSec) :
    expandInputSections (some (b, cs)) (some cu) ss = ((cs.filter fun c => !c.file.isEmpty).mapM fun c => (do
      let rel ← relativeTo c.file b
      .ok (asPosix c.dir, rel) : Except Err (Str × Str))) >>= fun r =>
        .ok (ss.map (expandSection (expandFrom (sortedBy (fun p => (p.1.length : Int)) true r) cu))) := by
  unfold expandInputSections expandSymbols sortedComponents
  simp only []
  generalize ((cs.filter fun c => !c.file.isEmpty).mapM fun c => (do
      let rel ← relativeTo c.file b
      .ok (asPosix c.dir, rel) : Except Err (Str × Str))) = r
  cases r with
  | error x => rfl
  | ok r => rfl

theorem dwarf_typed {zero : Str → Bool} {l : Dict Str JVal} {d : ProjDesc} (hb : dget l (str "build_dir") = d.build.map JVal.str)
    (hc : compsOf (dget l (str "build_component_info")) = some d.comps) (u : Bool) (elf : Option ElfData) (ss : List OSec) :
    dwarfSectionsJ zero u (some l) elf ss = dwarfSections u (some d) elf ss := by
  unfold dwarfSectionsJ dwarfSections
  cases u with
  | false => rfl
  | true =>
    simp only [if_true]
    cases elf with
    | none => rfl
    | some e =>
      simp only []
      cases e.cuSyms with
      | error x => rfl
      | ok cu =>
        simp only [bind, Except.bind]
        cases hv : dget l (str "build_component_info") with
        | none =>
          rw [hv] at hc
          cases hd : d.comps with
          | none => rfl
          | some x => rw [hd] at hc; cases hc
        | some v =>
          rw [hv] at hc
          cases v with
          | obj cl =>
            unfold compsOf at hc
            simp only [Option.map_eq_some_iff] at hc
            obtain ⟨cs, hcs, hd⟩ := hc
            obtain ⟨vs, h1, h2⟩ := comps_typed (zero := zero) (mapM_opt_all hcs)
            rw [h1, ← hd]
            simp only [getKey]
            cases hbd : d.build with
            | none =>
              rw [hbd] at hb
              rw [hb]
              rfl
            | some b =>
              rw [hbd] at hb
              rw [hb]
              simp only [Option.map_some, JVal.asStr, compsJ_sorted h2]
              exact (expandInputSections_eq b cs cu ss).symm
          | _ => cases hc

/-- The description of the expected types. -/
def TypedDesc (o : Option JVal) : Prop := NoValue o ∨ ∃ v d, o = some v ∧ descOf v = some d

/-- The configuration of the expected types. -/
def TypedConfig (o : Option JVal) : Prop := NoValue o ∨ ∃ v b, o = some v ∧ ltoOf v = some b

/-- The world in which values of other types count as absent, as `worldOf` makes it. -/
def typedWorld (w : World) (json : Str → Option JVal) : World :=
  { w with json := fun p => (json p).bind descOf, sdkconfig := fun p => (json p).bind ltoOf }

theorem desc_typed {w : World} {json : Str → Option JVal} {fn : Str} (h : TypedDesc (json (descPath fn))) :
    (getProjDescJ json fn = .ok none ∧ getProjDesc (typedWorld w json) fn = none) ∨
    ∃ l d, getProjDescJ json fn = .ok (some l) ∧ getProjDesc (typedWorld w json) fn = some d ∧
      dget l (str "app_elf") = d.appElf.map JVal.str ∧ dget l (str "target") = d.target.map JVal.str ∧
      dget l (str "build_dir") = d.build.map JVal.str ∧ compsOf (dget l (str "build_component_info")) = some d.comps ∧
      d.nonempty = !l.isEmpty := by
  unfold getProjDescJ getProjDesc typedWorld
  unfold descPath at h
  rcases h with (h | h) | ⟨v, d, h, hd⟩
  · exact .inl ⟨by simp only [h], by simp only [h]; rfl⟩
  · exact .inl ⟨by simp only [h], by simp only [h]; rfl⟩
  · obtain ⟨l, rfl, ha, ht, hb, hc, ho⟩ := desc_obj hd
    replace ha := optStr_some ha
    replace ht := optStr_some ht
    replace hb := optStr_some hb
    simp only [h, Option.bind_some, hd]
    have happ : appElfJ l = .ok (d.appElf.getD []) := by
      unfold appElfJ
      rw [ha]
      cases d.appElf <;> rfl
    rw [happ]
    simp only [bind, Except.bind]
    by_cases hs : splitextRoot (basename fn) = splitextRoot (basename (d.appElf.getD []))
    · rw [if_pos hs, if_pos hs]
      exact .inr ⟨l, d, rfl, rfl, ha, ht, hb, hc, desc_nonempty ha ht hb (comps_isSome hc) ho⟩
    · rw [if_neg hs, if_neg hs]
      exact .inl ⟨rfl, rfl⟩

/-- **C105** for descriptions and configurations of the expected types `get` is the function of `Model/Get`. -/
theorem C105_same (zero : Str → Bool) (n : Nat) (w : World) (json : Str → Option JVal) (fn : Str) (ls : Bool) (ud : Option Bool) (mf : Option MapFile)
    (hd : TypedDesc (json (descPath fn))) (hs : ud = none → TypedConfig (json (configPath fn))) :
    getJ zero n w json fn ls ud mf = getMap n (typedWorld w json) fn ls ud mf none := by
  have hw : wantDwarfJ zero json fn ud = .ok (wantDwarf (typedWorld w json) fn ud) := by
    cases ud with
    | some b => rfl
    | none =>
      unfold wantDwarfJ wantDwarf typedWorld
      have := hs rfl
      unfold configPath at this
      rcases this with (h | h) | ⟨v, b, h, hb⟩
      · simp only [h]; rfl
      · simp only [h]; rfl
      · simp only [h, Option.bind_some, hb, Option.getD_some]
        cases v with
        | obj l =>
          unfold ltoOf at hb
          simp only [] at hb ⊢
          cases hg : dget l (str "COMPILER_LTO_LINKTIME") with
          | none => rw [hg] at hb; cases hb; rfl
          | some x =>
            rw [hg] at hb
            cases x <;> cases hb
            rfl
        | _ => cases hb
  have hpick : ∀ (t : Str) (m : Str), targetJ zero w (some (.str t)) m = (do
      let tg ← pickTarget t m
      let ty ← getMemoryTypes (typedWorld w json) tg
      .ok (tg, ty)) := by
    intro t m
    unfold targetJ
    cases t with
    | nil => rfl
    | cons a s => rfl
  have hpick0 : ∀ (m : Str), targetJ zero w none m = (do
      let tg ← pickTarget [] m
      let ty ← getMemoryTypes (typedWorld w json) tg
      .ok (tg, ty)) := fun m => rfl
  have hmap : useMap (typedWorld w json) fn mf = useMap w fn mf := rfl
  have hload : loadJ zero w json fn ud mf = load (typedWorld w json) fn ud mf := by
    unfold loadJ load
    simp only [hw, hmap]
    rcases desc_typed (w := w) hd with ⟨h1, h2⟩ | ⟨l, d, h1, h2, ha, ht, hb, hc, hne⟩
    · have helf : getElfJ w json fn none = getElf (typedWorld w json) fn none := by
        unfold getElfJ getElf usedDescJ
        simp only [h1, h2]
        rfl
      have hdw : ∀ u elf ss, dwarfSectionsJ zero u none elf ss = dwarfSections u none elf ss := by
        intro u elf ss
        cases u <;> rfl
      simp only [h1, h2, bind, Except.bind, descTargetJ, descTarget, helf, hdw, hpick0]
      cases useMap w fn mf with
      | error x => rfl
      | ok m =>
        simp only []
        cases warnInvalid m with
        | error x => rfl
        | ok u =>
          simp only []
          cases getElf (typedWorld w json) fn none with
          | error x => rfl
          | ok elf =>
            simp only []
            cases dwarfSections (wantDwarf (typedWorld w json) fn ud) none elf (m.sections.map toOSec) with
            | error x => rfl
            | ok ss =>
              simp only []
              cases pickTarget [] m.target with
              | error x => rfl
              | ok tg =>
                simp only []
                cases getMemoryTypes (typedWorld w json) tg <;> rfl
    · have helf : getElfJ w json fn (some l) = getElf (typedWorld w json) fn (some d) := by
        have fin : elfFileJ w fn (some l) = (do
            let app ← getKey d.appElf
            match (typedWorld w json).elf (pathJoin (dirname fn) app) with
            | none => .ok none
            | some r => loadElf r : Except Err (Option ElfData)) := by
          unfold elfFileJ
          simp only []
          rw [ha]
          cases d.appElf with
          | none => rfl
          | some a => rfl
        unfold getElfJ getElf usedDescJ
        simp only [hne]
        cases l with
        | nil =>
          simp only [h1, h2, List.isEmpty_nil, Bool.not_true, Bool.false_eq_true, if_false]
          exact fin
        | cons p t =>
          simp only [List.isEmpty_cons, Bool.not_false, if_true]
          exact fin
      simp only [h1, h2, bind, Except.bind, helf, dwarf_typed hb hc]
      have hdt : descTargetJ (some l) = (descTarget (some d)).map (fun t => if l.isEmpty then none else some (.str t)) := by
        unfold descTargetJ descTarget
        simp only [hne]
        cases l with
        | nil => rfl
        | cons p t =>
          simp only [List.isEmpty_cons, Bool.not_false, if_true, ht]
          cases d.target <;> rfl
      rw [hdt]
      cases htd : descTarget (some d) with
      | error x => rfl
      | ok t =>
        have hfin : ∀ m, targetJ zero w (if l.isEmpty then none else some (.str t)) m = (do
            let tg ← pickTarget t m
            let ty ← getMemoryTypes (typedWorld w json) tg
            .ok (tg, ty)) := by
          intro m
          cases l with
          | nil =>
            have : t = [] := by
              unfold descTarget at htd
              simp only [hne] at htd
              cases htd
              rfl
            subst this
            exact hpick0 m
          | cons p u => exact hpick t m
        simp only [Except.map]
        cases useMap w fn mf with
        | error x => rfl
        | ok m =>
          simp only []
          cases warnInvalid m with
          | error x => rfl
          | ok u =>
            simp only []
            cases getElf (typedWorld w json) fn (some d) with
            | error x => rfl
            | ok elf =>
              simp only []
              cases dwarfSections (wantDwarf (typedWorld w json) fn ud) (some d) elf (m.sections.map toOSec) with
              | error x => rfl
              | ok ss =>
                simp only [hfin, bind, Except.bind]
                cases pickTarget t m.target with
                | error x => rfl
                | ok tg =>
                  simp only []
                  cases getMemoryTypes (typedWorld w json) tg <;> rfl
  unfold getJ getMap
  rw [hload]
  cases load (typedWorld w json) fn ud mf <;> rfl

/-! ### Only some keys matter -/

/-- The keys of the description that are needed: the components only if the debugging information may be used. -/
def neededKeys : Option Bool → List Str
  | some false => [str "app_elf", str "target"]
  | _ => [str "app_elf", str "target", str "build_dir", str "build_component_info"]

/-- Two descriptions with the same values of the keys. -/
def AgreeOn (ks : List Str) (d d' : Dict Str JVal) : Prop := (d = [] ↔ d' = []) ∧ ∀ k ∈ ks, dget d k = dget d' k

/-- Two results that are no description, or descriptions with the same values of the keys, or the same exception. -/
inductive SameDesc (ks : List Str) : Except Err (Option (Dict Str JVal)) → Except Err (Option (Dict Str JVal)) → Prop where
  | none : SameDesc ks (.ok none) (.ok none)
  | some {d d' : Dict Str JVal} : AgreeOn ks d d' → SameDesc ks (.ok (some d)) (.ok (some d'))
  | error {x : Err} : SameDesc ks (.error x) (.error x)

theorem sameDesc_of {ks : List Str} {json json' : Str → Option JVal} {fn : Str} (hk : str "app_elf" ∈ ks)
    (h : SameKeys ks (json (descPath fn)) (json' (descPath fn))) : SameDesc ks (getProjDescJ json fn) (getProjDescJ json' fn) := by
  unfold getProjDescJ
  unfold descPath at h
  generalize json (pathJoin (dirname fn) (str "project_description.json")) = a at h
  generalize json' (pathJoin (dirname fn) (str "project_description.json")) = b at h
  cases h with
  | nothing ha hb =>
    rcases ha with rfl | rfl <;> rcases hb with rfl | rfl <;> exact .none
  | dict he hg =>
    rename_i d d'
    simp only []
    have : appElfJ d = appElfJ d' := by
      unfold appElfJ
      rw [hg _ hk]
    rw [this]
    cases appElfJ d' with
    | error x => exact .error
    | ok app =>
      simp only [bind, Except.bind]
      split
      · exact .some ⟨he, hg⟩
      · exact .none

/-- **C105** nothing else in the description and the configuration matters: the result of `get` depends only on
`app_elf` and `target`, on `build_dir` and `build_component_info` if the debugging information may be used, and on
`COMPILER_LTO_LINKTIME` if it is not told whether to use it; whatever the types of all values. -/
theorem C105_keys (zero : Str → Bool) (n : Nat) (w : World) (json json' : Str → Option JVal) (fn : Str) (ls : Bool) (ud : Option Bool) (mf : Option MapFile)
    (hd : SameKeys (neededKeys ud) (json (descPath fn)) (json' (descPath fn)))
    (hs : ud = none → SameKeys [str "COMPILER_LTO_LINKTIME"] (json (configPath fn)) (json' (configPath fn))) :
    getJ zero n w json fn ls ud mf = getJ zero n w json' fn ls ud mf := by
  have ha : str "app_elf" ∈ neededKeys ud := by unfold neededKeys; split <;> simp
  have ht : str "target" ∈ neededKeys ud := by unfold neededKeys; split <;> simp
  have hb : ud ≠ some false → str "build_dir" ∈ neededKeys ud ∧ str "build_component_info" ∈ neededKeys ud := by
    intro h
    unfold neededKeys
    split
    · exact absurd rfl h
    · simp
  have hw : wantDwarfJ zero json fn ud = wantDwarfJ zero json' fn ud := by
    cases ud with
    | some b => rfl
    | none =>
      have := hs rfl
      unfold configPath at this
      unfold wantDwarfJ
      simp only []
      generalize json (pathJoin (pathJoin (dirname fn) (str "config")) (str "sdkconfig.json")) = a at this
      generalize json' (pathJoin (pathJoin (dirname fn) (str "config")) (str "sdkconfig.json")) = b at this
      cases this with
      | nothing h1 h2 => rcases h1 with rfl | rfl <;> rcases h2 with rfl | rfl <;> rfl
      | dict he hg => simp only [hg _ (List.mem_singleton.mpr rfl)]
  have hdesc := sameDesc_of ha hd
  have hload : loadJ zero w json fn ud mf = loadJ zero w json' fn ud mf := by
    unfold loadJ
    rw [hw]
    have helf0 : ∀ d d', AgreeOn (neededKeys ud) d d' → elfFileJ w fn (some d) = elfFileJ w fn (some d') := by
      intro d d' h
      unfold elfFileJ
      simp only [h.2 _ ha]
    generalize hr : getProjDescJ json fn = r at hdesc
    generalize hr' : getProjDescJ json' fn = r' at hdesc
    cases hdesc with
    | error => rfl
    | none =>
      have helf : getElfJ w json fn none = getElfJ w json' fn none := by
        unfold getElfJ usedDescJ
        simp only [hr, hr']
      simp only [bind, Except.bind, helf]
    | some h =>
      rename_i d d'
      have h1 : descTargetJ (some d) = descTargetJ (some d') := by
        unfold descTargetJ
        cases d with
        | nil => rw [h.1.mp rfl]
        | cons p t =>
          cases d' with
          | nil => cases h.1.mpr rfl
          | cons p' t' => simp only [h.2 _ ht]
      have h2 : getElfJ w json fn (some d) = getElfJ w json' fn (some d') := by
        unfold getElfJ usedDescJ
        cases d with
        | nil =>
          rw [h.1.mp rfl]
          simp only [hr, hr']
          exact helf0 _ _ h
        | cons p t =>
          cases d' with
          | nil => cases h.1.mpr rfl
          | cons p' t' => exact helf0 _ _ h
      have h3 : ∀ u, wantDwarfJ zero json' fn ud = .ok u → ∀ elf ss, dwarfSectionsJ zero u (some d) elf ss = dwarfSectionsJ zero u (some d') elf ss := by
        intro u hu elf ss
        unfold dwarfSectionsJ
        cases u with
        | false => rfl
        | true =>
          have hne : ud ≠ some false := by rintro rfl; cases hu
          cases elf with
          | none => rfl
          | some e =>
            simp only [if_true]
            rw [h.2 _ (hb hne).1, h.2 _ (hb hne).2]
      simp only [bind, Except.bind, h1, h2]
      cases hu : wantDwarfJ zero json' fn ud with
      | error x => rfl
      | ok u => simp only [h3 u hu]
  unfold getJ
  rw [hload]

/-! ### Exceptions -/

theorem build_raises {n : Nat} {fn : Str} {ls : Bool} {l : GetIn} {x : Err} (h : build n fn ls l = some (.error x)) : x ∈ [Err.memMap, .indexError] := by
  unfold build at h
  simp only [] at h
  split at h
  · cases h
  · rename_i regs ws hs
    simp only [Option.some.injEq] at h
    have hsy : Raises [.memMap, .indexError] (symbolStep ls l.elf (filterMapSections l.sections (elfHeaders (l.elf.map (·.shdrs))))) := by
      unfold symbolStep
      exact raises_ite (addSymbols_raises _ _) .ok
    cases hx : symbolStep ls l.elf (filterMapSections l.sections (elfHeaders (l.elf.map (·.shdrs)))) with
    | error y =>
      rw [hx] at h
      cases h
      exact hsy x hx
    | ok os =>
      rw [hx] at h
      obtain ⟨d', goes, h1, h2⟩ := memTypeMap_ok l.types regs (addArchives (splitMapSections os regs))
        (isAlias_of (splitRegions_fromTable (by intro p hp; cases hp) hs)) abb_addArchives
      simp only [bind, Except.bind, h1] at h
      cases h

theorem asStr_raises (v : JVal) : Raises getErrs v.asStr := by
  cases v with
  | str s => exact .ok
  | _ => exact .error (by decide)

theorem item_raises (k : Str) (v : JVal) : Raises getErrs (v.item k) := by
  cases v with
  | obj d => exact getKey_raises _
  | _ => exact .error (by decide)

theorem compJ_raises (build : Str) (c : JVal) : Raises getErrs (compJ build c) := by
  unfold compJ
  refine .bind (item_raises _ _) fun _ _ => .bind (asStr_raises _) fun _ _ => .bind (item_raises _ _) fun _ _ => .bind (asStr_raises _) fun _ _ =>
    .bind ?_ fun _ _ => .ok
  unfold relativeTo
  split
  · exact .ok
  · exact .error (by decide)

/-- A value of a type that has no attribute `get` or `values`, where one is used. -/
inductive NoAttribute (json : Str → Option JVal) (fn : Str) (ud : Option Bool) : Prop where
  | desc (v : JVal) : json (descPath fn) = some v → NotDict v → NoAttribute json fn ud
  | config (v : JVal) : ud = none → json (configPath fn) = some v → NotDict v → NoAttribute json fn ud
  | comps (d : Dict Str JVal) (v : JVal) : ud ≠ some false → json (descPath fn) = some (.obj d) → dget d (str "build_component_info") = some v →
      (∀ l, v ≠ .obj l) → NoAttribute json fn ud

theorem getProjDescJ_only {P : Err → Prop} (hin : ∀ y, y ∈ getErrs → P y) {json : Str → Option JVal} {fn : Str}
    (hd : ∀ v, json (descPath fn) = some v → NotDict v → P .attributeError) : Only P (getProjDescJ json fn) := by
  unfold getProjDescJ
  unfold descPath at hd
  split
  · exact .ok
  · exact .ok
  · refine .bind (Raises.only ?_ hin) fun _ _ => .ok
    unfold appElfJ
    split
    · exact .ok
    · exact asStr_raises _
  · rename_i v h1 h2 hv
    exact .error (hd v hv ⟨fun h => h1 (by rw [h]), fun d h => h2 d (by rw [h])⟩)

theorem getProjDescJ_obj {json : Str → Option JVal} {fn : Str} {d : Dict Str JVal} (h : getProjDescJ json fn = .ok (some d)) :
    json (descPath fn) = some (.obj d) := by
  unfold getProjDescJ at h
  unfold descPath
  split at h
  · cases h
  · cases h
  · rename_i d' hd
    obtain ⟨app, _, h⟩ := bind_ok h
    split at h
    · cases h; exact hd
    · cases h
  · cases h

theorem getElfJ_cu {w : World} (hw : Expected w) {json : Str → Option JVal} {fn : Str} {d : Option (Dict Str JVal)} {e : ElfData}
    (h : getElfJ w json fn d = .ok (some e)) : ∃ x, e.cuSyms = .ok x := by
  unfold getElfJ at h
  obtain ⟨o, _, h⟩ := bind_ok h
  unfold elfFileJ at h
  split at h
  · cases h
  · obtain ⟨_, _, h⟩ := bind_ok h
    obtain ⟨app, _, h⟩ := bind_ok h
    split at h
    · cases h
    · rename_i r hr
      cases r with
      | ok e' => cases h; exact hw.cu _ _ hr
      | error x => cases x <;> cases h

/-- **C105** the exceptions of `get` for JSON values of any types when files fail only in the expected ways: those of C59, and `AttributeError`, which arises only if
the description or the configuration is no dictionary, or `build_component_info` is none.  Partial: the property allows
`MemMapException` only. -/
theorem C105_errors_partial (zero : Str → Bool) (n : Nat) (w : World) (hw : Expected w) (json : Str → Option JVal) (fn : Str) (ls : Bool) (ud : Option Bool)
    (mf : Option MapFile) (x : Err) (h : getJ zero n w json fn ls ud mf = some (.error x)) :
    x ∈ [Err.memMap, .valueError, .typeError, .nameError, .indexError, .keyError] ∨ (x = .attributeError ∧ NoAttribute json fn ud) := by
  generalize hP : (fun x => x ∈ [Err.memMap, .valueError, .typeError, .nameError, .indexError, .keyError] ∨ (x = .attributeError ∧ NoAttribute json fn ud)) = P
  have hin : ∀ y, y ∈ getErrs → P y := by
    intro y hy
    rw [← hP]
    exact .inl hy
  have hat : NoAttribute json fn ud → P .attributeError := by
    intro hy
    rw [← hP]
    exact .inr ⟨rfl, hy⟩
  have hload : Only P (loadJ zero w json fn ud mf) := by
    unfold loadJ
    have hpd : Only P (getProjDescJ json fn) := getProjDescJ_only hin fun v h1 h2 => hat (.desc v h1 h2)
    refine .bind hpd fun desc hdesc => .bind ?_ fun u hu => .bind ?_ fun t _ =>
      .bind ((useMap_raises w fn mf (hw.lines fn)).only hin) fun f _ => .bind ((warnInvalid_raises f).only hin) fun _ _ =>
      .bind ?_ fun elf helf => .bind ?_ fun ss _ => .bind ?_ fun r _ => .ok
    · cases ud with
      | some b => exact .ok
      | none =>
        unfold wantDwarfJ
        simp only []
        split
        · exact .ok
        · exact .ok
        · split <;> exact .ok
        · rename_i v h1 h2 hv
          exact .error (hat (.config v rfl hv ⟨fun h => h1 (by rw [h]), fun d h => h2 d (by rw [h])⟩))
    · unfold descTargetJ
      split
      · exact .ok
      · exact .ok
      · rename_i d _
        cases dget d (str "target") with
        | none => exact .error (hin _ (by decide))
        | some v => exact .ok
    · unfold getElfJ
      refine .bind ?_ fun o _ => ?_
      · unfold usedDescJ
        split
        · exact .ok
        · exact hpd
      · unfold elfFileJ
        split
        · exact .ok
        · refine .bind ((getKey_raises _).only hin) fun v _ => .bind ((asStr_raises v).only hin) fun app _ => ?_
          split
          · exact .ok
          · rename_i r hr
            exact (loadElf_raises (hw.elf _ _ hr)).only hin
    · unfold dwarfSectionsJ
      refine only_ite (fun hu1 => ?_) fun _ => .ok
      split
      · rename_i d e _
        obtain ⟨cu, hcu⟩ := getElfJ_cu hw helf
        rw [hcu]
        refine .bind .ok fun _ _ => .bind ?_ fun comps _ => .bind ((getKey_raises _).only hin) fun b _ => .bind ((asStr_raises b).only hin) fun build _ =>
          .bind (only_mapM _ fun c _ => (compJ_raises build c).only hin) fun _ _ => .ok
        have hne : ud ≠ some false := by
          rintro rfl
          subst hu1
          cases hu
        cases hv : dget d (str "build_component_info") with
        | none => exact .error (hin _ (by decide))
        | some v =>
          have hbad : (∀ l, v ≠ .obj l) → P .attributeError := fun hl => hat (.comps d v hne (getProjDescJ_obj hdesc) hv hl)
          cases v with
          | obj l =>
            unfold compsJ
            simp only []
            exact .bind (only_mapM _ fun p _ => .bind ((item_raises _ _).only hin) fun _ _ => .ok) fun _ _ => .ok
          | _ => exact .error (hbad (by intro l hl; cases hl))
      · exact .ok
    · unfold targetJ
      refine .bind ?_ fun tg _ => .bind ?_ fun ty _ => .ok
      · have hp : Only P (pickTarget [] f.target) := by
          unfold pickTarget
          exact only_ite (fun _ => .error (hin _ (by decide))) fun _ => .ok
        unfold pickTargetJ
        split
        · exact only_ite (fun _ => (asStr_raises _).only hin) fun _ => hp
        · exact hp
      · intro z hz
        unfold getMemoryTypes at hz
        cases hc : w.chip (tg ++ str ".yaml") with
        | ok y => rw [hc] at hz; cases hz
        | error y =>
          rw [hc] at hz
          have := hw.chip _ _ hc
          simp only [List.mem_cons, List.not_mem_nil, or_false] at this
          rcases this with rfl | rfl <;> cases hz <;> exact hin _ (by decide)
  suffices P x by rw [← hP] at this; exact this
  unfold getJ at h
  split at h
  · rename_i y hy
    cases h
    exact hload _ hy
  · have := build_raises h
    simp only [List.mem_cons, List.not_mem_nil, or_false] at this
    rcases this with rfl | rfl <;> exact hin _ (by decide)

/-- **C105** (violated) a description that is no dictionary is not treated as missing: `AttributeError`, whatever else there is. -/
theorem C105_not_dict (zero : Str → Bool) (n : Nat) (w : World) (json : Str → Option JVal) (fn : Str) (ls : Bool) (ud : Option Bool)
    (mf : Option MapFile) (v : JVal) (hv : json (descPath fn) = some v) (h : NotDict v) :
    getJ zero n w json fn ls ud mf = some (.error .attributeError) := by
  have : getProjDescJ json fn = .error .attributeError := by
    unfold getProjDescJ
    unfold descPath at hv
    rw [hv]
    cases v with
    | null => exact absurd rfl h.1
    | obj d => exact absurd rfl (h.2 d)
    | _ => rfl
  unfold getJ loadJ
  rw [this]
  rfl

/-- **C105** (violated) the name of the ELF file is no string, also for a project description of another program: `TypeError`. -/
theorem C105_app_elf (zero : Str → Bool) (n : Nat) (w : World) (json : Str → Option JVal) (fn : Str) (ls : Bool) (ud : Option Bool)
    (mf : Option MapFile) (d : Dict Str JVal) (v : JVal) (hd : json (descPath fn) = some (.obj d)) (hv : dget d (str "app_elf") = some v) (h : NotStr v) :
    getJ zero n w json fn ls ud mf = some (.error .typeError) := by
  have : getProjDescJ json fn = .error .typeError := by
    unfold getProjDescJ
    unfold descPath at hd
    rw [hd]
    simp only []
    unfold appElfJ
    rw [hv]
    cases v with
    | str s => exact absurd rfl (h s)
    | _ => rfl
  unfold getJ loadJ
  rw [this]
  rfl

/-- **C105** (violated) a configuration that is no dictionary, when it is not told whether to use the debugging information: `AttributeError`. -/
theorem C105_config (zero : Str → Bool) (n : Nat) (w : World) (json : Str → Option JVal) (fn : Str) (ls : Bool)
    (mf : Option MapFile) (d : Option (Dict Str JVal)) (v : JVal) (hd : getProjDescJ json fn = .ok d) (hv : json (configPath fn) = some v) (h : NotDict v) :
    getJ zero n w json fn ls none mf = some (.error .attributeError) := by
  have h2 : wantDwarfJ zero json fn none = .error .attributeError := by
    unfold wantDwarfJ
    unfold configPath at hv
    simp only [hv]
    cases v with
    | null => exact absurd rfl h.1
    | obj d => exact absurd rfl (h.2 d)
    | _ => rfl
  unfold getJ loadJ
  rw [hd, h2]
  rfl

/-- **C105** which values count as false. -/
theorem C105_truth (zero : Str → Bool) (v : JVal) : v.truthy zero = false ↔ Falsy zero v := by
  constructor
  · intro h
    cases v with
    | null => exact .null
    | bool b => cases h; exact .false
    | int i => simp only [JVal.truthy, ne_eq, decide_not, Bool.not_eq_false', decide_eq_true_eq] at h; subst h; exact .int
    | float t => exact .float (by simpa [JVal.truthy] using h)
    | str s => simp only [JVal.truthy, Bool.not_eq_false', List.isEmpty_iff] at h; subst h; exact .str
    | arr s => simp only [JVal.truthy, Bool.not_eq_false', List.isEmpty_iff] at h; subst h; exact .arr
    | obj s => simp only [JVal.truthy, Bool.not_eq_false', List.isEmpty_iff] at h; subst h; exact .obj
  · intro h
    cases h with
    | float h => simp [JVal.truthy, h]
    | _ => rfl

/-- **C105** (violated) a target that is no string and not empty or zero: no memory map, although the link map file may tell the target. -/
theorem C105_target (zero : Str → Bool) (n : Nat) (w : World) (json : Str → Option JVal) (fn : Str) (ls : Bool) (ud : Option Bool)
    (mf : Option MapFile) (d : Dict Str JVal) (v : JVal) (hd : getProjDescJ json fn = .ok (some d)) (hv : dget d (str "target") = some v) (h : NotStr v)
    (hf : ¬ Falsy zero v) (m : MemMap) : getJ zero n w json fn ls ud mf ≠ some (.ok m) := by
  have ht : v.truthy zero = true := by
    cases ht : v.truthy zero with
    | true => rfl
    | false => exact absurd ((C105_truth zero v).mp ht) hf
  intro hm
  unfold getJ at hm
  split at hm
  · cases hm
  · rename_i l hl
    unfold loadJ at hl
    rw [hd] at hl
    simp only [bind, Except.bind] at hl
    split at hl
    · cases hl
    · have hdt : descTargetJ (some d) = .ok (some v) := by
        cases d with
        | nil => cases hv
        | cons p t =>
          unfold descTargetJ
          simp only [hv]
          rfl
      simp only [hdt] at hl
      split at hl
      · cases hl
      · split at hl
        · cases hl
        · split at hl
          · cases hl
          · split at hl
            · cases hl
            · split at hl
              · cases hl
              · rename_i r hr
                unfold targetJ pickTargetJ at hr
                simp only [if_pos ht] at hr
                cases v with
                | str s => exact absurd rfl (h s)
                | _ => cases hr

/-- **C105** an empty target counts as a missing one: the target of the link map file is used. -/
theorem C105_no_target (zero : Str → Bool) (w : World) (v : JVal) (fromMap : Str) (hf : Falsy zero v) :
    targetJ zero w (some v) fromMap = targetJ zero w none fromMap := by
  have h := (C105_truth zero v).mpr hf
  unfold targetJ pickTargetJ
  simp only [h, Bool.false_eq_true, if_false]

/-- **C105** the same for the files themselves: `worldOf` is exact for files of the expected types. -/
theorem C105_files (zero : Str → Bool) (n long : Nat) (fs : Files) (fn : Str) (ls : Bool) (ud : Option Bool) (mf : Option MapFile)
    (hd : TypedDesc (loadJson fs (descPath fn))) (hs : ud = none → TypedConfig (loadJson fs (configPath fn))) :
    getJ zero n (worldOf long fs) (loadJson fs) fn ls ud mf = getMap n (worldOf long fs) fn ls ud mf none :=
  C105_same zero n (worldOf long fs) (loadJson fs) fn ls ud mf hd hs

/-! ### Examples -/

/-- One description and no configuration. -/
def exJson (v : JVal) (p : Str) : Option JVal := if p = str "/b/project_description.json" then some v else none

def exDesc (extra : List (Str × JVal)) : JVal := .obj ([(str "app_elf", .str (str "x.elf")), (str "target", .str (str "espx"))] ++ extra)

/-- The hypotheses of `C105_same` and of `C105_keys` can be met; the components are not looked at, whatever they are. -/
example : TypedDesc (exJson (exDesc []) (descPath (str "/b/x.map"))) ∧ (getJ (fun _ => false) 3 exWorld (exJson (exDesc [])) (str "/b/x.map") false none none).isSome :=
  ⟨.inr ⟨_, _, rfl, rfl⟩, by decide +kernel⟩

example : SameKeys (neededKeys (some false)) (exJson (exDesc []) (descPath (str "/b/x.map")))
    (exJson (exDesc [(str "build_component_info", .int 5)]) (descPath (str "/b/x.map"))) :=
  .dict (by simp) (by
    intro k hk
    simp only [neededKeys, List.mem_cons, List.not_mem_nil, or_false] at hk
    rcases hk with rfl | rfl <;> rfl)

/-- **C105** (violated) witnesses: the same project without description, with a list, and with a number as name of the ELF file. -/
theorem C105_witness (zero : Str → Bool) :
    getMap 3 exWorld (str "/b/x.map") false none none none = some (.ok exResult) ∧
    getJ zero 3 exWorld (exJson .null) (str "/b/x.map") false none none = some (.ok exResult) ∧
    getJ zero 3 exWorld (exJson (.arr [])) (str "/b/x.map") false none none = some (.error .attributeError) ∧
    getJ zero 3 exWorld (exJson (.obj [(str "app_elf", .int 5)])) (str "/b/x.map") false none none = some (.error .typeError) := by
  have h0 : getMap 3 exWorld (str "/b/x.map") false none none none = some (.ok exResult) := by decide +kernel
  refine ⟨h0, ?_, ?_, ?_⟩
  · rw [C105_same zero 3 exWorld (exJson .null) _ _ _ _ (.inl (.inr rfl)) (fun _ => .inl (.inl rfl))]
    rw [← h0]
    decide +kernel
  · exact C105_not_dict zero _ _ _ _ _ _ _ (.arr []) rfl ⟨(by intro h; cases h), (by intro d h; cases h)⟩
  · exact C105_app_elf zero _ _ _ _ _ _ _ _ (.int 5) rfl rfl (by intro s h; cases h)

end EspSize
