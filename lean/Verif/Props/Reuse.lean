import Verif.Spec.Reuse
import Verif.Model.Reuse
import Verif.Model.Warnings
import Verif.Props.Lto
/-! # C95: a `MapFile` object used by several calls of `get` -/
namespace EspSize

/-- An input section that another expansion leaves alone. -/
def Settled (xs : List XSym) (first : Prop) (e : ISec) : Prop :=
  e.symbols = [] ∧ (e.archive ≠ str "(exe)" ∨ ∃ pre y post, xs = pre ++ y :: post ∧ (∀ z ∈ pre, z.addr < e.address) ∧
    e.address ≤ y.addr ∧ ¬ (y.addr = e.address ∧ e.size ≠ 0) ∧ e.address + e.size ≤ y.addr ∧ (e.size ≠ 0 ∨ first))

def AllSettled (xs : List XSym) (l : List ISec) : Prop := ∀ pre e post, l = pre ++ e :: post → Settled xs (pre = []) e

theorem allSettled_append {xs : List XSym} {l : List ISec} {e : ISec} (h : AllSettled xs l) (he : Settled xs (l = []) e) :
    AllSettled xs (l ++ [e]) := by
  intro pre x post hp
  rcases List.eq_nil_or_concat post with rfl | ⟨q, z, rfl⟩
  · obtain ⟨rfl, h2⟩ := List.append_inj' hp rfl
    obtain rfl : e = x := by simpa using h2
    exact he
  · rw [List.concat_eq_append, ← List.cons_append, ← List.append_assoc] at hp
    obtain ⟨h1, _⟩ := List.append_inj' hp rfl
    exact h pre x q h1

theorem settled_symSection {xs : List XSym} {y : XSym} {p : Prop} (h : y.archive ≠ str "(exe)") : Settled xs p (symSection y) :=
  ⟨rfl, .inl h⟩

theorem allSettled_setLastFill {xs : List XSym} {l : List ISec} {f : Int} (h : AllSettled xs l) : AllSettled xs (setLastFill l f) := by
  rcases List.eq_nil_or_concat l with rfl | ⟨m, x, rfl⟩
  · exact h
  · have e := setLastFill_append [] m x f
    simp only [List.nil_append] at e
    rw [List.concat_eq_append] at h ⊢
    rw [e]
    refine allSettled_append (fun pre y post hp => h pre y (post ++ [x]) (by rw [hp]; simp)) ?_
    exact h m x [] rfl

theorem expandInput_settled (xs : List XSym) (ok : XSymsOk xs) (harch : ∀ y ∈ xs, y.archive ≠ str "(exe)") (syms done : List XSym)
    (hxs : xs = done ++ syms) (i : ISec) (hsy : i.symbols = []) (hdone : ∀ z ∈ done, z.addr < i.address)
    (new : List ISec) (hnew : AllSettled xs new) : AllSettled xs (expandInput syms i new) := by
  induction syms generalizing done i new with
  | nil => exact hnew
  | cons y ys ih =>
    have hy : y ∈ xs := by rw [hxs]; simp
    have hk := ok.key y hy
    have hpos := ok.pos y hy
    have hxs' : xs = (done ++ [y]) ++ ys := by rw [hxs]; simp
    have grow : ∀ a : Int, i.address ≤ a → y.addr < a → ∀ z ∈ done ++ [y], z.addr < a := by
      intro a h1 h2 z hz
      rcases List.mem_append.mp hz with h | h
      · have := hdone z h; omega
      · rw [List.mem_singleton.mp h]; exact h2
    unfold expandInput
    by_cases h1 : y.addr < i.address
    · rw [if_pos h1]
      exact ih (done ++ [y]) hxs' i hsy (grow _ (Int.le_refl _) h1) new hnew
    · rw [if_neg h1]
      by_cases h2 : y.addr = i.address ∧ i.size ≠ 0
      · rw [if_pos h2]
        exact ih (done ++ [y]) hxs' { i with address := i.address + y.size, size := i.size - y.size } hsy
          (grow (i.address + y.size) (by omega) (by omega)) _ (allSettled_append hnew (settled_symSection (harch y hy)))
      · rw [if_neg h2]
        by_cases h3 : y.addr < i.address + i.size
        · rw [if_pos h3]
          simp only []
          refine ih (done ++ [y]) hxs'
            { i with address := i.address + (y.value - i.address) + y.size, size := i.size - (y.value - i.address) - y.size } hsy
            (grow (i.address + (y.value - i.address) + y.size) (by omega) (by omega)) _ ?_
          have hg : i.address < y.value := by omega
          have e : new ++ [{ i with size := y.value - i.address, archive := str "(exe)", fill := 0 }, symSection y] =
              (new ++ [{ i with size := y.value - i.address, archive := str "(exe)", fill := 0 }]) ++ [symSection y] := by simp
          rw [e]
          refine allSettled_append (allSettled_append hnew ⟨hsy, .inr ⟨done, y, ys, hxs, hdone, ?_, ?_, ?_, ?_⟩⟩)
            (settled_symSection (harch y hy))
          all_goals simp only []; omega
        · rw [if_neg h3]
          by_cases h4 : i.size ≠ 0 ∨ new = []
          · rw [if_pos h4]
            refine allSettled_append hnew ⟨hsy, .inr ⟨done, y, ys, hxs, hdone, by omega, h2, by omega, h4⟩⟩
          · rw [if_neg h4]
            exact allSettled_setLastFill hnew

theorem expandInput_id {xs : List XSym} {e : ISec} {new : List ISec} (h : Settled xs (new = []) e) (he : e.archive = str "(exe)") :
    expandInput xs e new = new ++ [e] := by
  obtain ⟨_, h | ⟨pre, y, post, rfl, h1, h2, h3, h4, h5⟩⟩ := h
  · exact absurd he h
  · induction pre with
    | nil =>
      rw [List.nil_append]
      unfold expandInput
      rw [if_neg (by omega), if_neg h3, if_neg (by omega), if_pos h5]
    | cons z pre ih =>
      rw [List.cons_append]
      unfold expandInput
      rw [if_pos (h1 z (by simp))]
      exact ih fun w hw => h1 w (by simp [hw])

/-- The step of the loop over the input sections. -/
def expandStep (xs : List XSym) (new : List ISec) (i : ISec) : List ISec :=
  if i.archive ≠ str "(exe)" then new ++ [i] else expandInput xs i new

theorem expandSection_eq (xs : List XSym) (o : OSec) : expandSection xs o = { o with inputs := o.inputs.foldl (expandStep xs) [] } := rfl

theorem foldl_settled {xs : List XSym} (ok : XSymsOk xs) (harch : ∀ y ∈ xs, y.archive ≠ str "(exe)") (l new : List ISec)
    (hl : ∀ i ∈ l, i.symbols = []) (hnew : AllSettled xs new) : AllSettled xs (l.foldl (expandStep xs) new) := by
  induction l generalizing new with
  | nil => exact hnew
  | cons i l ih =>
    rw [List.foldl_cons]
    refine ih _ (fun x hx => hl x (by simp [hx])) ?_
    unfold expandStep
    split
    · rename_i h
      exact allSettled_append hnew ⟨hl i (by simp), .inl h⟩
    · exact expandInput_settled xs ok harch xs [] rfl i (hl i (by simp)) (by simp) new hnew

theorem foldl_id {xs : List XSym} (l new : List ISec) (h : AllSettled xs (new ++ l)) : l.foldl (expandStep xs) new = new ++ l := by
  induction l generalizing new with
  | nil => simp
  | cons i l ih =>
    have hi := h new i l rfl
    have hs : expandStep xs new i = new ++ [i] := by
      unfold expandStep
      split
      · rfl
      · rename_i he
        exact expandInput_id hi (by simpa using he)
    rw [List.foldl_cons, hs, ih _ (by simpa using h)]
    simp

theorem allSettled_filter {xs : List XSym} {l : List ISec} (h : AllSettled xs l) : AllSettled xs (l.filter (·.size ≠ 0)) := by
  intro pre e post hp
  have hm : e ∈ l.filter (·.size ≠ 0) := by rw [hp]; simp
  obtain ⟨hm, hz⟩ := List.mem_filter.mp hm
  obtain ⟨a, b, rfl⟩ := List.append_of_mem hm
  obtain ⟨h1, h2 | ⟨p, y, q, g1, g2, g3, g4, g5, _⟩⟩ := h a e b rfl
  · exact ⟨h1, .inl h2⟩
  · exact ⟨h1, .inr ⟨p, y, q, g1, g2, g3, g4, g5, .inl (by simpa using hz)⟩⟩

theorem allSettled_symbols {xs : List XSym} {l : List ISec} (h : AllSettled xs l) : ∀ i ∈ l, i.symbols = [] := by
  intro i hi
  obtain ⟨a, b, rfl⟩ := List.append_of_mem hi
  exact (h a i b rfl).1

/-- An output section in the form another call leaves alone. -/
def SecSettled (xs : List XSym) (o : OSec) : Prop := AllSettled xs o.inputs

theorem expandSection_id {xs : List XSym} {o : OSec} (h : SecSettled xs o) : expandSection xs o = o := by
  rw [expandSection_eq, foldl_id _ [] (by rw [List.nil_append]; exact h)]
  rfl

theorem dropEmpty_settled {xs : List XSym} {o : OSec} (hdrs : Option (Dict Str Shdr)) (h : SecSettled xs o) : SecSettled xs (dropEmpty hdrs o) := by
  unfold dropEmpty
  split
  · exact allSettled_filter h
  · exact h

theorem keepSection_inputs (hdrs : Option (Dict Str Shdr)) (o : OSec) (l : List ISec) :
    keepSection hdrs { o with inputs := l } = keepSection hdrs o := rfl

theorem filter_dropEmpty (hdrs : Option (Dict Str Shdr)) (secs : List OSec) :
    filterMapSections (secs.map (dropEmpty hdrs)) hdrs = filterMapSections secs hdrs := by
  unfold filterMapSections
  have hk : ∀ s, keepSection hdrs (dropEmpty hdrs s) = keepSection hdrs s := by
    intro s
    unfold dropEmpty
    split
    · exact keepSection_inputs ..
    · rfl
  rw [List.filter_map, List.map_map]
  have hk' : (keepSection hdrs ∘ dropEmpty hdrs) = keepSection hdrs := funext hk
  rw [hk']
  apply List.map_congr_left
  intro s hs
  obtain ⟨_, hs⟩ := List.mem_filter.mp hs
  simp only [Function.comp_apply]
  unfold dropEmpty
  rw [if_pos hs]
  simp

theorem toOSec_symbols (p : POut) : ∀ i ∈ (toOSec p).inputs, i.symbols = [] := by
  intro i hi
  unfold toOSec at hi
  obtain ⟨x, _, rfl⟩ := List.mem_map.mp hi
  rfl

/-- Reading the sections back. -/
theorem usedMap_sections (mf : MapFile) (secs : List OSec) (hl : secs.length = mf.sections.length)
    (h : ∀ k (h1 : k < mf.sections.length) (h2 : k < secs.length), secs[k].name = (toOSec mf.sections[k]).name ∧
      secs[k].address = (toOSec mf.sections[k]).address ∧ secs[k].size = (toOSec mf.sections[k]).size)
    (hs : ∀ s ∈ secs, ∀ i ∈ s.inputs, i.symbols = []) : (usedMap mf secs).sections.map toOSec = secs := by
  unfold usedMap
  apply List.ext_getElem
  · simp [hl]
  · intro k h1 h2
    have hk : k < mf.sections.length := by omega
    obtain ⟨a, b, c⟩ := h k hk h2
    simp only [List.getElem_map, List.getElem_zipWith]
    have hin : (secs[k].inputs.map ofISec).map (fun i => ({ name := i.name, address := i.address.getD 0, size := i.size.getD 0, fill := i.fill, archive := i.archive, objectFile := i.objectFile } : ISec)) = secs[k].inputs := by
      rw [List.map_map]
      conv => rhs; rw [← List.map_id secs[k].inputs]
      apply List.map_congr_left
      intro i hi
      have := hs _ (List.getElem_mem h2) i hi
      cases i
      simp only at this
      subst this
      rfl
    unfold toOSec at a b c ⊢
    simp only at a b c ⊢
    rw [hin, ← a, ← b, ← c]

theorem validateInputs_addressed {start : Option Int} {l : List PSec} {off : Int} (hs : start ≠ none)
    (h : ∀ i ∈ l, i.address ≠ none ∧ i.size ≠ none) : validateInputs start l off = .ok () ∨ validateInputs start l off = .error .mapFile := by
  induction l generalizing off with
  | nil => exact .inl rfl
  | cons i l ih =>
    have hi := h i (by simp)
    have ih := fun off => ih (off := off) fun x hx => h x (by simp [hx])
    unfold validateInputs
    split
    · exact ih off
    · obtain ⟨s, hs⟩ := Option.ne_none_iff_exists'.mp hs
      obtain ⟨a, ha⟩ := Option.ne_none_iff_exists'.mp hi.1
      obtain ⟨z, hz⟩ := Option.ne_none_iff_exists'.mp hi.2
      rw [hs] at ih ⊢
      rw [ha, hz]
      simp only []
      split
      · exact .inr rfl
      · exact ih _

theorem warnInvalid_addressed {mf : MapFile} (h : Addressed mf) : warnInvalid mf = .ok () := by
  have : validateSections mf.sections = .ok () ∨ validateSections mf.sections = .error .mapFile := by
    unfold Addressed at h
    generalize mf.sections = l at h
    induction l with
    | nil => exact .inl rfl
    | cons o l ih =>
      have ih := ih fun x hx => h x (by simp [hx])
      have ho := h o (by simp)
      unfold validateSections
      split
      · exact ih
      · rename_i i t e
        rw [e] at ho
        rcases validateInputs_addressed (start := i.address) (l := o.inputs) (off := 0) (ho i (by simp)).1 (e ▸ ho) with h | h
        · rw [h]; exact ih
        · rw [h]; exact .inr rfl
  unfold warnInvalid
  rcases this with h | h <;> rw [h]

theorem addressed_usedMap {mf : MapFile} {secs : List OSec} : Addressed (usedMap mf secs) := by
  intro o ho i hi
  unfold usedMap at ho
  obtain ⟨k, hk, rfl⟩ := List.getElem_of_mem ho
  rw [List.getElem_zipWith] at hi
  obtain ⟨x, _, rfl⟩ := List.mem_map.mp hi
  exact ⟨by simp [ofISec], by simp [ofISec]⟩

theorem key_ok {α : Type} {o : Option α} {x : α} (h : getKey o = .ok x) : o = some x := by
  cases o <;> cases h
  rfl

theorem getProjDesc_json {w : World} {fn : Str} {d : ProjDesc} (h : getProjDesc w fn = some d) : ∃ p, w.json p = some d := by
  unfold getProjDesc at h
  split at h
  · cases h
  · rename_i d' e
    split at h
    · cases h; exact ⟨_, e⟩
    · cases h

theorem getElf_file {w : World} {fn : Str} {d : Option ProjDesc} {e : ElfData} (h : getElf w fn d = .ok (some e)) :
    ∃ p, w.elf p = some (.ok e) := by
  unfold getElf at h
  simp only [] at h
  split at h
  · cases h
  · obtain ⟨app, _, h⟩ := bind_ok h
    split at h
    · cases h
    · rename_i r hr
      exact ⟨_, by rw [hr, loadElf_some h]⟩

theorem expandSymbols_archive {build : Str} {comps : List Comp} {syms : Dict Int CuSym} {xs : List XSym}
    (h : expandSymbols build comps syms = .ok xs) (hc : ∀ c ∈ comps, ¬ RelTo build c.file (str "(exe)")) :
    ∀ y ∈ xs, y.archive ≠ str "(exe)" := by
  unfold expandSymbols at h
  obtain ⟨cs, hcs, h⟩ := bind_ok h
  cases h
  intro y hy
  obtain ⟨p, _, he⟩ := List.mem_filterMap.mp ((sortedBy_stable (fun y : XSym => y.addr) false _).perm.mem_iff.mp hy)
  split at he
  · cases he
  · split at he
    · cases he
    · obtain ⟨c, hf, rfl⟩ := Option.map_eq_some_iff.mp he
      unfold findComponent at hf
      have hm := List.mem_of_find?_eq_some hf
      unfold sortedComponents at hcs
      obtain ⟨L, hL, e⟩ := bind_ok hcs
      cases e
      obtain ⟨k, hk, e⟩ := (mapM_mem hL).1 c ((sortedBy_stable _ true L).perm.mem_iff.mp hm)
      obtain ⟨rel, hr, e⟩ := bind_ok e
      cases e
      intro hx
      simp only [] at hx
      exact hc k (List.mem_filter.mp hk).1 (hx ▸ relativeTo_ok.mp hr)

/-- What the expansion by DWARF information does: nothing, or one step for each section. -/
theorem dwarf_cases {w : World} (hw : SaneFiles w) {fn : Str} {b : Bool} {elf : Option ElfData}
    (helf : getElf w fn (getProjDesc w fn) = .ok elf) {s0 s1 : List OSec} (h : dwarfSections b (getProjDesc w fn) elf s0 = .ok s1) :
    (s1 = s0 ∧ ∀ s, dwarfSections b (getProjDesc w fn) elf s = .ok s) ∨
    ∃ xs, XSymsOk xs ∧ (∀ y ∈ xs, y.archive ≠ str "(exe)") ∧ s1 = s0.map (expandSection xs) ∧
      ∀ s, dwarfSections b (getProjDesc w fn) elf s = .ok (s.map (expandSection xs)) := by
  cases b with
  | false => cases h; exact .inl ⟨rfl, fun _ => rfl⟩
  | true =>
    cases hd : getProjDesc w fn with
    | none => rw [hd] at h; cases h; exact .inl ⟨rfl, fun _ => rfl⟩
    | some d =>
      cases elf with
      | none => rw [hd] at h; cases h; exact .inl ⟨rfl, fun _ => rfl⟩
      | some e =>
        right
        rw [hd] at h
        have h' : (do
            let cu ← e.cuSyms
            let comps ← getKey d.comps
            let build ← getKey d.build
            expandInputSections (some (build, comps)) (some cu) s0) = Except.ok s1 := h
        obtain ⟨cu, h1, h'⟩ := bind_ok h'
        obtain ⟨comps, h2, h'⟩ := bind_ok h'
        obtain ⟨build, h3, h'⟩ := bind_ok h'
        have h'' : (do let xs ← expandSymbols build comps cu; .ok (s0.map (expandSection xs))) = Except.ok s1 := h'
        obtain ⟨xs, hx, h''⟩ := bind_ok h''
        cases h''
        obtain ⟨p, hp⟩ := getElf_file helf
        obtain ⟨q, hq⟩ := getProjDesc_json hd
        have hs := hw.elf p e cu hp h1
        refine ⟨xs, expandSymbols_ok hx (fun p hp => (hs p hp).1) (fun p hp => (hs p hp).2),
          expandSymbols_archive hx (hw.desc q d build comps hq (key_ok h3) (key_ok h2)), rfl, ?_⟩
        intro s
        show (do
            let cu ← e.cuSyms
            let comps ← getKey d.comps
            let build ← getKey d.build
            let xs ← expandSymbols build comps cu
            .ok (s.map (expandSection xs))) = _
        rw [h1, h2, h3]
        show (do let xs ← expandSymbols build comps cu; .ok (s.map (expandSection xs))) = _
        rw [hx]
        rfl

/-- The sections as they are after the expansion: `secs` comes from `secs0`, and another expansion does not change it. -/
structure Stable (ex : List OSec → Except Err (List OSec)) (secs0 secs : List OSec) : Prop where
  length : secs.length = secs0.length
  same : ∀ k (h1 : k < secs0.length) (h2 : k < secs.length), secs[k].name = secs0[k].name ∧
    secs[k].address = secs0[k].address ∧ secs[k].size = secs0[k].size
  symbols : ∀ s ∈ secs, ∀ i ∈ s.inputs, i.symbols = []
  again : ex secs = .ok secs

theorem dropEmpty_fields (hdrs : Option (Dict Str Shdr)) (o : OSec) :
    (dropEmpty hdrs o).name = o.name ∧ (dropEmpty hdrs o).address = o.address ∧ (dropEmpty hdrs o).size = o.size := by
  unfold dropEmpty
  split <;> exact ⟨rfl, rfl, rfl⟩

theorem dropEmpty_symbols (hdrs : Option (Dict Str Shdr)) {o : OSec} (h : ∀ i ∈ o.inputs, i.symbols = []) :
    ∀ i ∈ (dropEmpty hdrs o).inputs, i.symbols = [] := by
  intro i hi
  unfold dropEmpty at hi
  split at hi
  · exact h i (List.mem_filter.mp hi).1
  · exact h i hi

/-- The expansion by DWARF information, done again. -/
theorem dwarf_again {w : World} (hw : SaneFiles w) {fn : Str} {b : Bool} {elf : Option ElfData} {secs0 secs : List OSec}
    (hsy : ∀ s ∈ secs0, ∀ i ∈ s.inputs, i.symbols = []) (helf : getElf w fn (getProjDesc w fn) = .ok elf)
    (h : dwarfSections b (getProjDesc w fn) elf secs0 = .ok secs) :
    Stable (dwarfSections b (getProjDesc w fn) elf) secs0 secs ∧
    ∀ hdrs, Stable (dwarfSections b (getProjDesc w fn) elf) secs0 (secs.map (dropEmpty hdrs)) := by
  have drop : ∀ (s1 : List OSec), (∀ hdrs, dwarfSections b (getProjDesc w fn) elf (s1.map (dropEmpty hdrs)) = .ok (s1.map (dropEmpty hdrs))) →
      Stable (dwarfSections b (getProjDesc w fn) elf) secs0 s1 →
      ∀ hdrs, Stable (dwarfSections b (getProjDesc w fn) elf) secs0 (s1.map (dropEmpty hdrs)) := by
    intro s1 ha hs hdrs
    refine ⟨by rw [List.length_map]; exact hs.length, ?_, ?_, ha hdrs⟩
    · intro k h1 h2
      rw [List.length_map] at h2
      obtain ⟨a, b, c⟩ := hs.same k h1 h2
      obtain ⟨a', b', c'⟩ := dropEmpty_fields hdrs s1[k]
      rw [List.getElem_map, a', b', c']
      exact ⟨a, b, c⟩
    · intro s hs'
      obtain ⟨o, ho, rfl⟩ := List.mem_map.mp hs'
      exact dropEmpty_symbols hdrs (hs.symbols o ho)
  rcases dwarf_cases hw helf h with ⟨rfl, hid⟩ | ⟨xs, ok, harch, rfl, hex⟩
  · have hs : Stable (dwarfSections b (getProjDesc w fn) elf) secs secs := ⟨rfl, fun _ _ _ => ⟨rfl, rfl, rfl⟩, hsy, hid _⟩
    exact ⟨hs, drop secs (fun _ => hid _) hs⟩
  · have hset : ∀ s ∈ secs0.map (expandSection xs), SecSettled xs s := by
      intro s hs
      obtain ⟨o, ho, rfl⟩ := List.mem_map.mp hs
      rw [expandSection_eq]
      exact foldl_settled ok harch o.inputs [] (hsy o ho) (by intro pre e post hp; simp at hp)
    have fix : ∀ l : List OSec, (∀ s ∈ l, SecSettled xs s) → dwarfSections b (getProjDesc w fn) elf l = .ok l := by
      intro l hl
      rw [hex]
      congr 1
      conv => rhs; rw [← List.map_id l]
      exact List.map_congr_left fun s hs => expandSection_id (hl s hs)
    have hs : Stable (dwarfSections b (getProjDesc w fn) elf) secs0 (secs0.map (expandSection xs)) := by
      refine ⟨by simp, ?_, fun s hs => allSettled_symbols (hset s hs), fix _ hset⟩
      intro k h1 h2
      rw [List.getElem_map]
      exact ⟨rfl, rfl, rfl⟩
    refine ⟨hs, drop _ (fun hdrs => fix _ ?_) hs⟩
    intro s hs
    obtain ⟨o, ho, rfl⟩ := List.mem_map.mp hs
    exact dropEmpty_settled hdrs (hset o ho)

theorem usedMap_stable {ex : List OSec → Except Err (List OSec)} {mf : MapFile} {secs : List OSec}
    (h : Stable ex (mf.sections.map toOSec) secs) : (usedMap mf secs).sections.map toOSec = secs := by
  refine usedMap_sections mf secs (by rw [h.length, List.length_map]) ?_ h.symbols
  intro k h1 h2
  have := h.same k (by rw [List.length_map]; exact h1) h2
  rw [List.getElem_map] at this
  exact this

/-- `load` after the expansion. -/
theorem load_expanded {w : World} {fn : Str} {ud : Option Bool} {mf : MapFile} {elf : Option ElfData} {secs : List OSec}
    (h : expandedOf w fn ud mf = .ok (elf, secs)) :
    ∃ t, descTarget (getProjDesc w fn) = .ok t ∧ getElf w fn (getProjDesc w fn) = .ok elf ∧
      dwarfSections (wantDwarf w fn ud) (getProjDesc w fn) elf (mf.sections.map toOSec) = .ok secs ∧
      load w fn ud (some mf) = (do
        let target ← pickTarget t mf.target
        let types ← getMemoryTypes w target
        .ok { target := target, types := types, elf := elf, regions := mf.regions, sections := secs }) := by
  unfold expandedOf at h
  obtain ⟨t, h1, h⟩ := bind_ok h
  obtain ⟨⟨⟩, h2, h⟩ := bind_ok h
  obtain ⟨e, h3, h⟩ := bind_ok h
  obtain ⟨s, h4, h⟩ := bind_ok h
  cases h
  refine ⟨t, h1, h3, h4, ?_⟩
  unfold load
  simp only [h1, useMap, h2, h3, h4, bind, Except.bind]

/-- A call with the sections left by a former one. -/
theorem load_used {w : World} {fn : Str} {ud : Option Bool} {mf : MapFile} {elf : Option ElfData} {secs S : List OSec}
    (h : expandedOf w fn ud mf = .ok (elf, secs))
    (hS : Stable (dwarfSections (wantDwarf w fn ud) (getProjDesc w fn) elf) (mf.sections.map toOSec) S) :
    load w fn ud (some (usedMap mf S)) = (load w fn ud (some mf)).map fun l => { l with sections := S } := by
  obtain ⟨t, h1, h3, h4, hl⟩ := load_expanded h
  have hx : expandedOf w fn ud (usedMap mf S) = .ok (elf, S) := by
    unfold expandedOf
    simp only [h1, warnInvalid_addressed addressed_usedMap, h3, usedMap_stable hS, hS.again, bind, Except.bind]
  obtain ⟨t', h1', _, _, hl'⟩ := load_expanded hx
  rw [h1] at h1'
  cases h1'
  rw [hl, hl']
  show (do
    let target ← pickTarget t mf.target
    let types ← getMemoryTypes w target
    Except.ok ({ target := target, types := types, elf := elf, regions := mf.regions, sections := S } : GetIn)) = _
  cases pickTarget t mf.target with
  | error x => rfl
  | ok target =>
    simp only [bind, Except.bind]
    cases getMemoryTypes w target with
    | error x => rfl
    | ok types => rfl

theorem getMap_afterGet {w : World} (hw : SaneFiles w) (n : Nat) (fn : Str) (ud : Option Bool) (mf : MapFile) (ls : Bool)
    (e : Option ElfData) : getMap n w fn ls ud (some (afterGet n w fn ud mf)) e = getMap n w fn ls ud (some mf) e := by
  unfold afterGet
  split
  · rfl
  · rename_i elf secs hx
    obtain ⟨t, h1, h3, h4, hl⟩ := load_expanded hx
    obtain ⟨hs, hd⟩ := dwarf_again hw (fun s hs => by obtain ⟨p, _, rfl⟩ := List.mem_map.mp hs; exact toOSec_symbols p) h3 h4
    have hself : ∀ l, load w fn ud (some mf) = .ok l → l.sections = secs ∧ l.elf = elf := by
      intro l h
      rw [hl] at h
      obtain ⟨_, _, h⟩ := bind_ok h
      obtain ⟨_, _, h⟩ := bind_ok h
      cases h
      exact ⟨rfl, rfl⟩
    split
    · rename_i x hx'
      unfold getMap
      rw [load_used hx hs, hx']
      rfl
    · rename_i l hx'
      obtain ⟨e1, e2⟩ := hself l hx'
      split
      · unfold getMap
        rw [load_used hx hs, hx']
        simp only [Except.map]
        rw [← e1]
      · unfold getMap
        rw [load_used hx (hd _), hx']
        simp only [Except.map]
        unfold build
        simp only []
        rw [e2, e1, filter_dropEmpty]

theorem addressed_afterGet {n : Nat} {w : World} {fn : Str} {ud : Option Bool} {mf : MapFile} (h : Addressed mf) :
    Addressed (afterGet n w fn ud mf) := by
  unfold afterGet
  split
  · exact h
  · split
    · exact addressed_usedMap
    · split
      · exact addressed_usedMap
      · exact addressed_usedMap

/-- C95: after any number of calls, a call with the same object gives what the first one would have given. -/
theorem C95_again_partial {w : World} (hw : SaneFiles w) (n : Nat) (fn : Str) (ud : Option Bool) (mf : MapFile) (hm : Addressed mf)
    (k : Nat) : Addressed (afterGets n w fn ud mf k) ∧
      ∀ ls e, getMap n w fn ls ud (some (afterGets n w fn ud mf k)) e = getMap n w fn ls ud (some mf) e := by
  induction k with
  | zero => exact ⟨hm, fun _ _ => rfl⟩
  | succ k ih =>
    refine ⟨addressed_afterGet ih.1, fun ls e => ?_⟩
    rw [← ih.2 ls e]
    exact getMap_afterGet hw n fn ud _ ls e

/-! ### Examples -/

/-- The object for a link map file with an object file made by link-time optimisation. -/
def exReuse : MapFile :=
  match parseMap exLtoLines with
  | .ok m => m
  | .error _ => { regions := [], target := [], sections := [], crt := none }

def exReuseWorld : World := exLtoWorld [exLtoSym "f" 0x100 8, exLtoSym "g" 0x110 8]

theorem exReuse_addressed : Addressed exReuse := by unfold Addressed; decide +kernel

theorem exReuse_sane : SaneFiles exReuseWorld := by
  constructor
  · intro fn e cu h1 h2
    have h1' : (if fn = str "/b/x.elf" then some (Except.ok { shdrs := [{ name := str ".iram0.text", type := 1, size := 32, flags := 2 }], syms := [], cuSyms := .ok [exLtoSym "f" 0x100 8, exLtoSym "g" 0x110 8] }) else none) = some (Except.ok (ε := Err) e) := h1
    split at h1'
    · cases h1'
      cases h2
      decide
    · cases h1'
  · intro fn d build comps h1 h2 h3
    have h1' : (if fn = str "/b/project_description.json" then
      some (⟨some (str "x.elf"), some (str "espx"), some (str "/b"), some [⟨str "/c/m", str "/b/m/libm.a"⟩], true⟩ : ProjDesc) else none) = some d := h1
    split at h1'
    · cases h1'
      cases h2
      cases h3
      intro c hc
      rw [List.mem_singleton.mp hc]
      rw [← relativeTo_ok]
      decide +kernel
    · cases h1'

/-- The first call changes the object; the result is that of a call with a new one. -/
example : afterGet 3 exReuseWorld (str "/b/x.map") (some true) exReuse ≠ exReuse ∧
    getMap 3 exReuseWorld (str "/b/x.map") false (some true) (some (afterGets 3 exReuseWorld (str "/b/x.map") (some true) exReuse 5)) none =
      getMap 3 exReuseWorld (str "/b/x.map") false (some true) (some exReuse) none :=
  ⟨by decide +kernel, (C95_again_partial exReuse_sane 3 (str "/b/x.map") (some true) exReuse exReuse_addressed 5).2 false none⟩

/-- **C95** fails if the calls differ in `use_dwarf`: a call without debug information gives the result of the former one
with it. -/
theorem C95_dwarf_kept :
    getMap 3 exReuseWorld (str "/b/x.map") false (some false) (some (afterGet 3 exReuseWorld (str "/b/x.map") (some true) exReuse)) none =
      getMap 3 exReuseWorld (str "/b/x.map") false (some true) (some exReuse) none ∧
    getMap 3 exReuseWorld (str "/b/x.map") false (some false) (some (afterGet 3 exReuseWorld (str "/b/x.map") (some true) exReuse)) none ≠
      getMap 3 exReuseWorld (str "/b/x.map") false (some false) (some exReuse) none := by decide +kernel

/-- Lines of a link map file whose first input section has no size and another address. -/
def exReuseLines : List Str :=
  [str "Memory Configuration", str "Name Origin Length", str "iram0_0_seg 0x100 0x100 xr", str "Linker script and memory map",
   str " IDF_TARGET_ESPX = 0x0", str ".iram0.text     0x100     0x20", str " .text   0x100   0x0   lib/liba.a(a.o)",
   str " .text.b   0x108   0x18   lib/libb.a(b.o)", []]

def exReuseGap : MapFile :=
  match parseMap exReuseLines with
  | .ok m => m
  | .error _ => { regions := [], target := [], sections := [], crt := none }

/-- The warning about the addresses of the input sections is not repeated: the section without size it starts from is gone. -/
theorem C95_warning_lost :
    (validMsgs exReuseGap).length = 1 ∧ validMsgs (afterGet 3 exWorld (str "/b/x.map") none exReuseGap) = [] := by decide +kernel

end EspSize
