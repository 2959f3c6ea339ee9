import Verif.Props.WarnText
import Verif.Props.SymOrigin
/-! # C116: the names in the warnings of a call -/
namespace EspSize

/-- The names in the message are names in the map file, and the memory type is one of the target. -/
def Msg.about (l : GetIn) : Msg → Prop
  | .targets _ _ => False
  | .region name => ∃ r ∈ l.regions, r.name = name
  | .exceeds s r => (∃ o ∈ l.sections, o.name = s.name) ∧ ∃ q ∈ l.regions, q.name = r.name
  | .overflow s r => (∃ o ∈ l.sections, o.name = s.name) ∧ (∃ q ∈ l.regions, q.name = r.name) ∧ ∃ k, (k, r.type) ∈ l.types
  | .nowhere s => ∃ o ∈ l.sections, o.name = s.name
  | _ => True

def NamesIn (N : Str → Prop) (l : List SReg) : Prop := ∀ p ∈ l, N p.name

theorem NamesIn.snoc {N : Str → Prop} {l : List SReg} {p : SReg} (h : NamesIn N l) (hp : N p.name) : NamesIn N (l ++ [p]) := by
  intro q hq
  rcases List.mem_append.mp hq with hq | hq
  · exact h q hq
  · rw [List.mem_singleton.mp hq]; exact hp

theorem splitLoop_names {N : Str → Prop} {types : Dict Str MemTypeInfo} {r : Region} {n : Nat} {s : SplitSt} {out : List SReg} {b : Bool}
    (hr : N r.name) (hs : NamesIn N s.acc) (h : splitLoop types r n s = some (out, b)) : NamesIn N out := by
  induction n generalizing s with
  | zero => cases h
  | succ n ih =>
    unfold splitLoop at h
    unfold splitBody at h
    cases hf : findType types s.origin with
    | some x =>
      obtain ⟨t, base⟩ := x
      rw [hf] at h
      simp only [] at h
      have hsn : NamesIn N (s.acc ++ [{ name := r.name, origin := s.origin, length := min s.length (t.length - (s.origin - base)), attrs := r.attrs, type := t }]) :=
        hs.snoc hr
      split at h
      · rename_i s' he
        split at he
        · cases he
        · cases he; exact ih hsn h
      · rename_i acc he
        split at he
        · cases he; cases h; exact hsn
        · cases he
      · rename_i acc he
        split at he <;> cases he
    | none =>
      rw [hf] at h
      simp only [] at h
      cases hp : s.acc.find? (fun p => s.origin + s.length = p.origin + p.length) with
      | none =>
        rw [hp] at h
        cases h
        exact hs
      | some p =>
        rw [hp] at h
        simp only [] at h
        have hsn : NamesIn N (s.acc ++ [{ name := r.name, origin := s.origin, length := s.length, attrs := r.attrs, type := p.type }]) := hs.snoc hr
        split at h
        · rename_i s' he
          split at he
          · cases he
          · cases he; exact ih hsn h
        · rename_i acc he
          split at he
          · cases he; cases h; exact hsn
          · cases he
        · rename_i acc he
          split at he <;> cases he

/-- Pieces and warnings have names of regions. -/
theorem splitRegions_names {N : Str → Prop} {types : Dict Str MemTypeInfo} {n : Nat} {rs : List Region} {acc out : List SReg} {ws ws' : List Str}
    (hN : ∀ r ∈ rs, N r.name) (hs : NamesIn N acc) (hw : ∀ x ∈ ws, N x) (h : splitMemoryRegions n types rs acc ws = some (out, ws')) :
    NamesIn N out ∧ ∀ x ∈ ws', N x := by
  induction rs generalizing acc ws with
  | nil => cases h; exact ⟨hs, hw⟩
  | cons r rs ih =>
    unfold splitMemoryRegions at h
    split at h
    · cases h
    · rename_i acc' w hl
      refine ih (fun q hq => hN q (by simp [hq])) (splitLoop_names (hN r (by simp)) hs hl) ?_ h
      intro x hx
      split at hx
      · rcases List.mem_append.mp hx with hx | hx
        · exact hw x hx
        · rw [List.mem_singleton.mp hx]; exact hN r (by simp)
      · exact hw x hx

theorem splitStack_names (regions : List SReg) (n : Nat) : ∀ s : OSec, s.size.toNat ≤ n → ∀ p ∈ splitStack regions [s], p.name = s.name := by
  have base : ∀ s : OSec, splitSection regions s = none → ∀ p ∈ splitStack regions [s], p.name = s.name := by
    intro s h p hp
    rw [splitStack_none h, splitStack] at hp
    simp at hp
    rw [hp]
  induction n with
  | zero =>
    intro s hn p hp
    cases h : splitSection regions s with
    | none => exact base s h p hp
    | some ab => have := splitSection_decreases (a := ab.1) (b := ab.2) h; omega
  | succ n ih =>
    intro s hn p hp
    cases h : splitSection regions s with
    | none => exact base s h p hp
    | some ab =>
      obtain ⟨a, b⟩ := ab
      have hdec := splitSection_decreases h
      rw [splitStack_some h] at hp
      obtain ⟨r, _, cut, hc, hin, hlt, rfl, rfl⟩ := splitSection_some h
      rcases List.mem_cons.mp hp with rfl | hp
      · rfl
      · have hdec' : (s.size - (cut - s.address)).toNat < s.size.toNat := hdec
        have := ih { s with address := cut, size := s.size - (cut - s.address), inputs := (splitInputs cut s.inputs).2 }
          (show (s.size - (cut - s.address)).toNat ≤ n by omega) p hp
        exact this

/-- A part has the name of its section. -/
theorem partsOf_names {n : Nat} {ls : Bool} {l : GetIn} {regs : List SReg} {parts : List MSec} (h : PartsOf n ls l regs parts) :
    ∀ p ∈ parts, ∃ o ∈ l.sections, o.name = p.name := by
  obtain ⟨osecs, ho, rfl⟩ := h.sections
  intro p hp
  obtain ⟨q, hq, rfl⟩ := List.mem_map.mp hp
  unfold splitMapSections at hq
  rw [splitStack_flatMap] at hq
  obtain ⟨s, hs, hq⟩ := List.mem_flatMap.mp hq
  have hn := splitStack_names regs _ s (Nat.le_refl _) q hq
  obtain ⟨o, hk, hso⟩ := (symbolStep_same ho).mem_right (show s ∈ osecs by simpa using hs)
  unfold filterMapSections at hk
  obtain ⟨o', ho', rfl⟩ := List.mem_map.mp hk
  refine ⟨o', (List.mem_filter.mp ho').1, ?_⟩
  show o'.name = q.name
  rw [hn, hso.1]

/-- **C116** the warnings of a call that returns speak of regions and output sections of the map file and of memory types of the target. -/
theorem C116_names (n : Nat) (w : World) (fn : Str) (ls : Bool) (ud : Option Bool) (mf : Option MapFile) (e : Option ElfData) (m : MemMap)
    (h : getMap n w fn ls ud mf e = some (.ok m)) :
    ∃ l, load w fn ud mf = .ok l ∧ ∀ x ∈ getMsgs n w fn ls ud mf, x.about l := by
  obtain ⟨l, regs, parts, goes, hld, hp, _⟩ := C58_accounted n w fn ls ud mf e m h
  obtain ⟨f, elf, ws, _, _, hws, hm⟩ := getMsgs_ok hld hp
  have hN := splitRegions_names (N := fun x => ∃ r ∈ l.regions, r.name = x)
    (fun r hr => ⟨r, (List.mem_filter.mp hr).1, rfl⟩) (by intro p hp; cases hp) (by intro p hp; cases hp) hws
  have hT := splitRegions_fromTable (by intro p hp; cases hp) hws
  refine ⟨l, hld, fun x hx => ?_⟩
  rw [hm] at hx
  simp only [List.mem_append] at hx
  rcases hx with hx | ((hx | hx) | hx) | hx | hx
  · rw [useMapMsgs_kind _ _ _ _ hx]; trivial
  · rw [validMsgs_kind _ _ hx]; trivial
  · rw [elfMsgs_kind _ _ _ _ hx]; trivial
  · rcases dwarfMsgs_kind _ _ _ _ hx with rfl | rfl <;> trivial
  · obtain ⟨y, hy, rfl⟩ := List.mem_map.mp hx
    exact hN.2 y hy
  · obtain ⟨p, hpp, hx⟩ := List.mem_flatMap.mp hx
    have ho := partsOf_names hp p hpp
    rcases sectionMsgs_kind _ _ _ _ hx with ⟨r, rfl⟩ | ⟨r, rfl⟩ | rfl
    · exact ⟨ho, hN.1 r ((C116_true _ _ _ _ _).1 hx).2.1⟩
    · have hr := ((C116_true _ _ _ _ _).2 hx).2.1
      exact ⟨ho, hN.1 r hr, hT r hr⟩
    · exact ho

/-- **C116** no warning of a call stops it, and all of them are shown as they are, if no name looks like markup.
Warnings that quote an exception are the subject of C113–C117. -/
theorem C116_run_partial (n : Nat) (w : World) (fn : Str) (ls : Bool) (ud : Option Bool) (mf : Option MapFile) (e : Option ElfData) (m : MemMap)
    (h : getMap n w fn ls ud mf e = some (.ok m)) (norm : Str → Str) :
    ∃ l, load w fn ud mf = .ok l ∧
      ((∀ o ∈ l.sections, NoMarkup o.name) → (∀ r ∈ l.regions, NoMarkup r.name) → (∀ p ∈ l.types, NoMarkup p.2.name) →
        ∀ x ∈ getMsgs n w fn ls ud mf, x ≠ .invalid → x ≠ .badElf → ∃ t u, x.text = some t ∧ renderE norm t = some u ∧ Tells u x) := by
  obtain ⟨l, hl, ha⟩ := C116_names n w fn ls ud mf e m h
  refine ⟨l, hl, fun ho hr ht x hx h1 h2 => ?_⟩
  have hpl : x.plain := by
    have := ha x hx
    cases x with
    | targets a b => exact this.elim
    | region name => obtain ⟨r, h3, h4⟩ := this; exact show NoMarkup name from h4 ▸ hr r h3
    | exceeds s r =>
      obtain ⟨⟨o, h1, h2⟩, q, h3, h4⟩ := this
      exact ⟨h2 ▸ ho o h1, h4 ▸ hr q h3⟩
    | overflow s r =>
      obtain ⟨⟨o, h1, h2⟩, ⟨q, h3, h4⟩, k, h5⟩ := this
      exact ⟨h2 ▸ ho o h1, h4 ▸ hr q h3, ht _ h5⟩
    | nowhere s => obtain ⟨o, h1, h2⟩ := this; exact show NoMarkup s.name from h2 ▸ ho o h1
    | _ => trivial
  obtain ⟨t, ht⟩ := Option.isSome_iff_exists.mp ((C116_known x).mpr ⟨h1, h2⟩)
  obtain ⟨u, hu⟩ := C116_shown_partial norm x t ht hpl
  exact ⟨t, u, ht, hu⟩

-- a call with four of these warnings
example : (getMsgs 9 exWarnWorld (str "/b/x.map") false none none).length = 4 ∧
    exUsedSum (getMap 9 exWarnWorld (str "/b/x.map") false none none none) ≠ none := by decide +kernel

end EspSize
