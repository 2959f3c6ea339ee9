import Verif.Props.ErrMsg
import Verif.Props.Warnings
import Verif.Props.Run
/-! # C120: errors reported in a run -/
namespace EspSize

/-- **C120** for a call that returns, the error about the ELF file is the one among its messages (C80). -/
theorem C120_messages (n : Nat) (w : World) (fn : Str) (ls : Bool) (ud : Option Bool) (mf : Option MapFile) (e : Option ElfData) (m : MemMap)
    (h : getMap n w fn ls ud mf e = some (.ok m)) :
    .badElf ∈ getMsgs n w fn ls ud mf ↔ ∃ path, getErr w fn mf = some (.elfRead path) ∨ getErr w fn mf = some (.elfParse path) := by
  rw [C80_badElf_iff n w fn ls ud mf e m h]
  constructor
  · rintro ⟨d, app, x, hd, ha, hx⟩
    cases hg : getErr w fn mf with
    | some p =>
      cases p with
      | entry l =>
        have := (C120_entry_crash n w fn ls ud mf e l hg).1
        rw [h] at this
        cases this
      | elfRead q => exact ⟨q, .inl rfl⟩
      | elfParse q => exact ⟨q, .inr rfl⟩
    | none =>
      exfalso
      cases hl : load w fn ud mf with
      | error y => rw [getMap_of_load hl] at h; cases h
      | ok l =>
        obtain ⟨t, f, elf, ss, _, _, _, h4, _, _, _, h8⟩ := load_ok hl
        have he : elf = none := by
          rw [hd] at h4
          unfold getElf at h4
          simp only [nonempty_of_app ha, if_true, ha, getKey, bind, Except.bind, hx] at h4
          cases x <;> cases h4 <;> rfl
        have hn : l.elf = none := by rw [h8]; exact he
        rw [C120_elf_told w fn ud mf l hl hn hg _ ⟨d, app, hd, ha, rfl⟩] at hx
        cases hx
  · rintro ⟨path, hp | hp⟩
    · obtain ⟨⟨d, app, hd, ha, rfl⟩, hx | hx⟩ := (C120_elf_true w fn mf path).1 hp
      · exact ⟨d, app, _, hd, ha, hx⟩
      · exact ⟨d, app, _, hd, ha, hx⟩
    · obtain ⟨⟨d, app, hd, ha, rfl⟩, hx⟩ := (C120_elf_true w fn mf path).2 hp
      exact ⟨d, app, _, hd, ha, hx⟩

/-- (Violated) a run says it twice: the ELF file is read by `_run` and again by `get`. -/
theorem C120_twice (R : RunIn) (input : Str) (args : Args) (m ref : MemMap) (f : MapFile) (hf : loadMap R.w input = .ok f) (path : Str)
    (h : getMap R.n R.w input (loadSymbolsOf (effectiveArgs args)) (useDwarfOf (effectiveArgs args)) (some f) none = some (.ok m))
    (hp : getErr R.w input (some f) = some (.elfRead path) ∨ getErr R.w input (some f) = some (.elfParse path)) :
    [Msg.badElf, Msg.badElf].Sublist (runMsgs R input args m ref) := by
  have h2 := (C120_messages _ _ _ _ _ _ _ _ h).mpr ⟨path, hp⟩
  have h1 : .badElf ∈ elfMsgs R.w input none := by
    obtain ⟨d, app, x, hd, ha, hx⟩ := (C80_badElf_iff _ _ _ _ _ _ _ _ h).mp h2
    unfold elfMsgs
    simp only [hd, ha, hx, List.mem_singleton]
  unfold runMsgs
  simp only [hf]
  have h3 : ∀ {a b c d : List Msg}, .badElf ∈ b → .badElf ∈ c → [Msg.badElf, Msg.badElf].Sublist (a ++ b ++ c ++ d) := by
    intro a b c d hb hc
    have hab : [Msg.badElf].Sublist (a ++ b) := List.singleton_sublist.mpr (List.mem_append_right _ hb)
    exact (hab.append (List.singleton_sublist.mpr hc)).trans (List.sublist_append_left _ _)
  exact h3 h1 h2

/-- The example with an ELF file that is none. -/
example : getErr { exWorld with
      json := fun p => if p = str "/b/project_description.json" then some ⟨some (str "x.elf"), some (str "espx"), none, none, true⟩ else none
      elf := fun p => if p = str "/b/x.elf" then some (.error .elf) else none } (str "/b/x.map") (some ⟨[], [], [], none⟩) = some (.elfParse (str "/b/x.elf")) := by
  decide +kernel

end EspSize
