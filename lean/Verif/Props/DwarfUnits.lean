import Verif.Proofs.At
/-! # C49: compilation units -/
namespace EspSize

/-- What is to be found of the unit `u` at `off`. -/
def Unit.cu (o : Order) (off : Nat) (u : Unit) : CU :=
  { offset := off, lenBytes := u.lenSize, length := (u.content o).length, version := u.version,
    unitType := if u.version = 5 then some u.unitType else none, addrSize := u.addrSize, abbrevOff := u.abbrevOff,
    offSize := u.offSize, dieOff := off + u.lenSize + (if u.version = 5 then 4 + u.offSize else 3 + u.offSize) }

/-- The units one after the other from `off`. -/
def placed (o : Order) : Nat → List Unit → List CU
  | _, [] => []
  | off, u :: t => u.cu o off :: placed o (off + (u.bytes o).length) t

theorem Unit.length_bytes (o : Order) (u : Unit) : (u.bytes o).length = u.lenSize + (u.content o).length := by
  unfold Unit.bytes Unit.lenSize
  cases u.wide <;> simp <;> omega

theorem cuRest_enc {o : Order} {u : Unit} (hu : u.Valid o) {d : Bytes} {offset off : Nat} (h : At d off (u.content o)) (hoff : off = offset + u.lenSize) :
    cuRest o d offset u.lenSize (u.content o).length u.offSize off = .ok (u.cu o offset) := by
  unfold cuRest
  rw [Unit.content, List.append_assoc] at h
  have hv := h.left.getUint (by have := hu.version; omega)
  have hr := h.right
  simp only [length_intBytes] at hr
  have ha : ∀ n, n = 1 → u.addrSize < 256 ^ n := by intro n hn; subst hn; have := hu.addr; omega
  simp only [hv]
  by_cases h5 : u.version = 5
  · simp only [h5, if_true] at hr ⊢
    have h1 := hr.left.left.left.getUint (by have := hu.type; omega)
    have h2 := hr.left.left.right.getUint (ha 1 rfl)
    have h3 := hr.left.right.getUint hu.abbrevs
    simp only [length_intBytes, List.length_append] at h1 h2 h3
    have e3 : off + 2 + 1 + 1 = off + 2 + (1 + 1) := by omega
    simp only [h1, h2, e3, h3, hu.addr, if_true, Unit.cu, h5]
    congr 2
    omega
  · have h4 : u.version ≤ 4 := by have := hu.version; omega
    simp only [h5, if_false] at hr ⊢
    have h1 := hr.left.left.getUint hu.abbrevs
    have h2 := hr.left.right.getUint (ha 1 rfl)
    simp only [length_intBytes] at h1 h2
    simp only [h4, if_true, h1, h2, hu.addr, Unit.cu, h5, if_false]
    congr 2
    omega

theorem cuAt_enc {o : Order} {u : Unit} (hu : u.Valid o) {d : Bytes} {off : Nat} (h : At d off (u.bytes o)) : cuAt o d off = .ok (u.cu o off) := by
  unfold cuAt
  have hl := hu.length
  have hw : u.wide = true ∨ u.wide = false := by cases u.wide <;> simp
  rcases hw with hw | hw
  · simp only [Unit.bytes, hw, if_true] at h hl
    have h1 := h.left.left.getUint (by decide)
    have h1b := h.left.left.getBytes
    have h2 := h.left.right.getUint hl
    have h2b := h.left.right.getBytes
    have h3 := h.right
    simp only [length_intBytes, List.length_append] at h1 h1b h2 h2b h3
    simp only [h1, h1b, h2, h2b, if_true, length_intBytes]
    have hs : u.lenSize = 4 + 8 := by simp [Unit.lenSize, hw]
    have ho : u.offSize = 8 := by simp [Unit.offSize, hw]
    have := cuRest_enc hu h3 (offset := off) (by omega)
    rw [hs, ho] at this
    have e : off + (4 + 8) = off + 4 + 8 := by omega
    rw [e] at this
    exact this
  · simp only [Unit.bytes, hw, Bool.false_eq_true, if_false] at h hl
    have h1 := h.left.getUint (by omega)
    have h1b := h.left.getBytes
    have h3 := h.right
    simp only [length_intBytes] at h1 h1b h3
    have hne : ¬ (u.content o).length = 0xFFFFFFFF := by omega
    simp only [h1, h1b, hne, if_false, length_intBytes]
    have hs : u.lenSize = 4 := by simp [Unit.lenSize, hw]
    have ho : u.offSize = 4 := by simp [Unit.offSize, hw]
    have := cuRest_enc hu h3 (offset := off) (by omega)
    rw [hs, ho] at this
    exact this

theorem cusFrom_enc {o : Order} (us : List Unit) (hu : ∀ u ∈ us, u.Valid o) (pre : Bytes) :
    cusFrom o (pre ++ us.flatMap (Unit.bytes o)) pre.length = .ok (placed o pre.length us) := by
  induction us generalizing pre with
  | nil => unfold cusFrom; simp [placed]
  | cons u t ih =>
    have hat : At (pre ++ (u :: t).flatMap (Unit.bytes o)) pre.length (u.bytes o) := ⟨pre, t.flatMap (Unit.bytes o), by simp, rfl⟩
    have hc := cuAt_enc (hu u (by simp)) hat
    have hpos : 0 < (u.bytes o).length := by rw [Unit.length_bytes]; unfold Unit.lenSize; split <;> omega
    have hlt : pre.length < (pre ++ (u :: t).flatMap (Unit.bytes o)).length := by
      have := hat.le; omega
    unfold cusFrom
    rw [dif_pos hlt]
    split
    · rename_i x hx; rw [hc] at hx; cases hx
    · rename_i cu hx
      rw [hc] at hx
      cases hx
      have he : pre.length + ((u.cu o pre.length).lenBytes + (u.cu o pre.length).length) = (pre ++ u.bytes o).length := by
        rw [List.length_append, Unit.length_bytes]; rfl
      have hd : pre ++ (u :: t).flatMap (Unit.bytes o) = (pre ++ u.bytes o) ++ t.flatMap (Unit.bytes o) := by simp
      rw [he, hd, ih (fun x hx => hu x (List.mem_cons_of_mem _ hx))]
      simp [bind, Except.bind, placed]

/-- **C49** the units of a well-formed `.debug_info`, of any number and size, 32-bit and 64-bit mixed, versions 2 to 5,
in either byte order, are found with their headers: the first at 0, each one where the previous one ends. -/
theorem C49_units (o : Order) (us : List Unit) (h : ∀ u ∈ us, u.Valid o) : cusFrom o (us.flatMap (Unit.bytes o)) 0 = .ok (placed o 0 us) :=
  cusFrom_enc us h []

/-- The units are consecutive from `a` to `b`. -/
inductive UnitsTile : Nat → List CU → Nat → Prop
  | nil {a : Nat} : UnitsTile a [] a
  | cons {a b : Nat} {c : CU} {t : List CU} : c.offset = a → 0 < c.lenBytes → UnitsTile (a + (c.lenBytes + c.length)) t b → UnitsTile a (c :: t) b

theorem placed_tile (o : Order) (us : List Unit) (off : Nat) : UnitsTile off (placed o off us) (off + (us.flatMap (Unit.bytes o)).length) := by
  induction us generalizing off with
  | nil => exact .nil
  | cons u t ih =>
    have := ih (off + (u.bytes o).length)
    simp only [placed, List.flatMap_cons, List.length_append]
    refine .cons rfl (by simp only [Unit.cu, Unit.lenSize]; split <;> omega) ?_
    have he : off + ((u.cu o off).lenBytes + (u.cu o off).length) = off + (u.bytes o).length := by rw [Unit.length_bytes]; rfl
    rw [he, ← Nat.add_assoc]
    exact this

/-- **C49** they tile the section. -/
theorem C49_tile (o : Order) (us : List Unit) (h : ∀ u ∈ us, u.Valid o) :
    ∃ cus, cusFrom o (us.flatMap (Unit.bytes o)) 0 = .ok cus ∧ UnitsTile 0 cus (us.flatMap (Unit.bytes o)).length :=
  ⟨_, C49_units o us h, by have := placed_tile o us 0; rw [Nat.zero_add] at this; exact this⟩

/-- **C49** whatever the section holds, the walk ends: with an `Elf_Exception`, or with consecutive units from 0 to the
end of the section or beyond, each starting within it. -/
theorem C49_any (o : Order) (d : Bytes) :
    cusFrom o d 0 = .error .elf ∨ ∃ cus e, cusFrom o d 0 = .ok cus ∧ UnitsTile 0 cus e ∧ d.length ≤ e ∧ ∀ c ∈ cus, c.offset < d.length := by
  have key : ∀ k off, d.length - off ≤ k → cusFrom o d off = .error .elf ∨
      ∃ cus e, cusFrom o d off = .ok cus ∧ UnitsTile off cus e ∧ d.length ≤ e ∧ ∀ c ∈ cus, c.offset < d.length := by
    intro k
    induction k with
    | zero =>
      intro off hk
      unfold cusFrom
      rw [dif_neg (by omega)]
      exact Or.inr ⟨[], off, rfl, .nil, by omega, by simp⟩
    | succ k ih =>
      intro off hk
      unfold cusFrom
      by_cases hlt : off < d.length
      · rw [dif_pos hlt]
        split
        · rename_i x hx
          left
          have : x = .elf := by
            unfold cuAt cuRest at hx
            simp only at hx
            split at hx <;> (split at hx <;> split at hx <;> (try split at hx) <;> cases hx <;> rfl)
          rw [this]
        · rename_i cu hx
          have hadv := cuAt_advances hx hlt
          have hoff : cu.offset = off := by
            unfold cuAt at hx
            simp only at hx
            split at hx
            · exact (cuRest_fields hx).1
            · exact (cuRest_fields hx).1
          rcases ih (off + (cu.lenBytes + cu.length)) (by omega) with h | ⟨cus, e, h1, h2, h3, h4⟩
          · left; simp only [bind, Except.bind, h]
          · right
            refine ⟨cu :: cus, e, by simp only [bind, Except.bind, h1], .cons hoff hadv h2, h3, ?_⟩
            intro c hc
            rcases List.mem_cons.mp hc with rfl | hc
            · omega
            · exact h4 c hc
      · rw [dif_neg hlt]
        exact Or.inr ⟨[], off, rfl, .nil, by omega, by simp⟩
  exact key _ 0 (Nat.le_refl _)

/-- The first entry of a full or partial unit is after the header. -/
theorem C49_first_entry_partial (o : Order) (u : Unit) (off : Nat) (h : u.version = 5 → u.unitType ∉ [2, 4, 5, 6]) :
    (u.cu o off).dieOff = off + u.lenSize + u.headerSize := by
  simp only [Unit.cu, Unit.headerSize]
  split
  · rename_i h5
    have := h h5
    simp only [List.mem_cons, List.not_mem_nil, or_false, not_or] at this
    simp [this]
  · rfl

/-- A type unit of DWARF 5: signature, offset of the type, and an entry. -/
def exTypeUnit : Unit :=
  { wide := false, version := 5, unitType := 2, addrSize := 4, abbrevOff := 0, body := [1, 2, 3, 4, 5, 6, 7, 8, 0x18, 0, 0, 0, 0] }

theorem exTypeUnit_valid : exTypeUnit.Valid .little :=
  { version := by decide, type := by decide, addr := by decide, abbrevs := by decide, length := by decide }

/-- **C49** (violated) the first entry of a type unit is looked for in its signature, 12 bytes too early. -/
theorem C49_type_unit :
    ∃ cu, cusFrom .little (exTypeUnit.bytes .little) 0 = .ok [cu] ∧ cu.dieOff = 12 ∧ 0 + exTypeUnit.lenSize + exTypeUnit.headerSize = 24 := by
  have := C49_units .little [exTypeUnit] (by intro u hu; simp only [List.mem_singleton] at hu; subst hu; exact exTypeUnit_valid)
  simp only [List.flatMap_cons, List.flatMap_nil, List.append_nil] at this
  exact ⟨_, this, by decide, by decide⟩

/-- A 64-bit unit of version 4 after a 32-bit one of version 5. -/
def exUnits : List Unit :=
  [{ wide := false, version := 5, unitType := 1, addrSize := 4, abbrevOff := 7, body := [0] },
   { wide := true, version := 4, unitType := 0, addrSize := 8, abbrevOff := 300, body := [0, 0] }]

example : ∀ u ∈ exUnits, u.Valid .big := by
  intro u hu
  simp only [exUnits, List.mem_cons, List.not_mem_nil, or_false] at hu
  rcases hu with rfl | rfl <;> exact { version := by decide, type := by decide, addr := by decide, abbrevs := by decide, length := by decide }

example : (placed .big 0 exUnits).map (fun c => (c.offset, c.length, c.dieOff, c.abbrevOff)) = [(0, 9, 12, 7), (13, 13, 36, 300)] := by decide

/-- A truncated header is accepted: what is missing counts as 0, and the version 0 is accepted. -/
example : cusFrom .little [1, 0, 0, 0, 0, 0, 0, 0, 0, 0, 4] 0 = .error .elf ∧
    cusFrom .little [0xFF, 0, 0, 0, 0, 0, 0, 0, 0, 0, 4] 0 =
      .ok [{ offset := 0, lenBytes := 4, length := 255, version := 0, unitType := none, addrSize := 4, abbrevOff := 0, offSize := 4, dieOff := 11 }] := by
  decide +kernel

end EspSize
