import Verif.Spec.ElfMsg
import Verif.Props.WarnText
import Verif.Props.Lazy
/-! # C117: messages about ELF files that cannot be opened -/
namespace EspSize

theorem readAt_ok_iff {file : Bytes} {off count : Nat} {d : Bytes} : readAt file off count = .ok d ↔ (count = 0 ∨ off + count ≤ file.length) ∧ d = slice file off count := by
  have hl : (slice file off count).length = min count (file.length - off) := by simp [slice]
  unfold readAt
  rw [hl]
  by_cases h : min count (file.length - off) = count
  · rw [if_pos h]
    refine ⟨fun e => ⟨by omega, by cases e; rfl⟩, fun e => by rw [e.2]⟩
  · rw [if_neg h]
    exact ⟨fun e => (by cases e), fun e => absurd e.1 (by omega)⟩

theorem readAt_error_iff {file : Bytes} {off count : Nat} {x : Err} : readAt file off count = .error x ↔ x = .elf ∧ 0 < count ∧ file.length < off + count := by
  have hl : (slice file off count).length = min count (file.length - off) := by simp [slice]
  unfold readAt
  rw [hl]
  by_cases h : min count (file.length - off) = count
  · rw [if_pos h]
    exact ⟨fun e => (by cases e), fun e => by omega⟩
  · rw [if_neg h]
    refine ⟨fun e => ⟨by cases e; rfl, by omega⟩, fun e => by rw [e.1]⟩

theorem tableProblem_some {file : Bytes} {num entsize off : Nat} {p : ElfProblem} :
    tableProblem file num entsize off = some p ↔ CutTable file num entsize off ∧ p = .short off := by
  unfold tableProblem CutTable
  by_cases h0 : num = 0
  · simp [h0]
  · rw [if_neg h0]
    cases hr : readAt file off (num * entsize) with
    | error x =>
      obtain ⟨_, h1, h2⟩ := readAt_error_iff.mp hr
      simp only [Option.some.injEq]
      exact ⟨fun h => ⟨⟨h1, h2⟩, h.symm⟩, fun h => h.2.symm⟩
    | ok d =>
      obtain ⟨h1, _⟩ := readAt_ok_iff.mp hr
      exact ⟨fun h => (by cases h), fun h => by omega⟩

/-- A table raises `Elf_Exception` exactly if it is cut. -/
theorem table_elf {file : Bytes} {fmt : Str} {num entsize off : Nat} : table file fmt num entsize off = .error .elf ↔ CutTable file num entsize off := by
  unfold table CutTable
  by_cases h0 : num = 0
  · simp [h0]
  · rw [if_neg h0]
    cases hr : readAt file off (num * entsize) with
    | error x =>
      obtain ⟨rfl, h1, h2⟩ := readAt_error_iff.mp hr
      exact ⟨fun _ => ⟨h1, h2⟩, fun _ => rfl⟩
    | ok d =>
      obtain ⟨h1, _⟩ := readAt_ok_iff.mp hr
      refine ⟨fun h => ?_, fun h => by omega⟩
      have : records fmt d = .error .elf := h
      exact absurd (records_raises fmt d _ this) (by decide)

theorem orderOf_cases (file : Bytes) {i : Nat} {b : UInt8} (h : file[i]? = some b) : orderOf (file.drop i) = if b = 1 then .ok .little else if b = 2 then .ok .big else .error .elf := by
  have : file.drop i = b :: file.drop (i + 1) := by
    obtain ⟨h1, h2⟩ := List.getElem?_eq_some_iff.mp h
    rw [← h2]; exact List.drop_eq_getElem_cons h1
  rw [this]; rfl

theorem classOf_cases (file : Bytes) {i : Nat} {b : UInt8} (h : file[i]? = some b) : classOf (file.drop i) = if b = 1 then .ok .c32 else if b = 2 then .ok .c64 else .error .elf := by
  have : file.drop i = b :: file.drop (i + 1) := by
    obtain ⟨h1, h2⟩ := List.getElem?_eq_some_iff.mp h
    rw [← h2]; exact List.drop_eq_getElem_cons h1
  rw [this]; rfl

theorem ident_byte {file : Bytes} {i : Nat} (hi : i < 16) : (slice file 0 16)[i]? = file[i]? := by
  rw [slice, List.drop_zero, List.getElem?_take_of_lt hi]

theorem ident_take (file : Bytes) : (slice file 0 16).take 4 = file.take 4 := by
  rw [slice, List.drop_zero, List.take_take]
  rfl

/-- What the constructor does with a file that is long enough and has the right magic. -/
theorem open_step {long : Nat} {file : Bytes} {x b : UInt8} (h16 : 16 ≤ file.length) (hm : file.take 4 = [0x7F, 0x45, 0x4C, 0x46]) (hx : file[5]? = some x) (hb : file[4]? = some b) :
    elfProblem long file = (match (if x = 1 then Except.ok Order.little else if x = 2 then .ok .big else .error Err.elf) with
      | .error _ => some (.data x)
      | .ok order => match (if b = 1 then Except.ok ElfClass.c32 else if b = 2 then .ok .c64 else .error Err.elf) with
        | .error _ => some (.cls b)
        | .ok cls => match readAt file 0 (nativeSize long (ehdrFmt cls)) with
          | .error _ => some (.short 0)
          | .ok d => match unpackFrom (ehdrFmt cls) d 0 >>= ehdrOf order with
            | .error _ => none
            | .ok eh => match table file (phdrFmt cls) eh.phnum eh.phentsize eh.phoff with
              | .error _ => tableProblem file eh.phnum eh.phentsize eh.phoff
              | .ok _ => tableProblem file eh.shnum eh.shentsize eh.shoff) := by
  have hr : readAt file 0 16 = .ok (slice file 0 16) := readAt_ok_iff.mpr ⟨.inr (by omega), rfl⟩
  have hx' : (slice file 0 16)[5]? = some x := by rw [ident_byte (by decide)]; exact hx
  have hb' : (slice file 0 16)[4]? = some b := by rw [ident_byte (by decide)]; exact hb
  have e1 : ((slice file 0 16).drop 5).head? = some x := by rw [List.head?_drop, hx']
  have e2 : ((slice file 0 16).drop 4).head? = some b := by rw [List.head?_drop, hb']
  unfold elfProblem
  rw [hr]
  dsimp only
  rw [ident_take, if_neg (by rw [hm]; simp), orderOf_cases _ hx', classOf_cases _ hb', e1, e2]
  rfl

/-- The problem is what is wrong with the file. -/
theorem C117_says (long : Nat) (file : Bytes) (p : ElfProblem) : elfProblem long file = some p ↔ ElfWrong long file p := by
  by_cases h16 : 16 ≤ file.length
  · have hr : readAt file 0 16 = .ok (slice file 0 16) := readAt_ok_iff.mpr ⟨.inr (by omega), rfl⟩
    by_cases hm : file.take 4 = [0x7F, 0x45, 0x4C, 0x46]
    · obtain ⟨x, hx⟩ : ∃ x, file[5]? = some x := ⟨_, List.getElem?_eq_getElem (by omega)⟩
      obtain ⟨b, hb⟩ : ∃ b, file[4]? = some b := ⟨_, List.getElem?_eq_getElem (by omega)⟩
      rw [open_step h16 hm hx hb]
      have known : ∀ {o c}, x = orderByte o → b = classByte c →
          ((match readAt file 0 (nativeSize long (ehdrFmt c)) with
          | .error _ => some (.short 0)
          | .ok d => match unpackFrom (ehdrFmt c) d 0 >>= ehdrOf o with
            | .error _ => none
            | .ok eh => match table file (phdrFmt c) eh.phnum eh.phentsize eh.phoff with
              | .error _ => tableProblem file eh.phnum eh.phentsize eh.phoff
              | .ok _ => tableProblem file eh.shnum eh.shentsize eh.shoff) = some p ↔ ElfWrong long file p) := by
        intro o c ho hc
        have hid : IdentOk file o c := ⟨hm, by rw [hx, ho], by rw [hb, hc], h16⟩
        have uniq : ∀ {o' c'}, IdentOk file o' c' → o' = o ∧ c' = c := by
          intro o' c' h
          have h1 := h.data
          have h2 := h.cls
          rw [hx, ho] at h1
          rw [hb, hc] at h2
          refine ⟨?_, ?_⟩
          · cases o <;> cases o' <;> first | rfl | (revert h1; decide)
          · cases c <;> cases c' <;> first | rfl | (revert h2; decide)
        have no1 : ∀ {y : UInt8}, file[5]? = some y → y ≠ 1 → y ≠ 2 → False := by
          intro y hy h1 h2
          rw [hx] at hy
          cases hy
          cases o <;> first | exact h1 ho | exact h2 ho
        have no2 : ∀ {y : UInt8}, file[4]? = some y → y ≠ 1 → y ≠ 2 → False := by
          intro y hy h1 h2
          rw [hb] at hy
          cases hy
          cases c <;> first | exact h1 hc | exact h2 hc
        cases hd : readAt file 0 (nativeSize long (ehdrFmt c)) with
        | error e =>
          obtain ⟨_, _, hlt⟩ := readAt_error_iff.mp hd
          rw [Nat.zero_add] at hlt
          simp only [Option.some.injEq]
          refine ⟨fun h => h ▸ .header o c hid hlt, fun h => ?_⟩
          cases h with
          | short _ => rfl
          | magic _ h => exact absurd hm h
          | data y _ _ h1 h2 h3 => exact (no1 h1 h2 h3).elim
          | cls _ y _ _ _ _ h1 h2 h3 => exact (no2 h1 h2 h3).elim
          | header => rfl
          | programs _ _ _ hi hh _ => obtain ⟨rfl, rfl⟩ := uniq hi; exact absurd hh.1 (by omega)
          | sections _ _ _ _ hi hh _ _ => obtain ⟨rfl, rfl⟩ := uniq hi; exact absurd hh.1 (by omega)
        | ok d =>
          obtain ⟨hle, rfl⟩ := readAt_ok_iff.mp hd
          have hle : nativeSize long (ehdrFmt c) ≤ file.length := by omega
          simp only
          have hsl : slice file 0 (nativeSize long (ehdrFmt c)) = file.take (nativeSize long (ehdrFmt c)) := by rw [slice, List.drop_zero]
          have noHead : ∀ {o' c'}, IdentOk file o' c' → ¬ file.length < nativeSize long (ehdrFmt c') := by
            intro o' c' hi
            obtain ⟨rfl, rfl⟩ := uniq hi
            omega
          cases hh : unpackFrom (ehdrFmt c) (slice file 0 (nativeSize long (ehdrFmt c))) 0 >>= ehdrOf o with
          | error e =>
            refine ⟨fun h => (by cases h), fun h => ?_⟩
            have noH : ∀ {o' c' eh}, IdentOk file o' c' → ¬ HeaderOf long file o' c' eh := by
              intro o' c' eh hi hH
              obtain ⟨rfl, rfl⟩ := uniq hi
              have := hH.2
              rw [← hsl, hh] at this
              cases this
            cases h with
            | short h => omega
            | magic _ h => exact absurd hm h
            | data y _ _ h1 h2 h3 => exact (no1 h1 h2 h3).elim
            | cls _ y _ _ _ _ h1 h2 h3 => exact (no2 h1 h2 h3).elim
            | header _ _ hi h => exact absurd h (noHead hi)
            | programs _ _ _ hi h _ => exact absurd h (noH hi)
            | sections _ _ _ _ hi h _ _ => exact absurd h (noH hi)
          | ok eh =>
            simp only
            have hH : HeaderOf long file o c eh := ⟨hle, by rw [← hsl]; exact hh⟩
            have uniqH : ∀ {o' c' eh'}, IdentOk file o' c' → HeaderOf long file o' c' eh' → o' = o ∧ c' = c ∧ eh' = eh := by
              intro o' c' eh' hi h
              obtain ⟨rfl, rfl⟩ := uniq hi
              have := h.2
              rw [hH.2] at this
              cases this
              exact ⟨rfl, rfl, rfl⟩
            cases ht : table file (phdrFmt c) eh.phnum eh.phentsize eh.phoff with
            | error e =>
              simp only
              rw [tableProblem_some]
              refine ⟨fun h => h.2 ▸ .programs o c eh hid hH h.1, fun h => ?_⟩
              cases h with
              | short h => omega
              | magic _ h => exact absurd hm h
              | data y _ _ h1 h2 h3 => exact (no1 h1 h2 h3).elim
              | cls _ y _ _ _ _ h1 h2 h3 => exact (no2 h1 h2 h3).elim
              | header _ _ hi h => exact absurd h (noHead hi)
              | programs _ _ _ hi h hcut => obtain ⟨rfl, rfl, rfl⟩ := uniqH hi h; exact ⟨hcut, rfl⟩
              | sections _ _ _ _ hi h h' _ => obtain ⟨rfl, rfl, rfl⟩ := uniqH hi h; rw [ht] at h'; cases h'
            | ok t =>
              simp only
              rw [tableProblem_some]
              refine ⟨fun h => h.2 ▸ .sections o c eh t hid hH ht h.1, fun h => ?_⟩
              cases h with
              | short h => omega
              | magic _ h => exact absurd hm h
              | data y _ _ h1 h2 h3 => exact (no1 h1 h2 h3).elim
              | cls _ y _ _ _ _ h1 h2 h3 => exact (no2 h1 h2 h3).elim
              | header _ _ hi h => exact absurd h (noHead hi)
              | programs _ _ _ hi h hcut =>
                obtain ⟨rfl, rfl, rfl⟩ := uniqH hi h
                rw [table_elf.mpr hcut] at ht
                cases ht
              | sections _ _ _ _ hi h _ hcut => obtain ⟨rfl, rfl, rfl⟩ := uniqH hi h; exact ⟨hcut, rfl⟩
      have badClass : (x = 1 ∨ x = 2) → b ≠ 1 → b ≠ 2 → (some (ElfProblem.cls b) = some p ↔ ElfWrong long file p) := by
        intro hx' h1 h2
        rw [Option.some.injEq]
        refine ⟨fun h => h ▸ .cls x b h16 hm hx hx' hb h1 h2, fun h => ?_⟩
        have noId : ∀ {o c}, ¬ IdentOk file o c := by
          intro o c h
          have := h.cls
          rw [hb] at this
          cases c
          · exact h1 (Option.some.inj this)
          · exact h2 (Option.some.inj this)
        cases h with
        | short h => omega
        | magic _ h => exact absurd hm h
        | data y _ _ g1 g2 g3 => rw [hx] at g1; cases g1; exact (hx'.elim g2 g3).elim
        | cls _ y _ _ _ _ g1 g2 g3 => rw [hb] at g1; cases g1; rfl
        | header _ _ hi => exact absurd hi noId
        | programs _ _ _ hi => exact absurd hi noId
        | sections _ _ _ _ hi => exact absurd hi noId
      by_cases x1 : x = 1
      · rw [if_pos x1]
        by_cases b1 : b = 1
        · rw [if_pos b1]; exact known (o := .little) (c := .c32) x1 b1
        · rw [if_neg b1]
          by_cases b2 : b = 2
          · rw [if_pos b2]; exact known (o := .little) (c := .c64) x1 b2
          · rw [if_neg b2]; exact badClass (.inl x1) b1 b2
      · rw [if_neg x1]
        by_cases x2 : x = 2
        · rw [if_pos x2]
          by_cases b1 : b = 1
          · rw [if_pos b1]; exact known (o := .big) (c := .c32) x2 b1
          · rw [if_neg b1]
            by_cases b2 : b = 2
            · rw [if_pos b2]; exact known (o := .big) (c := .c64) x2 b2
            · rw [if_neg b2]; exact badClass (.inr x2) b1 b2
        · rw [if_neg x2]
          simp only [Option.some.injEq]
          refine ⟨fun h => h ▸ .data x h16 hm hx x1 x2, fun h => ?_⟩
          have noId : ∀ {o c}, ¬ IdentOk file o c := by
            intro o c h
            have := h.data
            rw [hx] at this
            cases o
            · exact x1 (Option.some.inj this)
            · exact x2 (Option.some.inj this)
          cases h with
          | short h => omega
          | magic _ h => exact absurd hm h
          | data y _ _ g1 g2 g3 => rw [hx] at g1; cases g1; rfl
          | cls y _ _ _ g1 g2 => rw [hx] at g1; cases g1; exact (g2.elim x1 x2).elim
          | header _ _ hi => exact absurd hi noId
          | programs _ _ _ hi => exact absurd hi noId
          | sections _ _ _ _ hi => exact absurd hi noId
    · unfold elfProblem
      rw [hr]
      simp only
      rw [ident_take, if_pos hm, Option.some.injEq]
      refine ⟨fun h => h ▸ .magic h16 hm, fun h => ?_⟩
      cases h with
      | short h => omega
      | magic => rfl
      | data _ _ h => exact absurd h hm
      | cls _ _ _ h => exact absurd h hm
      | header _ _ hi => exact absurd hi.magic hm
      | programs _ _ _ hi => exact absurd hi.magic hm
      | sections _ _ _ _ hi => exact absurd hi.magic hm
  · have hr : readAt file 0 16 = .error .elf := readAt_error_iff.mpr ⟨rfl, by decide, by omega⟩
    unfold elfProblem
    rw [hr]
    simp only [Option.some.injEq]
    refine ⟨fun h => h ▸ .short (by omega), fun h => ?_⟩
    cases h with
    | short => rfl
    | magic h => exact absurd h h16
    | data _ h => exact absurd h h16
    | cls _ _ h => exact absurd h h16
    | header => rfl
    | programs _ _ _ hi => exact absurd hi.long h16
    | sections _ _ _ _ hi => exact absurd hi.long h16

theorem okBind {α β : Type} (a : α) (f : α → Except Err β) : ((Except.ok a : Except Err α) >>= f) = f a := rfl

/-- `Elf_Exception` is raised exactly if there is a problem. -/
theorem C117_iff (long : Nat) (file : Bytes) : openElf long file = .error .elf ↔ ∃ p, elfProblem long file = some p := by
  unfold openElf elfProblem
  cases hr : readAt file 0 16 with
  | error e =>
    obtain ⟨rfl, _⟩ := readAt_error_iff.mp hr
    exact ⟨fun _ => ⟨_, rfl⟩, fun _ => rfl⟩
  | ok ident =>
    rw [okBind]
    dsimp only
    by_cases hm : ident.take 4 ≠ [0x7F, 0x45, 0x4C, 0x46]
    · rw [if_pos hm, if_pos hm]
      exact ⟨fun _ => ⟨_, rfl⟩, fun _ => rfl⟩
    · rw [if_neg hm, if_neg hm]
      cases ho : orderOf (ident.drop 5) with
      | error e =>
        dsimp only
        cases hd : ident.drop 5 with
        | nil =>
          rw [hd] at ho
          cases ho
          exact ⟨fun h => (by cases h), fun ⟨p, h⟩ => by cases h⟩
        | cons b t =>
          rw [hd] at ho
          have : e = .elf := by
            unfold orderOf at ho; dsimp only at ho
            split at ho
            · cases ho
            · split at ho
              · cases ho
              · cases ho; rfl
          subst this
          exact ⟨fun _ => ⟨_, rfl⟩, fun _ => rfl⟩
      | ok o =>
        rw [okBind]
        dsimp only
        cases hc : classOf (ident.drop 4) with
        | error e =>
          dsimp only
          cases hd : ident.drop 4 with
          | nil =>
            rw [hd] at hc
            cases hc
            exact ⟨fun h => (by cases h), fun ⟨p, h⟩ => by cases h⟩
          | cons b t =>
            rw [hd] at hc
            have : e = .elf := by
              unfold classOf at hc; dsimp only at hc
              split at hc
              · cases hc
              · split at hc
                · cases hc
                · cases hc; rfl
            subst this
            exact ⟨fun _ => ⟨_, rfl⟩, fun _ => rfl⟩
        | ok c =>
          rw [okBind]
          dsimp only
          cases hd : readAt file 0 (nativeSize long (ehdrFmt c)) with
          | error e =>
            obtain ⟨rfl, _⟩ := readAt_error_iff.mp hd
            exact ⟨fun _ => ⟨_, rfl⟩, fun _ => rfl⟩
          | ok d =>
            rw [okBind]
            dsimp only
            cases hu : unpackFrom (ehdrFmt c) d 0 with
            | error e =>
              have he : e = .structError := by
                unfold unpackFrom at hu
                split at hu
                · cases hu; rfl
                · cases hu
              subst he
              exact ⟨fun h => (by cases h), fun ⟨p, h⟩ => by cases h⟩
            | ok u =>
              rw [okBind, okBind]
              cases hh : ehdrOf o u with
              | error e =>
                have he : e = .typeError := by
                  unfold ehdrOf at hh
                  split at hh
                  · cases hh
                  · cases hh; rfl
                subst he
                exact ⟨fun h => (by cases h), fun ⟨p, h⟩ => by cases h⟩
              | ok eh =>
                rw [okBind]
                dsimp only
                cases ht : table file (phdrFmt c) eh.phnum eh.phentsize eh.phoff with
                | error e =>
                  dsimp only
                  have h1 : ((Except.error e : Except Err (List (List Bytes))) = .error .elf) ↔ CutTable file eh.phnum eh.phentsize eh.phoff := by
                    rw [← ht]; exact table_elf
                  constructor
                  · intro h
                    have : e = .elf := by cases h; rfl
                    exact ⟨_, tableProblem_some.mpr ⟨h1.mp (by rw [this]), rfl⟩⟩
                  · rintro ⟨p, h⟩
                    have := h1.mpr (tableProblem_some.mp h).1
                    cases this
                    rfl
                | ok t =>
                  rw [okBind]
                  dsimp only
                  constructor
                  · intro h
                    cases hs : table file (shdrFmt c) eh.shnum eh.shentsize eh.shoff with
                    | error e =>
                      rw [hs] at h
                      have : e = .elf := by cases h; rfl
                      subst this
                      exact ⟨_, tableProblem_some.mpr ⟨table_elf.mp hs, rfl⟩⟩
                    | ok sh =>
                      rw [hs, okBind] at h
                      have := Raises.bind (es := [.typeError]) (raises_mapM (f := shdrOf o) sh fun r _ => by
                        unfold shdrOf
                        split
                        · exact .ok
                        · exact .error (by decide)) (fun _ _ => .ok) _ h
                      exact absurd this (by decide)
                  · rintro ⟨p, h⟩
                    rw [table_elf.mpr (tableProblem_some.mp h).1]
                    rfl

/-- A file with a problem has one. -/
theorem C117_unique (long : Nat) (file : Bytes) (p q : ElfProblem) (hp : ElfWrong long file p) (hq : ElfWrong long file q) : p = q := by
  have h1 := (C117_says long file p).mpr hp
  rw [(C117_says long file q).mpr hq] at h1
  exact (Option.some.inj h1).symm

/-! ### The texts -/

theorem C117_text (fn : Str) (p : ElfProblem) : SaysElf fn (badElfText fn p) p := by
  cases p <;> simp [SaysElf, badElfText, ElfProblem.text, str]

theorem nat_of_byte (b : UInt8) : b.toNat < 256 := b.toNat_lt

/-- One byte is shown as one character, or as an escape of two or four. -/
def ByteForm (w : Str) : Bool :=
  match w with
  | [c] => c != '\\'
  | ['\\', c] => c != 'x'
  | ['\\', 'x', _, _] => true
  | _ => false

/-- The byte shown. -/
def byteShown (w : Str) : Nat :=
  match w with
  | [c] => c.toNat
  | ['\\', 't'] => 9
  | ['\\', 'n'] => 10
  | ['\\', 'r'] => 13
  | ['\\', c] => c.toNat
  | ['\\', 'x', h, l] => hexVal h * 16 + hexVal l
  | _ => 0
where
  hexVal (c : Char) : Nat := if c.isDigit then c.toNat - 48 else c.toNat - 87

theorem byteRepr_table : ∀ n < 256, ∀ q ∈ ['\'', '"'], ByteForm (byteRepr q (UInt8.ofNat n)) = true ∧ byteShown (byteRepr q (UInt8.ofNat n)) = n := by
  decide +kernel

theorem byteRepr_form {q : Char} (hq : q ∈ ['\'', '"']) (b : UInt8) : ByteForm (byteRepr q b) = true ∧ byteShown (byteRepr q b) = b.toNat := by
  have := byteRepr_table b.toNat (nat_of_byte b) q hq
  rwa [UInt8.ofNat_toNat] at this

theorem form_split {u v x y : Str} (hu : ByteForm u = true) (hv : ByteForm v = true) (h : u ++ x = v ++ y) : u = v ∧ x = y := by
  unfold ByteForm at hu hv
  split at hu <;> split at hv <;> simp_all <;> exact absurd h.1.symm (by assumption)

theorem bytesQuote_mem (bs : Bytes) : bytesQuote bs ∈ ['\'', '"'] := by
  unfold bytesQuote
  split <;> decide

/-- The bytes are shown by printable characters of ASCII, between quotes. -/
theorem C117_printable (bs : Bytes) : ∃ (q : Char) (t : Str), q ∈ ['\'', '"'] ∧ bytesRepr bs = 'b' :: q :: (t ++ [q]) ∧ ∀ c ∈ t, 32 ≤ c.toNat ∧ c.toNat ≤ 126 := by
  refine ⟨bytesQuote bs, _, bytesQuote_mem bs, rfl, fun c hc => ?_⟩
  obtain ⟨b, _, hc⟩ := List.mem_flatMap.mp hc
  have table : ∀ n < 256, ∀ q ∈ ['\'', '"'], ∀ c ∈ byteRepr q (UInt8.ofNat n), 32 ≤ c.toNat ∧ c.toNat ≤ 126 := by decide +kernel
  have := table b.toNat (nat_of_byte b) _ (bytesQuote_mem bs) c
  rw [UInt8.ofNat_toNat] at this
  exact this hc

/-- The bytes can be read from what is shown. -/
theorem C117_repr {a b : Bytes} (h : bytesRepr a = bytesRepr b) : a = b := by
  unfold bytesRepr at h
  replace h := List.cons.inj (List.cons.inj h).2
  obtain ⟨hq, h⟩ := h
  rw [hq] at h
  replace h := List.append_cancel_right h
  have hm := bytesQuote_mem b
  generalize bytesQuote b = q at h hm
  clear hq
  induction a generalizing b with
  | nil =>
    cases b with
    | nil => rfl
    | cons y b =>
      have h1 := (byteRepr_form hm y).1
      rw [List.flatMap_nil, List.flatMap_cons] at h
      have : byteRepr q y = [] := (List.append_eq_nil_iff.mp h.symm).1
      rw [this] at h1
      cases h1
  | cons x a ih =>
    cases b with
    | nil =>
      have h1 := (byteRepr_form hm x).1
      rw [List.flatMap_nil, List.flatMap_cons] at h
      have : byteRepr q x = [] := (List.append_eq_nil_iff.mp h).1
      rw [this] at h1
      cases h1
    | cons y b =>
      rw [List.flatMap_cons, List.flatMap_cons] at h
      obtain ⟨h1, h2⟩ := form_split (byteRepr_form hm x).1 (byteRepr_form hm y).1 h
      have h3 := (byteRepr_form hm x).2
      rw [h1, (byteRepr_form hm y).2] at h3
      rw [UInt8.toNat_inj.mp h3.symm, ih h2]

/-- The message as it is shown, if neither the path nor the magic looks like markup. -/
theorem C117_shown_partial (norm : Str → Str) (fn : Str) (p : ElfProblem) (hf : NoMarkup fn) (hp : ∀ b, p = .magic b → '[' ∉ bytesRepr b) :
    renderE norm (badElfText fn p) = some (badElfText fn p) := by
  have key : ∀ t, '[' ∉ t → renderE norm (str "cannot parse ELF file " ++ (fn ++ ':' :: t)) = some (str "cannot parse ELF file " ++ (fn ++ ':' :: t)) := by
    intro t ht
    refine renderE_of (o := []) ?_ ?_
    · rw [tags_lit (by decide), tags_noMarkup hf (by decide) (by decide) (by decide), tags_noBracket ht]
    · rw [render_lit (by decide), render_noMarkup hf (by decide) (by decide) (by decide), C64_verbatim_partial t ht]
  have e : badElfText fn p = str "cannot parse ELF file " ++ (fn ++ ':' :: (' ' :: p.text)) := by simp [badElfText, str]
  rw [e]
  apply key
  have hnum : ∀ (s : Str) (n : Int), '[' ∉ s → '[' ∉ s ++ intStr n := fun s n hs h => by
    rcases List.mem_append.mp h with h | h
    · exact hs h
    · exact (intStr_neutral n _ h).1 rfl
  cases p with
  | magic b =>
    intro h
    rcases List.mem_append.mp (show '[' ∈ (' ' :: str "invalid ELF magic ") ++ bytesRepr b from h) with h | h
    · revert h; decide
    · exact hp b rfl h
  | data b => exact hnum (' ' :: str "invalid ELF data ") _ (by decide)
  | cls b => exact hnum (' ' :: str "invalid ELF class ") _ (by decide)
  | short off => exact hnum (' ' :: str "error while reading ELF file at offset ") _ (by decide)

/-- Code violates the property: a file that begins with `[/a]`, as a text may, stops the run with another exception when the message is printed. -/
theorem C117_magic_raises (norm : Str → Str) : ∃ file p, elfProblem 8 file = some p ∧ renderE norm (badElfText (str "/b/a.elf") p) = none := by
  refine ⟨[91, 47, 97, 93] ++ List.replicate 12 0, .magic [91, 47, 97, 93], by decide +kernel, ?_⟩
  rw [show badElfText (str "/b/a.elf") (.magic [91, 47, 97, 93]) = str "cannot parse ELF file /b/a.elf: invalid ELF magic b'" ++ '[' :: (str "/a]" ++ str "'") by decide +kernel]
  unfold renderE
  rw [tags_lit (by decide +kernel), tags_tag _ _ (show tagText (str "/a]" ++ str "'") = some (str "/a", str "'") from rfl)]
  rfl

/-- The offset does not tell what was to be read: a file that is too short and one without a whole header are both reported at offset 0. -/
theorem C117_same_offset : ∃ a b, ElfWrong 8 a (.short 0) ∧ ElfWrong 8 b (.short 0) ∧ a.length < 16 ∧ 16 ≤ b.length :=
  ⟨[], [0x7F, 0x45, 0x4C, 0x46, 1, 1] ++ List.replicate 12 0, .short (by decide), (C117_says _ _ _).mp (by decide +kernel), by decide, by decide⟩

example : (ElfProblem.magic [0x7F, 0x45, 0x4C, 0x27]).text = str "invalid ELF magic b\"\\x7fEL'\"" := by decide +kernel
example : bytesRepr [0x22, 0x27, 0x5C, 0x0A] = str "b'\"\\'\\\\\\n'" := by decide +kernel
example : elfProblem 8 ([0x7F, 0x45, 0x4C, 0x46, 1, 3] ++ List.replicate 10 0) = some (.data 3) := by decide +kernel
example : elfProblem 8 ([0x7F, 0x45, 0x4C, 0x46, 9, 1] ++ List.replicate 10 0) = some (.cls 9) := by decide +kernel
-- 5 section headers of 40 bytes at 0x200, in a file of 80 bytes
example : elfProblem 8 ([0x7F, 0x45, 0x4C, 0x46, 1, 1] ++ List.replicate 26 0 ++ [0, 2, 0, 0] ++ List.replicate 10 0 ++ [40, 0, 5, 0] ++ List.replicate 30 0) = some (.short 0x200) := by
  decide +kernel

end EspSize
