import Verif.Model.Chips
import Verif.Props.GetTotals
/-! # C52: the chip tables -/
namespace EspSize

/-- The memory types that no address leads to, chip and key: their windows are those of an earlier entry. -/
def shadowedTypes : List (Str × Str) := [
  (str "esp32c5", str "CACHE_D"), (str "esp32c5", str "EXT_RAM"),
  (str "esp32c6", str "CACHE_D"),
  (str "esp32c61", str "CACHE_D"), (str "esp32c61", str "EXT_RAM"),
  (str "esp32h2", str "CACHE_D"),
  (str "esp32h4", str "EXT_RAM"),
  (str "esp32p4", str "CACHE_D_1"), (str "esp32p4", str "CACHE_D_2"),
  (str "esp32s3", str "EXT_RAM")]

/-! ### Windows -/

/-- The starts of the windows. -/
def bases (t : MemTypeInfo) : List Int := if t.secondary = 0 then [t.primary] else [t.primary, t.secondary]

theorem mem_bases {t : MemTypeInfo} {b : Int} : b ∈ bases t ↔ IsBase t b := by
  unfold bases IsBase
  split <;> simp_all

/-- Two ranges without a common address. -/
def Apart (a l b m : Int) : Prop := a + l ≤ b ∨ b + m ≤ a

instance (a l b m : Int) : Decidable (Apart a l b m) := inferInstanceAs (Decidable (_ ∨ _))

/-- The windows of two memory types have no common address. -/
def TypesApart (t u : MemTypeInfo) : Prop := ∀ a ∈ bases t, ∀ b ∈ bases u, Apart a t.length b u.length

instance (t u : MemTypeInfo) : Decidable (TypesApart t u) := inferInstanceAs (Decidable (∀ a ∈ bases t, _))

/-- The windows of one memory type are the same or have no common address. -/
def OwnApart (t : MemTypeInfo) : Prop :=
  t.secondary = 0 ∨ t.secondary = t.primary ∨ Apart t.primary t.length t.secondary t.length

instance (t : MemTypeInfo) : Decidable (OwnApart t) := inferInstanceAs (Decidable (_ ∨ _))

/-- Every window of `t` is inside a window of `u`. -/
def InsideOf (t u : MemTypeInfo) : Prop :=
  ∀ a ∈ bases t, ∃ b ∈ bases u, b ≤ a ∧ a + t.length ≤ b + u.length

instance (t u : MemTypeInfo) : Decidable (InsideOf t u) := inferInstanceAs (Decidable (∀ a ∈ bases t, _))

theorem findType_skip {k : Str} {u : MemTypeInfo} {ts : Dict Str MemTypeInfo} {x : Int}
    (h : ∀ b, IsBase u b → ¬ InWindow u b x) : findType ((k, u) :: ts) x = findType ts x := by
  have h1 := h u.primary (Or.inl rfl)
  unfold InWindow at h1
  conv => lhs; unfold findType
  rw [if_neg h1]
  split
  · rename_i h2
    exact absurd ⟨h2.2.1, h2.2.2⟩ (h u.secondary (Or.inr ⟨h2.1, rfl⟩))
  · rfl

theorem findType_here {k : Str} {t : MemTypeInfo} {ts : Dict Str MemTypeInfo} {x b : Int} (hb : IsBase t b)
    (hx : InWindow t b x) (ho : OwnApart t) : findType ((k, t) :: ts) x = some (t, b) := by
  unfold findType
  unfold InWindow at hx
  rcases hb with rfl | ⟨h0, rfl⟩
  · rw [if_pos hx]
  · rcases ho with h | h | h
    · exact absurd h h0
    · rw [← h, if_pos hx]
    · unfold Apart at h
      rw [if_neg (by omega), if_pos ⟨h0, hx.1, hx.2⟩]

/-- An address in a window that no earlier entry shares leads to that entry. -/
theorem findType_at (pre post : Dict Str MemTypeInfo) {k : Str} {t : MemTypeInfo}
    (hp : ∀ p ∈ pre, TypesApart p.2 t) (ho : OwnApart t) {x b : Int} (hb : IsBase t b) (hx : InWindow t b x) :
    findType (pre ++ (k, t) :: post) x = some (t, b) := by
  induction pre with
  | nil => exact findType_here hb hx ho
  | cons p pre ih =>
    obtain ⟨k', u⟩ := p
    have := hp (k', u) (by simp)
    rw [List.cons_append, findType_skip]
    · exact ih fun q hq => hp q (by simp [hq])
    · intro a ha hxa
      have := this a (mem_bases.mpr ha) b (mem_bases.mpr hb)
      unfold Apart at this
      unfold InWindow at hx hxa
      simp only [] at this
      omega

/-- An address in a window inside of that of an earlier entry leads to an earlier entry. -/
theorem findType_before (pre post : Dict Str MemTypeInfo) {t : MemTypeInfo} {p : Str × MemTypeInfo} (hp : p ∈ pre)
    (hi : InsideOf t p.2) {x b : Int} (hb : IsBase t b) (hx : InWindow t b x) :
    ∃ q ∈ pre, ∃ a, findType (pre ++ post) x = some (q.2, a) := by
  induction pre with
  | nil => cases hp
  | cons r pre ih =>
    obtain ⟨k', u⟩ := r
    by_cases hu : (∃ a, IsBase u a ∧ InWindow u a x)
    · refine ⟨(k', u), by simp, ?_⟩
      obtain ⟨a, ha, hxa⟩ := hu
      rw [List.cons_append]
      unfold findType
      split
      · exact ⟨_, rfl⟩
      · rename_i h1
        rcases ha with rfl | ⟨h0, rfl⟩
        · exact absurd hxa h1
        · rw [if_pos ⟨h0, hxa.1, hxa.2⟩]; exact ⟨_, rfl⟩
    · have hne : ∀ a, IsBase u a → ¬ InWindow u a x := fun a h h' => hu ⟨a, h, h'⟩
      rcases List.mem_cons.mp hp with rfl | hp'
      · obtain ⟨a, ha, h1, h2⟩ := hi b (mem_bases.mpr hb)
        refine absurd ?_ (hne a (mem_bases.mp ha))
        unfold InWindow at hx ⊢
        simp only [] at h2
        omega
      · rw [List.cons_append, findType_skip hne]
        obtain ⟨q, hq, a, e⟩ := ih hp'
        exact ⟨q, by simp [hq], a, e⟩

/-! ### The tables -/

/-- The condition of `findType_at` for all entries that are not in the list. -/
def ClearTable (bad : Str → Prop) [DecidablePred bad] : Dict Str MemTypeInfo → Dict Str MemTypeInfo → Prop
  | _, [] => True
  | pre, p :: ps => (bad p.1 ∨ ((∀ q ∈ pre, TypesApart q.2 p.2) ∧ OwnApart p.2)) ∧ ClearTable bad (pre ++ [p]) ps

instance decClear (bad : Str → Prop) [DecidablePred bad] : (pre ts : Dict Str MemTypeInfo) → Decidable (ClearTable bad pre ts)
  | _, [] => inferInstanceAs (Decidable True)
  | pre, p :: ps =>
    have := decClear bad (pre ++ [p]) ps
    inferInstanceAs (Decidable (_ ∧ _))

theorem clear_at {bad : Str → Prop} [DecidablePred bad] {pre ts : Dict Str MemTypeInfo} (h : ClearTable bad pre ts) {k : Str}
    {t : MemTypeInfo} (hk : (k, t) ∈ ts) (hb : ¬ bad k) {x b : Int} (hbase : IsBase t b) (hx : InWindow t b x) :
    findType (pre ++ ts) x = some (t, b) := by
  induction ts generalizing pre with
  | nil => cases hk
  | cons p ps ih =>
    rcases List.mem_cons.mp hk with rfl | hk
    · rcases h.1 with h1 | h1
      · exact absurd h1 hb
      · exact findType_at pre ps h1.1 h1.2 hbase hx
    · have := ih h.2 hk
      rwa [List.append_assoc] at this

/-- Every listed entry is inside of an earlier one and is different from all earlier ones. -/
def ShadowTable (bad : Str → Prop) [DecidablePred bad] : Dict Str MemTypeInfo → Dict Str MemTypeInfo → Prop
  | _, [] => True
  | pre, p :: ps => (bad p.1 → (∃ q ∈ pre, InsideOf p.2 q.2) ∧ ∀ q ∈ pre, q.2 ≠ p.2) ∧ ShadowTable bad (pre ++ [p]) ps

instance decShadow (bad : Str → Prop) [DecidablePred bad] : (pre ts : Dict Str MemTypeInfo) → Decidable (ShadowTable bad pre ts)
  | _, [] => inferInstanceAs (Decidable True)
  | pre, p :: ps =>
    have := decShadow bad (pre ++ [p]) ps
    inferInstanceAs (Decidable ((bad p.1 → _) ∧ _))

theorem shadow_never {bad : Str → Prop} [DecidablePred bad] {pre ts : Dict Str MemTypeInfo} (h : ShadowTable bad pre ts) {k : Str}
    {t : MemTypeInfo} (hk : (k, t) ∈ ts) (hb : bad k) (x a : Int) : findType (pre ++ ts) x ≠ some (t, a) := by
  induction ts generalizing pre with
  | nil => cases hk
  | cons p ps ih =>
    rcases List.mem_cons.mp hk with rfl | hk
    · obtain ⟨⟨q, hq, hi⟩, hne⟩ := h.1 hb
      intro hf
      obtain ⟨k', _, h2, h3⟩ := findType_some hf
      obtain ⟨r, hr, a', e⟩ := findType_before pre ((k, t) :: ps) hq hi h2 h3
      rw [hf] at e
      cases e
      exact hne r hr rfl
    · have := ih h.2 hk
      rwa [List.append_assoc] at this

/-- The entry `k` of the chip `c` is in the list. -/
def Shadowed (c k : Str) : Prop := (c, k) ∈ shadowedTypes

instance (c : Str) : DecidablePred (Shadowed c) := fun k => inferInstanceAs (Decidable ((c, k) ∈ shadowedTypes))

theorem tables_clear : ∀ p ∈ chipTables, ClearTable (Shadowed p.1) [] (memoryTypes p.2) := by decide +kernel

theorem tables_shadow : ∀ p ∈ chipTables, ShadowTable (Shadowed p.1) [] (memoryTypes p.2) := by decide +kernel

/-- **C52** every chip table: distinct keys, distinct names, positive lengths and start addresses, a second
window that is the first one or has no address in common with it. -/
theorem C52_tables : KeysNodup chipTables ∧ ∀ c table, (c, table) ∈ chipTables →
    KeysNodup (memoryTypes table) ∧ ((memoryTypes table).map fun p => p.2.name).Nodup ∧
    ∀ k t, (k, t) ∈ memoryTypes table → 0 < t.length ∧ 0 < t.primary ∧ 0 ≤ t.secondary ∧ OwnApart t := by
  have h : KeysNodup chipTables ∧ ∀ p ∈ chipTables,
      KeysNodup (memoryTypes p.2) ∧ ((memoryTypes p.2).map fun p => p.2.name).Nodup ∧
      ∀ q ∈ memoryTypes p.2, 0 < q.2.length ∧ 0 < q.2.primary ∧ 0 ≤ q.2.secondary ∧ OwnApart q.2 := by
    unfold KeysNodup
    decide +kernel
  exact ⟨h.1, fun c t hc => ⟨(h.2 (c, t) hc).1, (h.2 (c, t) hc).2.1, fun k i hk => (h.2 (c, t) hc).2.2 (k, i) hk⟩⟩

/-- **C52** on every chip, an address in a window of a memory type leads to this memory type and this window,
so every address has at most one memory type.

Partial: not for the ten entries of `shadowedTypes`, see `C52_shadowed`. -/
theorem C52_found_partial (c : Str) (table : Dict Str ChipEntry) (hc : (c, table) ∈ chipTables) (k : Str) (t : MemTypeInfo)
    (hk : (k, t) ∈ memoryTypes table) (hs : ¬ Shadowed c k) (b x : Int) (hb : IsBase t b) (hx : InWindow t b x) :
    findType (memoryTypes table) x = some (t, b) :=
  clear_at (pre := []) (tables_clear _ hc) hk hs hb hx

/-- The windows of two memory types of a chip have no address in common. -/
theorem C52_unique_partial (c : Str) (table : Dict Str ChipEntry) (hc : (c, table) ∈ chipTables) (k k' : Str) (t t' : MemTypeInfo)
    (hk : (k, t) ∈ memoryTypes table) (hk' : (k', t') ∈ memoryTypes table) (hs : ¬ Shadowed c k) (hs' : ¬ Shadowed c k')
    (b b' x : Int) (hb : IsBase t b) (hx : InWindow t b x) (hb' : IsBase t' b') (hx' : InWindow t' b' x) : t = t' ∧ b = b' := by
  have h := C52_found_partial c table hc k t hk hs b x hb hx
  rw [C52_found_partial c table hc k' t' hk' hs' b' x hb' hx'] at h
  cases h
  exact ⟨rfl, rfl⟩

/-- Against C52: ten memory types of seven chips are found for no address. -/
theorem C52_shadowed (c : Str) (table : Dict Str ChipEntry) (hc : (c, table) ∈ chipTables) (k : Str) (t : MemTypeInfo)
    (hk : (k, t) ∈ memoryTypes table) (hs : Shadowed c k) (x a : Int) : findType (memoryTypes table) x ≠ some (t, a) :=
  shadow_never (pre := []) (tables_shadow _ hc) hk hs x a

/-- The list is not longer than needed: every pair is an entry of a table. -/
theorem C52_listed : ∀ p ∈ shadowedTypes, ∃ q ∈ chipTables, q.1 = p.1 ∧ p.2 ∈ dkeys (memoryTypes q.2) := by decide +kernel

/-! ### The consequence for the memory map -/

theorem name_unique {ts : Dict Str MemTypeInfo} (h : (ts.map fun p => p.2.name).Nodup) {k k' : Str} {t t' : MemTypeInfo}
    (hk : (k, t) ∈ ts) (hk' : (k', t') ∈ ts) (e : t.name = t'.name) : t = t' := by
  induction ts with
  | nil => cases hk
  | cons p ps ih =>
    rw [List.map_cons, List.nodup_cons] at h
    rcases List.mem_cons.mp hk with rfl | hk1 <;> rcases List.mem_cons.mp hk' with h2 | hk2
    · cases h2; rfl
    · exact absurd (List.mem_map.mpr ⟨_, hk2, e.symm⟩) h.1
    · cases h2; exact absurd (List.mem_map.mpr ⟨_, hk1, e⟩) h.1
    · exact ih h.2 hk1 hk2

/-- No region has a memory type of the list, whatever the memory regions of the map file are. -/
theorem C52_no_region (c : Str) (table : Dict Str ChipEntry) (hc : (c, table) ∈ chipTables) (k : Str) (t : MemTypeInfo)
    (hk : (k, t) ∈ memoryTypes table) (hs : Shadowed c k) (n : Nat) (rs : List Region) (out : List SReg) (ws : List Str)
    (h : splitMemoryRegions n (memoryTypes table) rs [] [] = some (out, ws)) : ∀ r ∈ out, r.type.name ≠ t.name := by
  have := splitRegions_types (P := fun u => (∃ k', (k', u) ∈ memoryTypes table) ∧ u ≠ t) (fun o u b hf =>
    ⟨findType_mem hf, fun e => C52_shadowed c table hc k t hk hs o b (e ▸ hf)⟩) (fun p hp => by cases hp) h
  intro r hr e
  obtain ⟨⟨k', hk'⟩, hne⟩ := this r hr
  exact hne (name_unique (C52_tables.2 c table hc).2.1 hk' hk e)

theorem firstViews_none {k : Str} {seen rs : List SReg} (h : ∀ r ∈ rs, r.type.name ≠ k) : firstViews k seen rs = [] := by
  induction rs generalizing seen with
  | nil => rfl
  | cons r rs ih =>
    unfold firstViews
    rw [if_neg (fun hh => h r (by simp) hh.1)]
    exact ih fun q hq => h q (by simp [hq])

/-- The world reads the chip tables of the package. -/
def PackageChips (w : World) : Prop := ∀ c table, (c, table) ∈ chipTables → w.chip (c ++ str ".yaml") = .ok (memoryTypes table)

/-- A memory type of the list always has size 0 in the memory map, and holds the external RAM sections at
most: `used` counts the parts that are there because of their names. -/
theorem C52_size_zero (n : Nat) (w : World) (hw : PackageChips w) (fn : Str) (ls : Bool) (ud : Option Bool) (mf : Option MapFile)
    (e : Option ElfData) (m : MemMap) (h : getMap n w fn ls ud mf e = some (.ok m))
    (table : Dict Str ChipEntry) (hc : (m.target, table) ∈ chipTables) (k : Str) (t : MemTypeInfo)
    (hk : (k, t) ∈ memoryTypes table) (hs : Shadowed m.target k) :
    ∃ mt l regs parts, getType m t.name = some mt ∧ mt.size = 0 ∧ load w fn ud mf = .ok l ∧ PartsOf n ls l regs parts ∧
      (∀ p ∈ mt.sections, ExtName p.1) ∧
      (ExtAlias (memoryTypes table) t.name →
        ∀ s ∈ parts, ExtName s.name → (dget mt.sections s.name).isSome = true) := by
  unfold getMap at h
  split at h
  · cases h
  · rename_i l hl
    obtain ⟨td, f, elf, ss, h1, h2, _, _, _, h6, h7, h8⟩ := load_ok hl
    obtain ⟨regs, ws, osecs, d, goes, hsp, hsy, hdm, ok, rfl⟩ := build_ok h
    have hty : l.types = memoryTypes table := by
      unfold getMemoryTypes at h7
      rw [hw _ _ hc] at h7
      exact (Except.ok.inj h7).symm
    rw [hty] at hsp ok
    have hno := C52_no_region _ table hc k t hk hs n _ regs ws hsp
    obtain ⟨mt, hmt⟩ := Option.isSome_iff_exists.mp (dget_isSome.mpr ((ok.keys t.name).mpr ⟨(k, t), hk, rfl⟩))
    have hgo : ∀ s key, goes s = some (t.name, key) → ExtName s.name ∧ key = s.name := by
      intro s key hg
      have hr := ok.rule s
      rw [hg] at hr
      have gen : ∀ nm y, y = some (nm, key) → nm = t.name → Goes (memoryTypes table) regs s y → ExtName s.name ∧ key = s.name := by
        intro nm y hy hnm hr
        cases hr with
        | ext _ hn => cases hy; exact ⟨hn, rfl⟩
        | inside _ h _ _ => cases hy; exact absurd hnm (hno _ h)
        | between _ _ h _ _ _ => cases hy; exact absurd hnm (hno _ h)
        | below _ _ _ h _ => cases hy; exact absurd hnm (hno _ h)
        | above _ _ _ => cases hy
        | alone _ _ _ => cases hy
      exact gen _ _ rfl rfl hr
    have ho := ok.holds _ _ hmt
    refine ⟨mt, l, regs, addArchives (splitMapSections osecs regs), hmt, ?_, hl, ⟨⟨ws, by rw [hty]; exact hsp⟩, osecs, hsy, rfl⟩, ?_, ?_⟩
    · rw [ok.size _ _ hmt, firstViews_none hno]; rfl
    · intro p hp
      obtain ⟨s, _, hg⟩ := (ho.keys p.1).mp (dget_isSome.mpr (List.mem_map_of_mem hp))
      have := hgo s p.1 hg
      rw [this.2]; exact this.1
    · intro he s hs' hn
      refine (ho.keys s.name).mpr ⟨s, hs', ?_⟩
      have hr := ok.rule s
      have gen : ∀ y, goes s = y → Goes (memoryTypes table) regs s y → y = some (t.name, s.name) := by
        intro y _ hr
        cases hr with
        | ext h _ => rw [extAlias_unique h he]
        | inside h _ _ _ => exact absurd hn (h _ he)
        | between h _ _ _ _ _ => exact absurd hn (h _ he)
        | below h _ _ _ _ => exact absurd hn (h _ he)
        | above h _ _ => exact absurd hn (h _ he)
        | alone h _ _ => exact absurd hn (h _ he)
      exact gen _ rfl hr

/-- On four chips the memory type for external RAM is in the list. -/
theorem C52_ext_ram : ∀ c ∈ [str "esp32c5", str "esp32c61", str "esp32h4", str "esp32s3"], ∃ q ∈ chipTables, q.1 = c ∧
    extRamAlias (memoryTypes q.2) = some (str "External RAM") ∧
    ∃ p ∈ memoryTypes q.2, p.2.name = str "External RAM" ∧ Shadowed c p.1 := by decide +kernel

example : findType (memoryTypes esp32s3) 0x3C000010 = some
    ({ name := str "Flash Data", primary := 0x3C000000, length := 0x2000000, secondary := 0 }, 0x3C000000) := by decide
example : findType (memoryTypes esp32) 0x400C0010 = some
    ({ name := str "RTC FAST", primary := 0x3FF80000, length := 0x2000, secondary := 0x400C0000 }, 0x400C0000) := by decide
example : dget (memoryTypes esp32c3) (str "DRAM") =
    some { name := str "DRAM", primary := 0x3FC80000, length := 0x60000, secondary := 0x40380000 } := by decide
example : (str "esp32s3", esp32s3) ∈ chipTables ∧ (str "EXT_RAM", ⟨str "External RAM", 0x3C000000, 0x2000000, 0⟩) ∈ memoryTypes esp32s3 ∧
    Shadowed (str "esp32s3") (str "EXT_RAM") := by decide

/-- The chip tables of the package. -/
def packageChip (fn : Str) : Except Err (Dict Str MemTypeInfo) :=
  match chipTables.find? fun p => p.1 ++ str ".yaml" = fn with
  | some p => .ok (memoryTypes p.2)
  | none => .error .osError

def exS3Lines : List Str :=
  [str "Memory Configuration", str "Name Origin Length", str "extern_ram_seg 0x3c000020 0x1ffffe0 rw",
   str "Linker script and memory map", str " IDF_TARGET_ESP32S3 = 0x0", str ".ext_ram.bss     0x3c000100     0x20",
   str " .bss.a   0x3c000100   0x20   lib/liba.a(a.o)", []]

def exS3World : World :=
  { json := fun _ => none, sdkconfig := fun _ => none, lines := fun _ => .ok exS3Lines, elf := fun _ => none, chip := packageChip }

theorem packageChip_ok : PackageChips exS3World := by
  have h : ∀ p ∈ chipTables, packageChip (p.1 ++ str ".yaml") = .ok (memoryTypes p.2) := by decide +kernel
  exact fun c table hc => h (c, table) hc

/-- What the example looks at. -/
def exS3View : Option (Except Err MemMap) → Option (Str × Option (Int × Int) × Option (Int × Int))
  | some (.ok m) => some (m.target, (getType m (str "External RAM")).map fun t => (t.size, t.used),
      (getType m (str "Flash Data")).map fun t => (t.size, t.used))
  | _ => none

/-- ESP32-S3 with a section in external RAM: the region is `Flash Data`, external RAM has size 0 and uses 32. -/
theorem C52_s3_run : ∃ m mt mf, getMap 3 exS3World (str "/b/x.map") false none none none = some (.ok m) ∧ m.target = str "esp32s3" ∧
    getType m (str "External RAM") = some mt ∧ mt.size = 0 ∧ mt.used = 32 ∧
    getType m (str "Flash Data") = some mf ∧ mf.size = 0x1ffffe0 ∧ mf.used = 0 := by
  have h : exS3View (getMap 3 exS3World (str "/b/x.map") false none none none) =
      some (str "esp32s3", some (0, 32), some (0x1ffffe0, 0)) := by decide +kernel
  unfold exS3View at h
  split at h
  · rename_i m hm
    simp only [Option.some.injEq, Prod.mk.injEq] at h
    obtain ⟨h1, h2, h3⟩ := h
    obtain ⟨mt, a1, a2⟩ := Option.map_eq_some_iff.mp h2
    obtain ⟨mf, b1, b2⟩ := Option.map_eq_some_iff.mp h3
    exact ⟨m, mt, mf, hm, h1, a1, congrArg Prod.fst a2, congrArg Prod.snd a2, b1, congrArg Prod.fst b2, congrArg Prod.snd b2⟩
  · cases h

end EspSize
