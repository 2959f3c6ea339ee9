import Verif.Props.Get
import Verif.Props.Summary
/-! # C58, C61: the memory map accounts for the map file -/
namespace EspSize

open Classical in
/-- The output sections that count. -/
noncomputable def keptOf (l : GetIn) : List OSec := l.sections.filter fun s => decide (Kept (l.elf.map ElfData.shdrs) s)

theorem All2.sum {α β : Type} {R : α → β → Prop} {f : α → Int} {g : β → Int} {a : List α} {b : List β} (h : All2 R a b)
    (hf : ∀ x y, R x y → f x = g y) : sumBy f a = sumBy g b := by
  induction a generalizing b with
  | nil => cases b with
    | nil => rfl
    | cons y b => exact absurd h id
  | cons x a ih => cases b with
    | nil => exact absurd h id
    | cons y b => simp only [sumBy]; rw [hf x y h.1, ih h.2]

theorem All2.mem_right {α β : Type} {R : α → β → Prop} {a : List α} {b : List β} (h : All2 R a b) {y : β} (hy : y ∈ b) :
    ∃ x ∈ a, R x y := by
  induction a generalizing b with
  | nil => cases b with
    | nil => cases hy
    | cons z b => exact absurd h id
  | cons x a ih => cases b with
    | nil => exact absurd h id
    | cons z b =>
      rcases List.mem_cons.mp hy with rfl | hy
      · exact ⟨x, by simp, h.1⟩
      · obtain ⟨x', h1, h2⟩ := ih h.2 hy
        exact ⟨x', by simp [h1], h2⟩

theorem symbolStep_same {ls : Bool} {elf : Option ElfData} {kept ws : List OSec} (h : symbolStep ls elf kept = .ok ws) :
    All2 (SymsOf fun _ _ => True) kept ws := by
  unfold symbolStep at h
  split at h
  · cases elf with
    | none =>
      obtain ⟨os, h1, h2⟩ := C56_no_elf kept
      simp only [Option.map_none] at h
      rw [h] at h1
      cases h1
      exact h2.imp fun o _ o' ho => ⟨ho.1, ho.2.imp fun i _ i' hi => ⟨hi.1, trivial⟩⟩
    | some e =>
      exact (C22_inside e.syms kept ws h).imp fun o _ o' ho => ⟨ho.1, ho.2.imp fun i _ i' hi => ⟨hi.1, trivial⟩⟩
  · cases h
    unfold emptySymbols
    exact all2_map _ _ _ fun o _ => ⟨rfl, all2_map _ _ _ fun i _ => ⟨rfl, trivial⟩⟩

theorem symsOf_size {R : ISec → List MSym → Prop} {o o' : OSec} (h : SymsOf R o o') : o'.size = o.size := by rw [h.1]
theorem symsOf_name {R : ISec → List MSym → Prop} {o o' : OSec} (h : SymsOf R o o') : o'.name = o.name := by rw [h.1]

theorem symsOf_inputSum {R : ISec → List MSym → Prop} {o o' : OSec} (h : SymsOf R o o') (P : Str → Str → Str → Bool) :
    inputSum P ISec.size o' = inputSum P ISec.size o := by
  unfold inputSum
  symm
  apply h.2.sum
  rintro i i' ⟨he, _⟩
  rw [he]

theorem inputSum_filter (P : Str → Str → Str → Bool) (s : OSec) :
    inputSum P ISec.size { s with inputs := s.inputs.filter (·.size ≠ 0) } = inputSum P ISec.size s := by
  unfold inputSum
  rw [sumBy_filter]
  apply sumBy_congr
  intro i _
  by_cases h : i.size = 0 <;> simp [h]

theorem kept_sum (l : GetIn) (f : OSec → Int)
    (hf : ∀ s : OSec, f { s with inputs := s.inputs.filter (·.size ≠ 0) } = f s) :
    sumBy f (filterMapSections l.sections (elfHeaders (l.elf.map (·.shdrs)))) = sumBy f (keptOf l) := by
  rw [C20_filter, sumBy_map]
  exact sumBy_congr fun s _ => hf s

/-- The entries of a dictionary of archives. -/
theorem orZero_arch {s : OSec} {m : MSec} (h : ArchivesOk s m) (a : Str) :
    orZero Node.size (dget m.archives a) = inputSum (fun x _ _ => decide (x = a)) ISec.size s := by
  unfold inputSum
  cases hd : dget m.archives a with
  | some ar =>
    simp only [orZero]
    rw [(h.arch a ar hd).2.2.1]
    unfold inSize
    rw [sumBy_filter]
  | none =>
    simp only [orZero]
    symm
    apply sumBy_zero
    intro i hi
    have : i.archive ≠ a := by
      intro he
      have := (h.keys a).mpr ⟨i, hi, he⟩
      rw [hd] at this
      cases this
    simp [this]

theorem entryValue_sum {goes : MSec → Option (Str × Str)} {g : Sec → Int} {v : MSec → Int} (hg : ∀ key s, g (secEntry key s) = v s)
    (ks : List Str) (hn : ks.Nodup) (sections : List MSec) (hk : ∀ s ∈ sections, ∃ x, goes s = some x ∧ x.1 ∈ ks) :
    sumBy (fun k => sumBy (entryValue goes k g) sections) ks = sumBy v sections := by
  rw [sumBy_comm]
  apply sumBy_congr
  intro s hs
  obtain ⟨x, hx, hm⟩ := hk s hs
  have : ∀ k, entryValue goes k g s = if x.1 = k then v s else 0 := by
    intro k; unfold entryValue; rw [hx]; simp only []; rw [hg]
  simp only [this]
  clear this hk
  induction ks with
  | nil => cases hm
  | cons k ks ih =>
    obtain ⟨h1, h2⟩ := List.nodup_cons.mp hn
    simp only [sumBy]
    by_cases he : x.1 = k
    · rw [if_pos he]
      have : sumBy (fun k => if x.1 = k then v s else 0) ks = 0 := by
        apply sumBy_zero
        intro k' hk'
        rw [if_neg]
        rintro rfl
        exact h1 (he ▸ hk')
      omega
    · rw [if_neg he, ih h2 (by
        rcases List.mem_cons.mp hm with h | h
        · exact absurd h he
        · exact h)]
      omega

/-- Two parts are accounted under the same key of the same memory type. -/
def Collision (goes : MSec → Option (Str × Str)) (parts : List MSec) : Prop :=
  ∃ (i j : Nat) (s s' : MSec) (x : Str × Str), i < j ∧ parts[i]? = some s ∧ parts[j]? = some s' ∧ goes s = some x ∧ goes s' = some x

/-- `regs` are the regions other than `*default*` split by memory types, `parts` the output sections that count, with symbols, split by
these regions. -/
structure PartsOf (n : Nat) (ls : Bool) (l : GetIn) (regs : List SReg) (parts : List MSec) : Prop where
  regions : ∃ ws, splitMemoryRegions n l.types (l.regions.filter fun r => r.name ≠ str "*default*") [] [] = some (regs, ws)
  sections : ∃ osecs, symbolStep ls l.elf (filterMapSections l.sections (elfHeaders (l.elf.map ElfData.shdrs))) = .ok osecs ∧
    parts = addArchives (splitMapSections osecs regs)

/-- **C58** the map returned by `get`.  All dictionaries have distinct keys, all differences are 0, and `used`
of all memory types plus the parts that fit nowhere is the total size of the output sections that count.  There is one
memory type per name in the table of the target. -/
theorem C58_accounted (n : Nat) (w : World) (fn : Str) (ls : Bool) (ud : Option Bool) (mf : Option MapFile)
    (e : Option ElfData) (m : MemMap) (h : getMap n w fn ls ud mf e = some (.ok m)) :
    ∃ l regs parts goes, load w fn ud mf = .ok l ∧ PartsOf n ls l regs parts ∧
      m.WF ∧ m.projectPath = fn ∧ m.imageSizeDiff = 0 ∧
      (∀ k mt, getType m k = some mt → mt.sizeDiff = 0 ∧ mt.usedDiff = 0) ∧
      (∀ k s x, getSec m k s = some x → x.sizeDiff = 0 ∧ ∃ p ∈ parts, x = secEntry s p ∧ goes p = some (k, s)) ∧
      (∀ s, Goes l.types regs s (goes s)) ∧
      sumBy (fun p => p.2.used) m.memoryTypes + lostSize goes parts = sumBy (fun s => s.size) (keptOf l) ∧
      (¬ Collision goes parts → (∀ s ∈ parts, goes s ≠ none) →
        ∀ a, archTotal Node.size m a = sumBy (inputSum (fun x _ _ => decide (x = a)) ISec.size) (keptOf l)) ∧
      (∀ k mt, getType m k = some mt → IsAlias l.types k ∧ Holds goes parts k mt ∧
        mt.size = sumBy (fun r => r.length) (firstViews k [] regs)) ∧
      (∀ k, IsAlias l.types k → (getType m k).isSome = true) := by
  unfold getMap at h
  split at h
  · cases h
  · rename_i l hl
    obtain ⟨regs, ws, osecs, d, goes, hs, hsy, hdm, ok, rfl⟩ := build_ok h
    have hsame := symbolStep_same hsy
    have hft := isAlias_of (splitRegions_fromTable (by intro p hp; cases hp) hs)
    have hsz : sumBy (fun s => s.size) osecs = sumBy (fun s => s.size) (keptOf l) := by
      rw [← kept_sum l (fun s => s.size) fun s => rfl]
      symm
      exact hsame.sum fun x y hxy => (symsOf_size hxy).symm
    refine ⟨l, regs, addArchives (splitMapSections osecs regs), goes, hl, ⟨⟨ws, hs⟩, osecs, hsy, rfl⟩, ?_, rfl, rfl, ?_, ?_, ok.rule, ?_, ?_,
      fun k mt hk => ⟨(ok.keys k).mp (dget_isSome.mp (by show (dget d k).isSome = true; rw [show dget d k = some mt from hk]; rfl)),
        ok.holds k mt hk, ok.size k mt hk⟩, fun k hk => dget_isSome.mpr ((ok.keys k).mpr hk)⟩
    · refine ⟨ok.nodup, ?_⟩
      intro p hp
      have hp' := dget_of_mem ok.nodup hp
      have ho := ok.holds p.1 p.2 hp'
      refine ⟨ho.nodup, ?_⟩
      intro q hq
      obtain ⟨pre, s, post, h1, _, h3, _⟩ := ho.last q.1 q.2 (dget_of_mem ho.nodup hq)
      rw [h3]
      obtain ⟨o, _, hao⟩ := (C23_archives (splitMapSections osecs regs)).mem_right (y := s) (by rw [h1]; simp)
      exact hao.wf
    · exact ok.diffs
    · intro k s x hx
      obtain ⟨mt, h1, h2⟩ := Option.bind_eq_some_iff.mp hx
      obtain ⟨pre, p, post, h3, h4, h5, _⟩ := (ok.holds k mt h1).last s x h2
      exact ⟨by rw [h5]; rfl, p, by rw [h3]; simp, h5, h4⟩
    · show sumBy (fun p => p.2.used) d + _ = _
      have e : sumBy (fun p => p.2.used) d = sumBy (fun k => sumBy (fun s => s.size)
          ((addArchives (splitMapSections osecs regs)).filter fun s => (goes s).any fun x => x.1 = k)) (dkeys d) := by
        unfold dkeys
        rw [sumBy_map]
        apply sumBy_congr
        intro p hp
        exact (ok.holds p.1 p.2 (dget_of_mem ok.nodup hp)).used
      unfold lostSize
      rw [e, sumBy_partition goes (dkeys d) ok.nodup]
      · rw [← hsz, ← C19_total osecs regs]
        unfold addArchives
        rw [sumBy_map]
      · intro s _ x hx
        exact (ok.keys _).mpr (goes_isAlias hft (key := x.2) (hx ▸ ok.rule s))
    · intro hnc hall a
      unfold archTotal
      simp only []
      have e : sumBy (fun t : Str × MType => sumBy (fun s => orZero Node.size (dget s.2.kids a)) t.2.sections) d =
          sumBy (fun k => sumBy (entryValue goes k fun s : Sec => orZero Node.size (dget s.kids a))
            (addArchives (splitMapSections osecs regs))) (dkeys d) := by
        unfold dkeys
        rw [sumBy_map]
        apply sumBy_congr
        intro p hp
        refine (ok.holds p.1 p.2 (dget_of_mem ok.nodup hp)).totals ?_ fun s : Sec => orZero Node.size (dget s.kids a)
        intro i j s s' hij hi hj key h1 h2
        exact hnc ⟨i, j, s, s', _, hij, hi, hj, h1, h2⟩
      rw [e, entryValue_sum (v := fun s : MSec => orZero Node.size (dget s.archives a)) (fun _ _ => rfl) _ ok.nodup]
      · have h1 : sumBy (fun s : MSec => orZero Node.size (dget s.archives a)) (addArchives (splitMapSections osecs regs)) =
            sumBy (inputSum (fun x _ _ => decide (x = a)) ISec.size) (splitMapSections osecs regs) := by
          symm
          exact (C23_archives (splitMapSections osecs regs)).sum fun s ms hsm => (orZero_arch hsm a).symm
        rw [h1]
        obtain ⟨parts, hp1, hp2⟩ := C19_split_sections osecs regs
        rw [hp1, sumBy_flatMap, sumBy_perm (List.reverse_perm osecs)]
        rw [sumBy_congr fun s _ => (hp2 s).sizes _]
        rw [← kept_sum l _ (inputSum_filter _)]
        symm
        exact hsame.sum fun x y hxy => (symsOf_inputSum hxy _).symm
      · intro s hs'
        cases hx : goes s with
        | none => exact absurd hx (hall s hs')
        | some x => exact ⟨x, rfl, (ok.keys _).mpr (goes_isAlias hft (key := x.2) (hx ▸ ok.rule s))⟩

/-- **C61** an entry of the archive report of the map returned by `get` shows the total size of the input
sections of the archive in the output sections that count, if no two parts share an entry and all are assigned. -/
theorem C61_archive_report_partial (n : Nat) (w : World) (fn : Str) (ls : Bool) (ud : Option Bool) (mf : Option MapFile)
    (e : Option ElfData) (m : MemMap) (h : getMap n w fn ls ud mf e = some (.ok m)) (args : Args) :
    ∃ l regs parts goes R, load w fn ud mf = .ok l ∧ PartsOf n ls l regs parts ∧ (∀ s, Goes l.types regs s (goes s)) ∧
      getArchivesSummary m args = .ok R ∧
      (¬ Collision goes parts → (∀ s ∈ parts, goes s ≠ none) → ∀ a x, dget R a = some x →
        x.size = sumBy (inputSum (fun y _ _ => decide (y = a)) ISec.size) (keptOf l)) := by
  obtain ⟨l, regs, parts, goes, h1, hp, hwf, _, _, _, _, h2, _, h3, _⟩ := C58_accounted n w fn ls ud mf e m h
  obtain ⟨E, R, hR, _, hE, _, hs, _⟩ := C11_archives_summary m hwf args
  refine ⟨l, regs, parts, goes, R, h1, hp, h2, hR, fun hc hn a x hx => ?_⟩
  rw [← h3 hc hn a]
  exact (hs a x ((hE a x).mp hx).1).1

/-! ### Example -/

def exMapLines : List Str :=
  [str "Memory Configuration", str "Name Origin Length", str "iram0_0_seg 0x100 0x100 xr", str "Linker script and memory map",
   str " IDF_TARGET_ESPX = 0x0", str ".iram0.text     0x100     0x20", str " .text.a   0x100   0x18   lib/liba.a(a.o)",
   str " .text.b   0x118   0x8   lib/libb.a(b.o)", []]

def exTypesX : Dict Str MemTypeInfo := [(str "IRAM", { name := str "IRAM", primary := 0x100, length := 0x200, secondary := 0 })]

def exWorld : World :=
  { json := fun _ => none, sdkconfig := fun _ => none
    lines := fun fn => if fn = str "/b/x.map" then .ok exMapLines else .error .osError
    elf := fun _ => none
    chip := fun fn => if fn = str "espx.yaml" then .ok exTypesX else .error .osError }

def exResult : MemMap :=
  { version := str "1.0", target := str "espx", targetDiff := [], imageSize := 32, imageSizeDiff := 0, projectPath := str "/b/x.map"
    projectPathDiff := []
    memoryTypes := [(str "IRAM", { size := 256, sizeDiff := 0, used := 32, usedDiff := 0
                                   sections := [(str ".iram0.text", { abb := str ".text", size := 32, sizeDiff := 0, kids := [
          (str "lib/liba.a", { abb := str "liba.a", size := 24, sizeDiff := 0, kids := [(str "a.o", { abb := str "a.o", size := 24, sizeDiff := 0, kids := [] })] }),
          (str "lib/libb.a", { abb := str "libb.a", size := 8, sizeDiff := 0, kids := [(str "b.o", { abb := str "b.o", size := 8, sizeDiff := 0, kids := [] })] })] })] })] }

/-- A complete run of `get`. -/
theorem exWorld_get : getMap 3 exWorld (str "/b/x.map") false none none none = some (.ok exResult) := by decide +kernel

end EspSize
