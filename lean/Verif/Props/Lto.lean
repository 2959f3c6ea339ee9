import Verif.Proofs.Lto
import Verif.Props.TableRun
/-! # C82: the inputs of `get`, and LTO projects -/
namespace EspSize

theorem owns_of {build : Str} {comps : List Comp} {syms : Dict Int CuSym} {cs : List (Str × Str)}
    (h : sortedComponents build comps = .ok cs) (hd : DirsApart comps syms) :
    Owns build comps syms fun cu => (findComponent cs (asPosix cu)).map (·.2) :=
  fun p hp cu hcu => C57_component_partial build comps cs h cu fun c hc hf => hd c hc hf p hp cu hcu

theorem at_join {dir x : Str} (hd : DirPath dir) : PathAt dir x (pathJoin dir x) := by
  by_cases h : ['/'] <+: x
  · refine .inl ⟨h, ?_⟩
    unfold pathJoin
    rw [if_pos (startsWith_iff.mpr h)]
  · exact .inr ⟨h, join_of hd h⟩

theorem at_unique {dir x p q : Str} (h : PathAt dir x p) (h' : PathAt dir x q) : p = q := by
  rcases h with ⟨a, rfl⟩ | ⟨a, rfl⟩ <;> rcases h' with ⟨b, rfl⟩ | ⟨b, rfl⟩
  · rfl
  · exact absurd a b
  · exact absurd b a
  · rfl

theorem usesDesc_of {w : World} {dir base : Str} (hd : DirPath dir) (hb : '/' ∉ base) :
    UsesDesc w dir base (getProjDesc w (dir ++ '/' :: base)) := by
  cases h : getProjDesc w (dir ++ '/' :: base) with
  | some d => exact (getProjDesc_of hd hb d).mp h
  | none =>
    intro d h1 h2
    rw [(getProjDesc_of hd hb d).mpr ⟨h1, h2⟩] at h
    cases h

theorem loadElf_none {r : Except Err ElfData} (h : loadElf r = .ok none) :
    ∃ x ∈ [Err.osError, Err.valueError, Err.elf], r = .error x := by
  unfold loadElf at h
  split at h
  · cases h
  · exact ⟨_, by simp, rfl⟩
  · exact ⟨_, by simp, rfl⟩
  · exact ⟨_, by simp, rfl⟩
  · cases h

theorem loadElf_some {r : Except Err ElfData} {e : ElfData} (h : loadElf r = .ok (some e)) : r = .ok e := by
  unfold loadElf at h
  split at h
  · cases h; rfl
  all_goals cases h

theorem usesElf_of {w : World} {dir base : Str} (hd : DirPath dir) (hb : '/' ∉ base) {elf : Option ElfData}
    (h : getElf w (dir ++ '/' :: base) (getProjDesc w (dir ++ '/' :: base)) = .ok elf) :
    UsesElf w dir (getProjDesc w (dir ++ '/' :: base)) elf := by
  unfold getElf at h
  cases hp : getProjDesc w (dir ++ '/' :: base) with
  | none =>
    rw [hp] at h
    cases h
    exact .inl rfl
  | some d =>
    rw [hp] at h
    have : (match (some d : Option ProjDesc) with
        | some d => if d.nonempty = true then some d else some d
        | none => some d) = some d := by simp
    simp only [ite_self] at h
    obtain ⟨app, ha, h⟩ := bind_ok h
    have ha' : d.appElf = some app := by
      cases hx : d.appElf with
      | none => rw [hx] at ha; cases ha
      | some y => rw [hx] at ha; cases ha; rfl
    rw [dirname_of hd hb] at h
    cases hw : w.elf (pathJoin dir app) with
    | none =>
      rw [hw] at h
      cases h
      exact .inr ⟨d, app, _, rfl, ha', at_join hd, .inl hw⟩
    | some r =>
      rw [hw] at h
      simp only [] at h
      cases elf with
      | none =>
        obtain ⟨x, hx, rfl⟩ := loadElf_none h
        exact .inr ⟨d, app, _, rfl, ha', at_join hd, .inr ⟨x, hx, hw⟩⟩
      | some e =>
        rw [loadElf_some h] at hw
        exact ⟨d, app, _, rfl, ha', at_join hd, hw⟩

theorem wantDwarf_iff {w : World} {dir base : Str} (hd : DirPath dir) (hb : '/' ∉ base) {ud : Option Bool} :
    wantDwarf w (dir ++ '/' :: base) ud = true ↔ WantsDwarf w dir ud := by
  unfold wantDwarf WantsDwarf
  cases ud with
  | some b => cases b <;> simp
  | none =>
    have hd' : DirPath (dir ++ '/' :: str "config") := by
      refine ⟨by simp, ?_⟩
      rintro ⟨t, h⟩
      have := congrArg List.getLast? h
      simp [str] at this
    simp only [dirname_of hd hb, join_of hd (show ¬ ['/'] <+: str "config" by decide),
      join_of hd' (show ¬ ['/'] <+: str "sdkconfig.json" by decide)]
    have e : dir ++ '/' :: str "config" ++ '/' :: str "sdkconfig.json" = dir ++ str "/config/sdkconfig.json" := by
      simp [str]
    rw [e]
    cases w.sdkconfig (dir ++ str "/config/sdkconfig.json") with
    | none => simp
    | some b => cases b <;> simp

/-- **C82** what `get` reads, and which bytes of LTO projects count for which archive. -/
theorem C82_load (w : World) (dir base : Str) (hd : DirPath dir) (hb : '/' ∉ base) (ud : Option Bool) (given : Option MapFile)
    (l : GetIn) (h : load w (dir ++ '/' :: base) ud given = .ok l) :
    ∃ f desc, LoadedFrom w dir base ud given f desc l := by
  obtain ⟨t, f, elf, ss, h1, h2, _, h4, h5, h6, h7, h8⟩ := load_ok h
  have hw := wantDwarf_iff hd hb (w := w) (ud := ud)
  have he : l.elf = elf := by rw [h8]
  have hs : l.sections = ss := by rw [h8]
  obtain ⟨e1, e2⟩ := pickTarget_ok h6
  refine ⟨f, getProjDesc w (dir ++ '/' :: base), h2, usesDesc_of hd hb, ?_, by rw [h8], ⟨?_, e2⟩, ?_, ?_, ?_⟩
  · rw [he]; exact usesElf_of hd hb h4
  · rw [e1]; exact chosen_of hd hb h1
  · unfold getMemoryTypes at h7
    split at h7
    · cases h7
    · cases h7
    · exact h7
  · intro hn
    rw [hs]
    unfold dwarfSections at h5
    split at h5
    · rename_i hwd
      cases hdesc : getProjDesc w (dir ++ '/' :: base) with
      | none => rw [hdesc] at h5; cases h5; rfl
      | some d =>
        cases elf with
        | none => rw [hdesc] at h5; cases h5; rfl
        | some e => exact absurd ⟨hw.mp hwd, by rw [hdesc]; rfl, by rw [he]; rfl⟩ hn
    · cases h5; rfl
  · intro hwd d e hdesc helf
    rw [he] at helf
    subst helf
    unfold dwarfSections at h5
    rw [if_pos (hw.mpr hwd), hdesc] at h5
    simp only [] at h5
    obtain ⟨syms, hsy, h5⟩ := bind_ok h5
    obtain ⟨comps, hco, h5⟩ := bind_ok h5
    obtain ⟨build, hbu, h5⟩ := bind_ok h5
    have gk : ∀ {α : Type} {x : Option α} {y : α}, getKey x = .ok y → x = some y := by
      intro α x y hx
      cases x with
      | none => cases hx
      | some z => cases hx; rfl
    unfold expandInputSections at h5
    simp only [] at h5
    obtain ⟨xs, hxs, h5⟩ := bind_ok h5
    cases h5
    have hcs : ∃ cs, sortedComponents build comps = .ok cs := by
      unfold expandSymbols at hxs
      obtain ⟨cs, hc, _⟩ := bind_ok hxs
      exact ⟨cs, hc⟩
    obtain ⟨cs, hcs⟩ := hcs
    refine ⟨syms, build, comps, hsy, gk hbu, gk hco, fun cu => (findComponent cs (asPosix cu)).map (·.2), owns_of hcs, fun hdis => ?_⟩
    obtain ⟨cs', hcs', hx⟩ := expandSymbols_owned hxs hdis.address
    rw [hcs] at hcs'
    cases hcs'
    rw [hs]
    generalize f.sections.map toOSec = os
    clear h5 hs
    induction os with
    | nil => trivial
    | cons o os ih => exact ⟨expand_attributed hdis hx o, ih⟩

open Classical in
/-- The output sections of the map file that count. -/
noncomputable def keptIn (f : MapFile) (elf : Option ElfData) : List OSec :=
  (f.sections.map toOSec).filter fun s => decide (Kept (elf.map ElfData.shdrs) s)

theorem attributed_kept {owner : Str → Option Str} {syms : Dict Int CuSym} {elf : Option (List Shdr)} {o o' : OSec}
    (h : AttributedTo owner syms o o') : Kept elf o' ↔ Kept elf o := by
  unfold Kept
  rw [h.1, h.2.2.1]

theorem attributed_sum {owner : Str → Option Str} {syms : Dict Int CuSym} {elf : Option (List Shdr)} (P : Str → Str → Str → Bool)
    {a b : List OSec} (h : All2 (AttributedTo owner syms) a b)
    (ha : ∀ o ∈ a, ∀ i ∈ o.inputs, i.archive = str "(exe)" → Attributable owner syms i) (dec : ∀ o, Decidable (Kept elf o)) :
    sumBy (inputSum P ISec.size) (b.filter fun s => decide (Kept elf s)) =
      sumBy (fun o => sumBy (ltoBytes owner syms P) o.inputs) (a.filter fun s => decide (Kept elf s)) := by
  induction a generalizing b with
  | nil =>
    cases b with
    | nil => rfl
    | cons y b => cases h
  | cons x a ih =>
    cases b with
    | nil => cases h
    | cons y b =>
      rw [List.filter_cons, List.filter_cons]
      have hk := attributed_kept (elf := elf) h.1
      have hs := ih h.2 fun o ho => ha o (by simp [ho])
      by_cases hx : Kept elf x
      · rw [if_pos (by simpa using hk.mpr hx), if_pos (by simpa using hx)]
        simp only [sumBy]
        rw [hs, h.1.2.2.2 (ha x (by simp)) P]
      · rw [if_neg (by simpa using fun h => hx (hk.mp h)), if_neg (by simpa using hx)]
        exact hs

/-- **C82** the report of archives or files of an LTO project: the total column together with the parts that belong to no
memory type makes up the bytes of the link map file, those without archive attributed by compilation units. -/
theorem C82_lto_partial (R : RunIn) (args : Args) (dir base : Str) {f : MapFile} {d : ProjDesc} {e : ElfData} {l : GetIn}
    (hl : LoadedFrom R.w dir base (useDwarfOf args) none f (some d) l) (hw : WantsDwarf R.w dir (useDwarfOf args)) (he : l.elf = some e)
    {parts : List MSec} {goes : MSec → Option (Str × Str)} (h : CutInto R args l parts goes) :
    ∃ syms build comps owner, e.cuSyms = .ok syms ∧ d.build = some build ∧ d.comps = some comps ∧
      (DirsApart comps syms → Owns build comps syms owner) ∧
      (SymsDisjoint owner syms →
        (∀ o ∈ f.sections.map toOSec, ∀ i ∈ o.inputs, i.archive = str "(exe)" → Attributable owner syms i) →
        ∀ P : Str → Str → Bool, filesIn args.unify goes parts P .total + partsFiles P (lostParts goes parts) =
          sumBy (fun o => sumBy (ltoBytes owner syms fun a o _ => P a o) o.inputs) (keptIn f l.elf)) := by
  obtain ⟨syms, build, comps, h1, h2, h3, owner, h4, h5⟩ := hl.lto hw d e rfl he
  refine ⟨syms, build, comps, owner, h1, h2, h3, h4, fun hdis ha P => ?_⟩
  rw [C81_accounted R args h P]
  exact attributed_sum _ (h5 hdis) ha _

/-- Two file systems agree about the files of the map file `dir/base`. -/
structure SameFiles (w w' : World) (dir base : Str) : Prop where
  lines : w.lines (dir ++ '/' :: base) = w'.lines (dir ++ '/' :: base)
  json : w.json (dir ++ str "/project_description.json") = w'.json (dir ++ str "/project_description.json")
  sdkconfig : w.sdkconfig (dir ++ str "/config/sdkconfig.json") = w'.sdkconfig (dir ++ str "/config/sdkconfig.json")
  elf : ∀ d app p, w.json (dir ++ str "/project_description.json") = some d → Belongs base d → d.appElf = some app → PathAt dir app p →
    w.elf p = w'.elf p
  chip : ∀ t, w.chip t = w'.chip t

theorem getProjDesc_same {w w' : World} {dir base : Str} (hd : DirPath dir) (hb : '/' ∉ base) (h : SameFiles w w' dir base) :
    getProjDesc w (dir ++ '/' :: base) = getProjDesc w' (dir ++ '/' :: base) := by
  unfold getProjDesc
  rw [dirname_of hd hb, join_of hd (show ¬ ['/'] <+: str "project_description.json" by decide)]
  have := h.json
  rw [show dir ++ '/' :: str "project_description.json" = dir ++ str "/project_description.json" by simp [str], this]

theorem getElf_same {w w' : World} {dir base : Str} (hd : DirPath dir) (hb : '/' ∉ base) (h : SameFiles w w' dir base)
    (desc : Option ProjDesc) (hdesc : desc = none ∨ desc = getProjDesc w (dir ++ '/' :: base)) :
    getElf w (dir ++ '/' :: base) desc = getElf w' (dir ++ '/' :: base) desc := by
  have hp := getProjDesc_same hd hb h
  have key : ∀ D : Option ProjDesc, D = getProjDesc w (dir ++ '/' :: base) →
      (match D with
        | none => (.ok none : Except Err (Option ElfData))
        | some d => do
          let app ← getKey d.appElf
          match w.elf (pathJoin (dirname (dir ++ '/' :: base)) app) with
          | none => .ok none
          | some r => loadElf r) =
      (match D with
        | none => (.ok none : Except Err (Option ElfData))
        | some d => do
          let app ← getKey d.appElf
          match w'.elf (pathJoin (dirname (dir ++ '/' :: base)) app) with
          | none => .ok none
          | some r => loadElf r) := by
    intro D hD
    cases D with
    | none => rfl
    | some d =>
      obtain ⟨h1, h2⟩ := (getProjDesc_of hd hb d).mp hD.symm
      simp only []
      cases ha : d.appElf with
      | none => rfl
      | some app =>
        rw [dirname_of hd hb]
        simp only [getKey, bind, Except.bind]
        rw [h.elf d app _ h1 h2 ha (at_join hd)]
  unfold getElf
  rw [← hp]
  simp only []
  apply key
  rcases hdesc with rfl | rfl
  · rfl
  · cases getProjDesc w (dir ++ '/' :: base) with
    | none => rfl
    | some d => simp

theorem loadMap_same {w w' : World} {dir base : Str} (h : SameFiles w w' dir base) :
    loadMap w (dir ++ '/' :: base) = loadMap w' (dir ++ '/' :: base) := by
  unfold loadMap
  rw [h.lines]

/-- Nothing else is read. -/
theorem load_same {w w' : World} {dir base : Str} (hd : DirPath dir) (hb : '/' ∉ base) (h : SameFiles w w' dir base)
    (ud : Option Bool) (given : Option MapFile) :
    load w (dir ++ '/' :: base) ud given = load w' (dir ++ '/' :: base) ud given := by
  have hw : wantDwarf w (dir ++ '/' :: base) ud = wantDwarf w' (dir ++ '/' :: base) ud := by
    rw [Bool.eq_iff_iff, wantDwarf_iff hd hb, wantDwarf_iff hd hb]
    unfold WantsDwarf
    rw [h.sdkconfig]
  have hu : useMap w (dir ++ '/' :: base) given = useMap w' (dir ++ '/' :: base) given := by
    unfold useMap
    rw [loadMap_same h]
  have hm : getMemoryTypes w = getMemoryTypes w' := by
    funext t
    unfold getMemoryTypes
    rw [h.chip]
  unfold load
  rw [hu, hw, hm, ← getProjDesc_same hd hb h]
  simp only []
  rw [getElf_same hd hb h _ (.inr rfl)]

/-- **C82** a run reads no file but those of the projects: the link map file, the project description and the configuration
at fixed places beside it, the ELF file named by the description, if it belongs to the map file, and the chip table. -/
theorem C82_frame (R R' : RunIn) (w' : World) (hR : R' = { R with w := w' }) (dir base dir' base' : Str) (hd : DirPath dir)
    (hb : '/' ∉ base) (hd' : DirPath dir') (hb' : '/' ∉ base') (args : Args)
    (hdiff : args.diff = none ∨ args.diff = some [] ∨ args.diff = some (dir' ++ '/' :: base'))
    (h : SameFiles R.w w' dir base) (h' : truthy args.diff = true → SameFiles R.w w' dir' base') :
    makeReport R (dir ++ '/' :: base) args = makeReport R' (dir ++ '/' :: base) args := by
  subst hR
  unfold makeReport
  simp only []
  have e1 := loadMap_same h
  have e2 := getElf_same hd hb h none (.inl rfl)
  have e3 : ∀ ls ud g e, getMap R.n R.w (dir ++ '/' :: base) ls ud g e = getMap R.n w' (dir ++ '/' :: base) ls ud g e := by
    intro ls ud g e
    unfold getMap
    rw [load_same hd hb h]
  have e4 : ∀ m ls ud, referenceMap (effectiveArgs args) m (fun fn => getMap R.n R.w fn ls ud none none) =
      referenceMap (effectiveArgs args) m (fun fn => getMap R.n w' fn ls ud none none) := by
    intro m ls ud
    have hx : (effectiveArgs args).diff = none ∨ (effectiveArgs args).diff = args.diff := by
      unfold effectiveArgs
      by_cases h1 : (args.noAbbrev && args.unify) = true
      · simp only [h1, if_true]
        by_cases h2 : (args.archiveDependencies && truthy args.diff) = true
        · simp [h2]
        · simp only [h2]; exact .inr rfl
      · rw [if_neg h1]
        by_cases h2 : (args.archiveDependencies && truthy args.diff) = true
        · simp [h2]
        · simp only [h2]; exact .inr rfl
    unfold referenceMap
    rcases hx with hx | hx <;> rw [hx]
    rcases hdiff with hdf | hdf | hdf <;> rw [hdf]
    have hne : dir' ++ '/' :: base' ≠ [] := by simp
    have hs := h' (by rw [hdf]; exact truthy_some hne)
    have : getMap R.n R.w (dir' ++ '/' :: base') ls ud none none = getMap R.n w' (dir' ++ '/' :: base') ls ud none none := by
      unfold getMap
      rw [load_same hd' hb' hs]
    cases hdb : dir' ++ '/' :: base' with
    | nil => exact absurd hdb hne
    | cons c t => rw [hdb] at this; exact this
  rw [e1, e2]
  simp only [e3, e4]
  rfl

/-! ### Examples -/

/-- Lines of a link map file with an object file made by link-time optimisation. -/
def exLtoLines : List Str :=
  [str "Memory Configuration", str "Name Origin Length", str "iram0_0_seg 0x100 0x100 xr", str "Linker script and memory map",
   str " IDF_TARGET_ESPX = 0x0", str ".iram0.text     0x100     0x20", str " .text   0x100   0x18   x.ltrans0.ltrans.o",
   str " .text.b   0x118   0x8   lib/libb.a(b.o)", []]

def exLtoSym (n : String) (a s : Int) : Int × CuSym := (a, { name := str n, value := a, size := s, cuName := some (str "/c/m/m.c") })

def exLtoWorld (syms : Dict Int CuSym) : World :=
  { exLto with
    lines := fun fn => if fn = str "/b/x.map" then .ok exLtoLines else .error .osError
    json := fun p => if p = str "/b/project_description.json" then
      some ⟨some (str "x.elf"), some (str "espx"), some (str "/b"), some [⟨str "/c/m", str "/b/m/libm.a"⟩], true⟩ else none
    elf := fun p => if p = str "/b/x.elf" then
      some (.ok { shdrs := [{ name := str ".iram0.text", type := 1, size := 32, flags := 2 }], syms := [], cuSyms := .ok syms }) else none }

/-- The bytes of the symbols count for the component, the gap between them is left. -/
example : exTable (makeReport (exRun (exLtoWorld [exLtoSym "f" 0x100 8, exLtoSym "g" 0x110 8])) (str "/b/x.map") { format := str "text", archives := true }) =
    some [[str "Archive File", str "Total Size", str "IRAM", str ".text"], [str "libm.a", str "16", str "16", str "16"],
      [str "(exe)", str "8", str "8", str "8"], [str "libb.a", str "8", str "8", str "8"]] := by decide +kernel

/-- **C82** fails if something is left behind the last symbol: 16 of 32 bytes are in no archive. -/
theorem C82_lto_lost :
    exTable (makeReport (exRun (exLtoWorld [exLtoSym "f" 0x100 8])) (str "/b/x.map") { format := str "text", archives := true }) =
    some [[str "Archive File", str "Total Size", str "IRAM", str ".text"], [str "libm.a", str "8", str "8", str "8"],
      [str "libb.a", str "8", str "8", str "8"]] := by decide +kernel

def exOwner (cu : Str) : Option Str := if startsWith cu (str "/c/m") then some (str "m/libm.a") else none

/-- The conditions hold in the first example. -/
example : SymsDisjoint exOwner [exLtoSym "f" 0x100 8, exLtoSym "g" 0x110 8] ∧
    DirsApart [⟨str "/c/m", str "/b/m/libm.a"⟩] [exLtoSym "f" 0x100 8, exLtoSym "g" 0x110 8] ∧
    Attributable exOwner [exLtoSym "f" 0x100 8, exLtoSym "g" 0x110 8]
      { name := str ".text", address := 0x100, size := 0x18, fill := 0, archive := str "(exe)", objectFile := str "x.o" } := by
  refine ⟨⟨by decide, by decide, by decide, by decide⟩, ?_, ⟨by decide, by decide, ?_⟩⟩
  · intro c hc _ p hp cu hcu
    simp only [List.mem_cons, List.not_mem_nil, or_false] at hc hp
    subst hc
    unfold TellsDir
    rw [pathOf_iff, inDir_iff]
    rcases hp with rfl | rfl <;> (cases hcu; decide +kernel)
  · exact .inr (.inl ⟨((exLtoSym "g" 0x110 8).2, str "m/libm.a", str "m.c"), by decide, by decide⟩)

example : WantsDwarf (exLtoWorld []) (str "/b") none := .inr ⟨rfl, by decide⟩

/-- **C44** debug information is consulted exactly for detailed reports with `--use-dwarf` and, without an option, for
projects configured for LTO; symbols exactly for `--archive-details` and `--format raw`. -/
theorem C44_consulted (w : World) (dir : Str) (args : Args) :
    (WantsDwarf w dir (useDwarfOf (effectiveArgs args)) ↔ (args.useDwarf = some true ∧ Detailed args) ∨
      (args.useDwarf = none ∧ w.sdkconfig (dir ++ str "/config/sdkconfig.json") = some true)) ∧
    (loadSymbolsOf (effectiveArgs args) = true ↔ truthy args.archiveDetails = true ∨ args.format = str "raw") := by
  constructor
  · rw [useDwarf_eff]
    unfold WantsDwarf useDwarfOf Detailed
    rcases hu : args.useDwarf with _ | (_ | _)
    · simp
    · simp
    · cases args.archives <;> cases args.files <;> cases truthy args.archiveDetails <;> simp
  · unfold loadSymbolsOf effectiveArgs
    cases hn : args.noAbbrev <;> cases hu : args.unify <;> cases ha : args.archiveDependencies <;> cases hd : truthy args.diff <;>
      simp [ha, hd]

example : WantsDwarf (exLtoWorld []) (str "/b") (useDwarfOf (effectiveArgs { files := true, useDwarf := some true })) :=
  (C44_consulted _ _ _).1.mpr (.inl ⟨rfl, .inr (.inl rfl)⟩)

end EspSize
