import Verif.Spec.Lazy
import Verif.Props.GetInputs
import Verif.Props.ElfView
/-! # C104: attributes of the ELF file that cannot be read -/
namespace EspSize

/-! ### Sections -/

/-- What is used of a section, named by `sn`. -/
def secNamed (sn : RawShdr → Str) (s : RawShdr) : Shdr := { name := sn s, type := s.type, flags := s.flags, size := s.size }

/-- What is used of a symbol, named by `yn`. -/
def elfSymNamed (yn : RawSym → Str) (y : RawSym) : ElfSym :=
  { name := yn y, value := y.value, size := y.size, type := y.info % 16, shndx := y.shndx }

theorem step_named {e : ElfFile} {sn : RawShdr → Str} {s : RawShdr} (h : LoadedSec s → e.shdrName s = .ok (sn s)) (d : Dict Str Shdr) :
    e.headerStep d s = .ok (if (secNamed sn s).size = 0 then d else if (secNamed sn s).flags &&& 2 = 0 then d else dset d (sn s) (secNamed sn s)) := by
  unfold ElfFile.headerStep
  have e1 : (secNamed sn s).size = s.size := rfl
  have e2 : (secNamed sn s).flags = s.flags := rfl
  rw [e1, e2]
  by_cases h0 : s.size = 0
  · rw [if_pos h0, if_pos h0]
  · rw [if_neg h0, if_neg h0]
    by_cases hf : s.flags &&& 2 = 0
    · rw [if_pos hf, if_pos hf]
    · rw [if_neg hf, if_neg hf, h ⟨h0, by
        rw [and_two_eq_zero] at hf
        simpa using hf⟩]
      rfl

theorem headers_fold {e : ElfFile} {sn : RawShdr → Str} (l : List RawShdr) (h : ∀ s ∈ l, LoadedSec s → e.shdrName s = .ok (sn s))
    (d : Dict Str Shdr) :
    l.foldlM e.headerStep d = .ok ((l.map (secNamed sn)).foldl (fun hdrs s =>
      if s.size = 0 then hdrs else if s.flags &&& 2 = 0 then hdrs else dset hdrs s.name s) d) := by
  induction l generalizing d with
  | nil => rfl
  | cons s t ih =>
    rw [List.foldlM_cons, step_named (h s (by simp)) d]
    simp only [bind, Except.bind]
    rw [ih fun y hy => h y (by simp [hy])]
    rfl

theorem headers_named {e : ElfFile} {sn : RawShdr → Str} (h : ∀ s ∈ e.shdrs, LoadedSec s → e.shdrName s = .ok (sn s)) :
    headersOf (some e) = .ok (elfHeaders (some (e.shdrs.map (secNamed sn)))) := by
  unfold headersOf
  simp only [headers_fold e.shdrs h []]
  rfl

/-! ### Symbols -/

theorem isSized_iff (y : RawSym) : ((y.type = sttFunc || y.type = sttObject) && y.size ≠ 0) = true ↔ IsSized y := by
  unfold IsSized sttFunc sttObject
  rw [sym_type]
  simp only [Bool.and_eq_true, Bool.or_eq_true, decide_eq_true_eq, ne_eq, decide_not, Bool.not_eq_true']
  constructor
  · rintro ⟨h1, h2⟩
    exact ⟨h1.symm, by simpa using h2⟩
  · rintro ⟨h1, h2⟩
    exact ⟨h1.symm, by simpa using h2⟩

theorem sweepRaw_named (yn : RawSym → Str) (l : List RawSym) : sweepSymbols (l.map (elfSymNamed yn)) = (sweepRaw l).map (elfSymNamed yn) := by
  unfold sweepSymbols sweepRaw
  rw [sortedBy_map, List.filter_map]
  congr 1
  apply List.filter_congr
  intro y _
  have h1 : (elfSymNamed yn y).type = y.type := (sym_type y).symm
  have h2 : (elfSymNamed yn y).size ≠ 0 ↔ y.size ≠ 0 := by
    show ((y.size : Int) ≠ 0) ↔ _
    omega
  rw [Bool.eq_iff_iff]
  simp only [Function.comp, Bool.and_eq_true, Bool.or_eq_true, decide_eq_true_eq, h1, h2]

theorem mem_sweepRaw {l : List RawSym} {y : RawSym} : y ∈ sweepRaw l ↔ y ∈ l ∧ IsSized y := by
  unfold sweepRaw
  rw [List.mem_filter, isSized_iff, (sortedBy_stable _ _ _).perm.mem_iff]

theorem sweep_named {e : ElfFile} {yn : RawSym → Str} (ys : List RawSym) (h : ∀ y ∈ ys, e.symName y = .ok (yn y)) (cur : Slot)
    (rest : List (Nat × ISec)) (done : List Slot) :
    sweepAt e ys cur rest done = sweep (ys.map (elfSymNamed yn)) cur rest done := by
  induction ys generalizing cur rest done with
  | nil => rfl
  | cons y t ih =>
    have ih := ih fun z hz => h z (by simp [hz])
    rw [List.map_cons, sweepAt, sweep, h y (by simp)]
    simp only [bind, Except.bind]
    have e1 : (elfSymNamed yn y).value = (y.value : Int) := rfl
    have e2 : (elfSymNamed yn y).size = (y.size : Int) := rfl
    have e3 : symName (elfSymNamed yn y) = displayName y (yn y) := by
      unfold symName displayName
      have : (elfSymNamed yn y).type = y.type := (sym_type y).symm
      rw [this]
      rfl
    rw [e1, e2, e3]
    cases advance (y.value : Int) cur rest done with
    | error x => rfl
    | ok r => simp only [ih]

theorem addSymbols_named {e : ElfFile} {yn : RawSym → Str} {l : List RawSym} (h : e.symbols = .ok l)
    (hn : ∀ y ∈ l, IsSized y → e.symName y = .ok (yn y)) (os : List OSec) :
    addSymbolsAt (some e) os = addSymbols (some (l.map (elfSymNamed yn))) os := by
  have hs : ∀ y ∈ sweepRaw l, e.symName y = .ok (yn y) := fun y hy => hn y (mem_sweepRaw.mp hy).1 (mem_sweepRaw.mp hy).2
  unfold addSymbolsAt addSymbols
  simp only [h, bind, Except.bind, sweepRaw_named]
  generalize sortedBy (fun p : Nat × ISec => p.2.address) false ((os.flatMap (·.inputs)).zipIdx.map fun p => (p.2, p.1)) = ps
  cases ps with
  | nil => rfl
  | cons p rest =>
    simp only [sweep_named _ hs]

/-! ### Units -/

/-- A symbol for the new input sections, named by `yn`. -/
def lsymNamed (yn : RawSym → Str) (y : LSym) : XSym :=
  { addr := y.addr, name := yn y.sym, value := y.sym.value, size := y.sym.size, archive := y.archive, objectFile := y.objectFile }

/-- A symbol with its unit, named by `yn`. -/
def cuNamed (yn : RawSym → Str) (p : Nat × (RawSym × Option Str)) : Int × CuSym :=
  ((p.1 : Int), { name := yn p.2.1, value := p.2.1.value, size := p.2.1.size, cuName := p.2.2 })

theorem filterMap_named {α β γ δ : Type} (f : α → β) (g : γ → δ) (p : β → Option δ) (q : α → Option γ) (h : ∀ x, p (f x) = (q x).map g) (l : List α) :
    (l.map f).filterMap p = (l.filterMap q).map g := by
  rw [List.filterMap_map, List.map_filterMap]
  congr 1
  funext x
  exact h x

theorem expandSymbols_named (yn : RawSym → Str) (build : Str) (comps : List Comp) (d : Dict Nat (RawSym × Option Str)) :
    expandSymbols build comps (d.map (cuNamed yn)) = (expandSymbolsAt build comps d).map fun l => l.map (lsymNamed yn) := by
  unfold expandSymbols expandSymbolsAt
  cases hc : sortedComponents build comps with
  | error x => rfl
  | ok cs =>
    simp only [bind, Except.bind, Except.map]
    congr 1
    rw [show (fun y : LSym => y.addr) = fun y => (lsymNamed yn y).addr from rfl, ← sortedBy_map]
    congr 1
    apply filterMap_named
    intro p
    have ec : (cuNamed yn p).2.cuName = p.2.2 := rfl
    have es : (cuNamed yn p).2.size = 0 ↔ p.2.1.size = 0 := by
      show (p.2.1.size : Int) = 0 ↔ _
      omega
    rw [ec]
    cases p.2.2 with
    | none => rfl
    | some cu =>
      simp only []
      by_cases h : p.2.1.size = 0 ∨ cu = []
      · rw [if_pos h, if_pos (by rw [es]; exact h)]
        rfl
      · rw [if_neg h, if_neg (by rw [es]; exact h), Option.map_map]
        rfl

theorem mem_expandSymbolsAt {build : Str} {comps : List Comp} {d : Dict Nat (RawSym × Option Str)} {l : List LSym}
    (h : expandSymbolsAt build comps d = .ok l) {y : LSym} (hy : y ∈ l) :
    ∃ p ∈ d, y.sym = p.2.1 ∧ ∃ cu, p.2.2 = some cu ∧ cu ≠ [] ∧ p.2.1.size ≠ 0 := by
  unfold expandSymbolsAt at h
  obtain ⟨cs, _, h⟩ := bind_ok h
  cases h
  rw [(sortedBy_stable _ _ _).perm.mem_iff, List.mem_filterMap] at hy
  obtain ⟨p, hp, hy⟩ := hy
  refine ⟨p, hp, ?_⟩
  split at hy
  · cases hy
  · rename_i cu hcu
    split at hy
    · cases hy
    · rename_i hn
      rw [not_or] at hn
      obtain ⟨c, _, rfl⟩ := Option.map_eq_some_iff.mp hy
      exact ⟨rfl, cu, hcu, hn.2, hn.1⟩

theorem expandInput_named {e : ElfFile} {yn : RawSym → Str} (ys : List LSym) (h : ∀ y ∈ ys, e.symName y.sym = .ok (yn y.sym)) (i : ISec)
    (new : List ISec) : expandInputAt e ys i new = .ok (expandInput (ys.map (lsymNamed yn)) i new) := by
  induction ys generalizing i new with
  | nil => rfl
  | cons y t ih =>
    have ih := ih fun z hz => h z (by simp [hz])
    have hx : symSectionAt e y = .ok (symSection (lsymNamed yn y)) := by
      unfold symSectionAt
      rw [h y (by simp)]
      rfl
    rw [List.map_cons, expandInputAt, expandInput, hx]
    simp only [bind, Except.bind, ih]
    have e1 : (lsymNamed yn y).addr = y.addr := rfl
    have e2 : (lsymNamed yn y).value = (y.sym.value : Int) := rfl
    have e3 : (lsymNamed yn y).size = (y.sym.size : Int) := rfl
    rw [e1, e2, e3]
    split
    · rfl
    · split
      · rfl
      · split
        · rfl
        · split <;> rfl

theorem expandSection_named {e : ElfFile} {yn : RawSym → Str} {ys : List LSym} (h : ∀ y ∈ ys, e.symName y.sym = .ok (yn y.sym)) (o : OSec) :
    expandSectionAt e ys o = .ok (expandSection (ys.map (lsymNamed yn)) o) := by
  have key : ∀ (is : List ISec) (new : List ISec), is.foldlM (fun new i =>
      if i.archive ≠ str "(exe)" then .ok (new ++ [i]) else expandInputAt e ys i new) new =
      (.ok (is.foldl (fun new i => if i.archive ≠ str "(exe)" then new ++ [i] else expandInput (ys.map (lsymNamed yn)) i new) new) : Except Err _) := by
    intro is
    induction is with
    | nil => intro new; rfl
    | cons i t ih =>
      intro new
      rw [List.foldlM_cons, List.foldl_cons, ← ih]
      by_cases hi : i.archive ≠ str "(exe)"
      · rw [if_pos hi, if_pos hi]; rfl
      · rw [if_neg hi, if_neg hi, expandInput_named ys h]; rfl
  unfold expandSectionAt expandSection
  rw [key]
  rfl

theorem dwarf_named {e : ElfFile} {units : Bool} {sn : RawShdr → Str} {yn : RawSym → Str}
    (h : units = true → ∀ d, e.addCus = .ok d → ∀ p ∈ d, ∀ cu, p.2.2 = some cu → cu ≠ [] → p.2.1.size ≠ 0 → e.symName p.2.1 = .ok (yn p.2.1))
    (desc : Option ProjDesc) (ss : List OSec) :
    dwarfSectionsAt units desc (some e) ss = dwarfSections units desc (some (e.named sn yn)) ss := by
  unfold dwarfSectionsAt dwarfSections
  cases units with
  | false => rfl
  | true =>
    simp only [if_true]
    cases desc with
    | none => rfl
    | some d =>
      simp only []
      have hcu : (e.named sn yn).cuSyms = e.addCus.map fun d => d.map (cuNamed yn) := rfl
      rw [hcu]
      cases ha : e.addCus with
      | error x => rfl
      | ok cu =>
        simp only [bind, Except.bind, Except.map]
        cases getKey d.comps with
        | error x => rfl
        | ok comps =>
          simp only []
          cases getKey d.build with
          | error x => rfl
          | ok build =>
            simp only [expandInputSections, expandSymbols_named]
            cases hx : expandSymbolsAt build comps cu with
            | error x => rfl
            | ok xs =>
              simp only [Except.map, bind, Except.bind]
              apply mapM_ok
              intro o _
              apply expandSection_named
              intro y hy
              obtain ⟨p, hp, he, c, hc, hne, hsz⟩ := mem_expandSymbolsAt hx hy
              rw [he]
              exact h rfl cu ha p hp c hc hne hsz

/-! ### The run of `get` -/

theorem load_file_named (f : ElfFile → ElfData) (r : Except Err ElfFile) : loadElf (r.map f) = (loadElfFile r).map (Option.map f) := by
  cases r with
  | ok e => rfl
  | error x => cases x <;> rfl

theorem getElf_named (w : World) (files : Str → Option (Except Err ElfFile)) (f : ElfFile → ElfData) (fn : Str) (desc : Option ProjDesc) :
    getElf { w with elf := fun p => (files p).map (Except.map f) } fn desc = (getElfFile w files fn desc).map (Option.map f) := by
  have fin : ∀ d : ProjDesc, (do
      let app ← getKey d.appElf
      match (files (pathJoin (dirname fn) app)).map (Except.map f) with
      | none => .ok none
      | some r => loadElf r : Except Err (Option ElfData)) = (do
      let app ← getKey d.appElf
      match files (pathJoin (dirname fn) app) with
      | none => .ok none
      | some r => loadElfFile r : Except Err (Option ElfFile)).map (Option.map f) := by
    intro d
    cases getKey d.appElf with
    | error x => rfl
    | ok app =>
      simp only [bind, Except.bind]
      cases files (pathJoin (dirname fn) app) with
      | none => rfl
      | some r => exact load_file_named f r
  have this : getProjDesc { w with elf := fun p => (files p).map (Except.map f) } fn = getProjDesc w fn := rfl
  unfold getElf getElfFile
  simp only [this]
  cases desc with
  | none =>
    simp only []
    cases getProjDesc w fn with
    | none => rfl
    | some d => exact fin d
  | some d =>
    simp only []
    by_cases hd : d.nonempty = true
    · rw [if_pos hd]
      exact fin d
    · rw [if_neg hd]
      cases getProjDesc w fn with
      | none => rfl
      | some d => exact fin d

/-- The loaded inputs with the names given. -/
def GetInAt.named (f : ElfFile → ElfData) (l : GetInAt) : GetIn :=
  { target := l.target, types := l.types, elf := l.elf.map f, regions := l.regions, sections := l.sections }

theorem loadAt_elf {w : World} {files : Str → Option (Except Err ElfFile)} {fn : Str} {ud : Option Bool} {mf : Option MapFile} {l : GetInAt}
    (h : loadAt w files fn ud mf = .ok l) : getElfFile w files fn (getProjDesc w fn) = .ok l.elf := by
  unfold loadAt at h
  obtain ⟨t, _, h⟩ := bind_ok h
  obtain ⟨m, _, h⟩ := bind_ok h
  obtain ⟨_, _, h⟩ := bind_ok h
  obtain ⟨e, he, h⟩ := bind_ok h
  obtain ⟨s, _, h⟩ := bind_ok h
  obtain ⟨tg, _, h⟩ := bind_ok h
  obtain ⟨ty, _, h⟩ := bind_ok h
  cases h
  exact he

/-- **C104** the names that are needed are enough.  If the names of the sections of the image can be read, and the table of
symbols and the names of the sized functions and objects if symbols are wanted, and the names of the sized symbols with
a unit if units are used, then `get` gives what it gives for a file with these names; all other names may be anything,
also unreadable. -/
theorem C104_get (n : Nat) (w : World) (files : Str → Option (Except Err ElfFile)) (fn : Str) (ls : Bool) (ud : Option Bool) (mf : Option MapFile)
    (sn : ElfFile → RawShdr → Str) (yn : ElfFile → RawSym → Str)
    (h : ∀ e, getElfFile w files fn (getProjDesc w fn) = .ok (some e) → NamesRead e ls (wantDwarf w fn ud) (sn e) (yn e)) :
    getAt n w files fn ls ud mf =
      getMap n { w with elf := fun p => (files p).map (Except.map fun e => e.named (sn e) (yn e)) } fn ls ud mf none := by
  have hload : load { w with elf := fun p => (files p).map (Except.map fun e => e.named (sn e) (yn e)) } fn ud mf =
      (loadAt w files fn ud mf).map (GetInAt.named fun e => e.named (sn e) (yn e)) := by
    unfold load loadAt
    have p0 := getElf_named w files (fun e => e.named (sn e) (yn e)) fn (getProjDesc w fn)
    have p1 : getProjDesc { w with elf := fun p => (files p).map (Except.map fun e => e.named (sn e) (yn e)) } fn = getProjDesc w fn := rfl
    have p2 : useMap { w with elf := fun p => (files p).map (Except.map fun e => e.named (sn e) (yn e)) } fn mf = useMap w fn mf := rfl
    have p3 : wantDwarf { w with elf := fun p => (files p).map (Except.map fun e => e.named (sn e) (yn e)) } fn ud = wantDwarf w fn ud := rfl
    have p4 : ∀ t, getMemoryTypes { w with elf := fun p => (files p).map (Except.map fun e => e.named (sn e) (yn e)) } t = getMemoryTypes w t := fun t => rfl
    simp only [p0, p1, p2, p3, p4]
    cases descTarget (getProjDesc w fn) with
    | error x => rfl
    | ok t =>
      simp only [bind, Except.bind]
      cases useMap w fn mf with
      | error x => rfl
      | ok m =>
        simp only []
        cases warnInvalid m with
        | error x => rfl
        | ok u =>
          simp only []
          cases he : getElfFile w files fn (getProjDesc w fn) with
          | error x => rfl
          | ok oe =>
            simp only [Except.map]
            have hd : dwarfSectionsAt (wantDwarf w fn ud) (getProjDesc w fn) oe (m.sections.map toOSec) =
                dwarfSections (wantDwarf w fn ud) (getProjDesc w fn) (oe.map fun e => e.named (sn e) (yn e)) (m.sections.map toOSec) := by
              cases oe with
              | none =>
                unfold dwarfSectionsAt dwarfSections
                cases getProjDesc w fn <;> rfl
              | some e => exact dwarf_named (h e he).cus _ _
            rw [hd]
            cases dwarfSections (wantDwarf w fn ud) (getProjDesc w fn) (oe.map fun e => e.named (sn e) (yn e)) (m.sections.map toOSec) with
            | error x => rfl
            | ok ss =>
              simp only []
              cases pickTarget t m.target with
              | error x => rfl
              | ok tg =>
                simp only []
                cases getMemoryTypes w tg with
                | error x => rfl
                | ok ty => rfl
  unfold getAt getMap
  rw [hload]
  cases hl : loadAt w files fn ud mf with
  | error x => rfl
  | ok l =>
    simp only [Except.map]
    have he := loadAt_elf hl
    unfold buildAt build GetInAt.named
    simp only []
    cases hoe : l.elf with
    | none => rfl
    | some e =>
      rw [hoe] at he
      have hn := h e he
      rw [headers_named hn.sections]
      simp only []
      have hh : elfHeaders (Option.map (·.shdrs) (Option.map (fun e => e.named (sn e) (yn e)) (some e))) =
          elfHeaders (some (e.shdrs.map (secNamed (sn e)))) := rfl
      rw [hh]
      have hs : ∀ os, symbolStepAt ls (some e) os = symbolStep ls (Option.map (fun e => e.named (sn e) (yn e)) (some e)) os := by
        intro os
        unfold symbolStepAt symbolStep
        cases ls with
        | false => rfl
        | true =>
          simp only [if_true]
          obtain ⟨t, ht, hty⟩ := hn.table rfl
          rw [addSymbols_named ht hty]
          have : (Option.map (·.syms) (Option.map (fun e => e.named (sn e) (yn e)) (some e))) = some (t.map (elfSymNamed (yn e))) := by
            simp only [Option.map_some, ElfFile.named, ht]
            rfl
          rw [this]
      simp only [hs]
      cases splitMemoryRegions n l.types (filterMemoryRegions l.regions) [] [] <;> rfl

/-! ### Exceptions -/

/-- The exceptions of `r` have the property. -/
def Only {α : Type} (P : Err → Prop) (r : Except Err α) : Prop := ∀ x, r = .error x → P x

theorem Only.ok {α : Type} {P : Err → Prop} {x : α} : Only P (.ok x : Except Err α) := by
  intro e h; cases h

theorem Only.error {α : Type} {P : Err → Prop} {e : Err} (h : P e) : Only P (.error e : Except Err α) := by
  intro e' h'; cases h'; exact h

theorem Only.bind {α β : Type} {P : Err → Prop} {x : Except Err α} {f : α → Except Err β} (hx : Only P x)
    (hf : ∀ a, x = .ok a → Only P (f a)) : Only P (x >>= f) := by
  cases x with
  | error e => intro e' h; exact hx e' (by simpa [Bind.bind, Except.bind] using h)
  | ok a => exact hf a rfl

theorem Raises.only {α : Type} {P : Err → Prop} {es : List Err} {x : Except Err α} (h : Raises es x) (hp : ∀ e ∈ es, P e) : Only P x :=
  fun e he => hp e (h e he)

theorem only_ite {α : Type} {P : Err → Prop} {c : Prop} [Decidable c] {x y : Except Err α} (hx : c → Only P x) (hy : ¬ c → Only P y) :
    Only P (if c then x else y) := by
  split
  · exact hx ‹_›
  · exact hy ‹_›

theorem only_mapM {α β : Type} {P : Err → Prop} {f : α → Except Err β} (l : List α) (h : ∀ x ∈ l, Only P (f x)) : Only P (l.mapM f) := by
  induction l with
  | nil => exact .ok
  | cons x t ih =>
    rw [List.mapM_cons]
    exact .bind (h x (by simp)) fun _ _ => .bind (ih fun y hy => h y (by simp [hy])) fun _ _ => .ok

theorem only_foldlM {α β : Type} {P : Err → Prop} {f : β → α → Except Err β} (l : List α) (h : ∀ x ∈ l, ∀ b, Only P (f b x)) (b : β) :
    Only P (l.foldlM f b) := by
  induction l generalizing b with
  | nil => exact .ok
  | cons x t ih =>
    rw [List.foldlM_cons]
    exact .bind (h x (by simp) b) fun c _ => ih (fun y hy => h y (by simp [hy])) c

theorem advance_raises (a : Int) (rest : List (Nat × ISec)) (cur : Slot) (done : List Slot) : Raises [Err.memMap] (advance a cur rest done) := by
  induction rest generalizing cur done with
  | nil =>
    unfold advance
    exact raises_ite (.error (by decide)) .ok
  | cons p rest ih =>
    obtain ⟨i, n⟩ := p
    unfold advance
    exact raises_ite (ih _ _) .ok

theorem sweepAt_only {P : Err → Prop} {e : ElfFile} (hm : P .memMap) (ys : List RawSym) (h : ∀ y ∈ ys, Only P (e.symName y)) (cur : Slot)
    (rest : List (Nat × ISec)) (done : List Slot) : Only P (sweepAt e ys cur rest done) := by
  induction ys generalizing cur rest done with
  | nil => exact .ok
  | cons y t ih =>
    have ih := ih fun z hz => h z (by simp [hz])
    unfold sweepAt
    refine .bind (h y (by simp)) fun n _ => .bind ((advance_raises _ _ _ _).only ?_) fun ⟨c, r, d⟩ _ => ?_
    · intro x hx
      simp only [List.mem_cons, List.not_mem_nil, or_false] at hx
      rw [hx]
      exact hm
    · exact only_ite (fun _ => .error hm) fun _ => only_ite (fun _ => ih _ _ _) fun _ => ih _ _ _

theorem addSymbolsAt_only {P : Err → Prop} {elf : Option ElfFile} (hm : P .memMap) (hi : P .indexError)
    (h : ∀ e, elf = some e → Only P e.symbols ∧ ∀ l, e.symbols = .ok l → ∀ y ∈ l, IsSized y → Only P (e.symName y)) (os : List OSec) :
    Only P (addSymbolsAt elf os) := by
  unfold addSymbolsAt
  cases elf with
  | none => exact .ok
  | some e =>
    obtain ⟨h1, h2⟩ := h e rfl
    refine .bind h1 fun l hl => ?_
    simp only []
    split
    · exact .error hi
    · exact .bind (sweepAt_only hm _ (fun y hy => h2 l hl y (mem_sweepRaw.mp hy).1 (mem_sweepRaw.mp hy).2) _ _ _) fun _ _ => .ok

theorem expandInputAt_only {P : Err → Prop} {e : ElfFile} (ys : List LSym) (h : ∀ y ∈ ys, Only P (e.symName y.sym)) (i : ISec) (new : List ISec) :
    Only P (expandInputAt e ys i new) := by
  induction ys generalizing i new with
  | nil => exact .ok
  | cons y t ih =>
    have ih := ih fun z hz => h z (by simp [hz])
    have hx : Only P (symSectionAt e y) := .bind (h y (by simp)) fun _ _ => .ok
    unfold expandInputAt
    refine only_ite (fun _ => ih _ _) fun _ => only_ite (fun _ => .bind hx fun _ _ => ih _ _) fun _ => only_ite (fun _ => ?_) fun _ =>
      only_ite (fun _ => .ok) fun _ => .ok
    exact .bind hx fun _ _ => ih _ _

theorem sortedComponents_raises (build : Str) (comps : List Comp) : Raises [.valueError] (sortedComponents build comps) := by
  intro x hx
  have := expand_raises (some (build, comps)) (some []) []
  refine this x ?_
  unfold expandInputSections expandSymbols
  simp only [hx]
  rfl

theorem dwarfSectionsAt_only {P : Err → Prop} {elf : Option ElfFile} {units : Bool} (hv : P .valueError) (hk : P .keyError)
    (h : units = true → ∀ e, elf = some e → Only P e.addCus ∧ ∀ d, e.addCus = .ok d → ∀ p ∈ d, ∀ cu, p.2.2 = some cu → cu ≠ [] → p.2.1.size ≠ 0 →
      Only P (e.symName p.2.1)) (desc : Option ProjDesc) (ss : List OSec) : Only P (dwarfSectionsAt units desc elf ss) := by
  have hkey : ∀ {α : Type} (o : Option α), Only P (getKey o) := by
    intro α o
    cases o with
    | none => exact .error hk
    | some x => exact .ok
  unfold dwarfSectionsAt
  refine only_ite (fun hu => ?_) fun _ => .ok
  cases desc with
  | none => exact .ok
  | some d =>
    cases elf with
    | none => exact .ok
    | some e =>
      obtain ⟨h1, h2⟩ := h hu e rfl
      refine .bind h1 fun cu hcu => .bind (hkey _) fun comps _ => .bind (hkey _) fun build _ => .bind ?_ fun xs hxs => ?_
      · unfold expandSymbolsAt
        refine .bind ((sortedComponents_raises _ _).only ?_) fun _ _ => .ok
        intro x hx
        simp only [List.mem_cons, List.not_mem_nil, or_false] at hx
        rw [hx]
        exact hv
      · apply only_mapM
        intro o _
        unfold expandSectionAt
        refine .bind (only_foldlM _ (fun i _ new => ?_) _) fun _ _ => .ok
        refine only_ite (fun _ => .ok) fun _ => expandInputAt_only _ ?_ _ _
        intro y hy
        obtain ⟨p, hp, he, c, hc, hne, hsz⟩ := mem_expandSymbolsAt hxs hy
        rw [he]
        exact h2 cu hcu p hp c hc hne hsz

/-- **C104** (`C59`) where exceptions come from.  If the link map file and the chip description fail only in the expected ways, an exception of `get`
is one of the six of `C59`, or the exception of opening an ELF file that `_load_elf_file` does not catch, or the
exception of an attribute of the ELF file that is needed: the name of a section of the image, the table of symbols, the
name of a sized function or object, the evaluation of the units, the name of a sized symbol with a unit. -/
theorem C104_errors_partial (n : Nat) (w : World) (files : Str → Option (Except Err ElfFile)) (fn : Str) (ls : Bool) (ud : Option Bool) (mf : Option MapFile)
    (hl : ∀ x, w.lines fn = .error x → x ∈ [Err.osError, .valueError]) (hc : ∀ p x, w.chip p = .error x → x ∈ [Err.osError, .valueError]) (x : Err)
    (h : getAt n w files fn ls ud mf = some (.error x)) :
    x ∈ [Err.memMap, .valueError, .typeError, .nameError, .indexError, .keyError] ∨
    (x ∉ [Err.osError, .valueError, .elf] ∧ ∃ p, files p = some (.error x)) ∨
    ∃ e, getElfFile w files fn (getProjDesc w fn) = .ok (some e) ∧ Unreadable e ls (wantDwarf w fn ud) x := by
  generalize hP : (fun x => x ∈ [Err.memMap, .valueError, .typeError, .nameError, .indexError, .keyError] ∨
    (x ∉ [Err.osError, .valueError, .elf] ∧ ∃ p, files p = some (.error x)) ∨
    ∃ e, getElfFile w files fn (getProjDesc w fn) = .ok (some e) ∧ Unreadable e ls (wantDwarf w fn ud) x) = P
  have hin : ∀ y, y ∈ getErrs → P y := by
    intro y hy
    rw [← hP]
    exact .inl hy
  have hun : ∀ e y, getElfFile w files fn (getProjDesc w fn) = .ok (some e) → Unreadable e ls (wantDwarf w fn ud) y → P y := by
    intro e y he hy
    rw [← hP]
    exact .inr (.inr ⟨e, he, hy⟩)
  have hload : Only P (loadAt w files fn ud mf) := by
    unfold loadAt
    simp only []
    refine .bind ?_ fun t _ => .bind ((useMap_raises w fn mf hl).only hin) fun f _ => .bind ((warnInvalid_raises f).only hin) fun _ _ =>
      .bind ?_ fun elf helf => .bind ?_ fun ss _ => .bind ?_ fun tg _ => .bind ?_ fun ty _ => .ok
    · unfold descTarget
      split
      · exact .ok
      · exact only_ite (fun _ => (getKey_raises _).only hin) fun _ => .ok
    · unfold getElfFile
      simp only []
      split
      · exact .ok
      · refine .bind ((getKey_raises _).only hin) fun app _ => ?_
        split
        · exact .ok
        · rename_i r hr
          intro y hy
          rw [← hP]
          refine .inr (.inl ?_)
          cases r with
          | ok e => cases hy
          | error z => cases z <;> cases hy <;> exact ⟨by decide, _, hr⟩
    · refine dwarfSectionsAt_only (hin _ (by decide)) (hin _ (by decide)) ?_ _ _
      rintro hu e rfl
      exact ⟨fun y hy => hun e y helf (.units hu hy), fun d hd p hp cu h1 h2 h3 y hy => hun e y helf (.named hu d hd p hp cu h1 h2 h3 hy)⟩
    · unfold pickTarget
      exact only_ite (fun _ => .error (hin _ (by decide))) fun _ => .ok
    · intro z hz
      unfold getMemoryTypes at hz
      cases hcc : w.chip (tg ++ str ".yaml") with
      | ok y => rw [hcc] at hz; cases hz
      | error y =>
        rw [hcc] at hz
        have := hc _ _ hcc
        simp only [List.mem_cons, List.not_mem_nil, or_false] at this
        rcases this with rfl | rfl <;> cases hz <;> exact hin _ (by decide)
  suffices P x by rw [← hP] at this; exact this
  unfold getAt at h
  split at h
  · rename_i y hy
    cases h
    exact hload _ hy
  · rename_i l hl'
    have he := loadAt_elf hl'
    unfold buildAt at h
    split at h
    · rename_i y hy
      cases h
      cases hoe : l.elf with
      | none => rw [hoe] at hy; cases hy
      | some e =>
        rw [hoe] at hy he
        have : Only P (headersOf (some e)) := by
          unfold headersOf
          refine .bind (only_foldlM _ ?_ _) fun _ _ => .ok
          intro s hs d
          unfold ElfFile.headerStep
          refine only_ite (fun _ => .ok) fun h0 => only_ite (fun _ => .ok) fun hf => .bind ?_ fun _ _ => .ok
          intro z hz
          refine hun e z he (.section s hs ⟨h0, ?_⟩ hz)
          rw [and_two_eq_zero] at hf
          simpa using hf
        exact this _ hy
    · rename_i hdrs hh
      split at h
      · cases h
      · rename_i regs ws hs
        simp only [Option.some.injEq] at h
        have hsy : ∀ os, Only P (symbolStepAt ls l.elf os) := by
          intro os
          unfold symbolStepAt
          refine only_ite (fun hls => ?_) fun _ => .ok
          refine addSymbolsAt_only (hin _ (by decide)) (hin _ (by decide)) ?_ os
          intro e hoe
          rw [hoe] at he
          exact ⟨fun y hy => hun e y he (.table hls hy), fun t ht y hy hsz z hz => hun e z he (.symbol hls t ht y hy hsz hz)⟩
        cases hx : symbolStepAt ls l.elf (filterMapSections l.sections hdrs) with
        | error y =>
          rw [hx] at h
          cases h
          exact hsy _ _ hx
        | ok os =>
          rw [hx] at h
          obtain ⟨d', goes, h1, h2⟩ := memTypeMap_ok l.types regs (addArchives (splitMapSections os regs))
            (isAlias_of (splitRegions_fromTable (by intro p hp; cases hp) hs)) abb_addArchives
          simp only [bind, Except.bind, h1] at h
          cases h

/-! ### What the attributes raise -/

theorem readAt_raises (file : Bytes) (off count : Nat) : Raises [.elf] (readAt file off count) := by
  unfold readAt
  exact raises_ite .ok (.error (by decide))

theorem stringAt_raises (e : ElfFile) (ndx i : Nat) : Raises [.indexError, .elf, .valueError, .unicode] (e.stringAt ndx i) := by
  unfold ElfFile.stringAt
  split
  · exact .error (by decide)
  · refine .bind ((readAt_raises _ _ _).mono (by decide)) fun d _ => .bind ?_ fun b _ => ?_
    · unfold lookupString
      refine .bind ?_ fun _ _ => .ok
      unfold indexNul
      split
      · exact .ok
      · exact .error (by decide)
    · unfold decodeUtf8
      split
      · exact .ok
      · exact .error (by decide)

theorem raises_mapM {α β : Type} {es : List Err} {f : α → Except Err β} (l : List α) (h : ∀ x ∈ l, Raises es (f x)) : Raises es (l.mapM f) := by
  induction l with
  | nil => exact .ok
  | cons x t ih =>
    rw [List.mapM_cons]
    exact .bind (h x (by simp)) fun _ _ => .bind (ih fun y hy => h y (by simp [hy])) fun _ _ => .ok

theorem records_raises (fmt : Str) (d : Bytes) : Raises [.structError] (records fmt d) := by
  induction hn : d.length using Nat.strongRecOn generalizing d with
  | ind n ih =>
    unfold records
    refine raises_ite .ok ?_
    by_cases h1 : d.length < calcsize fmt
    · rw [if_pos h1]; exact .error (by decide)
    · rw [if_neg h1]
      by_cases h2 : calcsize fmt = 0
      · rw [if_pos h2]; exact .error (by decide)
      · rw [if_neg h2]
        by_cases h3 : d = []
        · subst h3
          exact absurd (by simpa using h1) h2
        · have : 0 < d.length := List.length_pos_iff.mpr h3
          exact .bind (ih _ (by simp only [List.length_drop]; omega) _ rfl) fun _ _ => .ok

theorem symbols_raises (e : ElfFile) : Raises [.elf, .structError, .indexError] e.symbols := by
  unfold ElfFile.symbols
  refine .bind (raises_mapM _ fun s _ => ?_) fun _ _ => .ok
  unfold ElfFile.tableSymbols
  refine raises_ite (raises_ite .ok ?_) .ok
  refine .bind ((readAt_raises _ _ _).mono (by decide)) fun d _ => .bind ((records_raises _ _).mono (by decide)) fun rs _ => raises_mapM _ fun r _ => ?_
  unfold symOf
  split
  · split <;> exact .ok
  · exact .error (by decide)

theorem openElf_raises (long : Nat) (file : Bytes) : Raises [.elf, .structError, .indexError, .typeError] (openElf long file) := by
  unfold openElf
  have htab : ∀ fmt num ent off, Raises [Err.elf, .structError, .indexError, .typeError] (table file fmt num ent off) := by
    intro fmt num ent off
    unfold table
    exact raises_ite .ok (.bind ((readAt_raises _ _ _).mono (by decide)) fun _ _ => (records_raises _ _).mono (by decide))
  refine .bind ((readAt_raises _ _ _).mono (by decide)) fun ident _ => raises_ite (.error (by decide)) ?_
  refine .bind ?_ fun o _ => .bind ?_ fun c _ => .bind ((readAt_raises _ _ _).mono (by decide)) fun d _ => .bind ?_ fun u _ => .bind ?_ fun h _ =>
    .bind (htab _ _ _ _) fun _ _ => .bind (htab _ _ _ _) fun sh _ => .bind (raises_mapM _ fun r _ => ?_) fun _ _ => .ok
  · unfold orderOf
    split
    · exact raises_ite .ok (raises_ite .ok (.error (by decide)))
    · exact .error (by decide)
  · unfold classOf
    split
    · exact raises_ite .ok (raises_ite .ok (.error (by decide)))
    · exact .error (by decide)
  · unfold unpackFrom
    exact raises_ite (.error (by decide)) .ok
  · unfold ehdrOf
    split
    · exact .ok
    · exact .error (by decide)
  · unfold shdrOf
    split
    · exact .ok
    · exact .error (by decide)

/-- **C104** the exceptions of `get` for projects whose ELF files have any bytes, when units are not used: the six of `C59`, and `Elf_Exception`,
`UnicodeDecodeError` and `struct.error`. -/
theorem C104_kinds_partial (n long : Nat) (w : World) (fs : Str → Option Bytes) (fn : Str) (ls : Bool) (ud : Option Bool) (mf : Option MapFile)
    (hl : ∀ x, w.lines fn = .error x → x ∈ [Err.osError, .valueError]) (hc : ∀ p x, w.chip p = .error x → x ∈ [Err.osError, .valueError])
    (hu : wantDwarf w fn ud = false) (x : Err)
    (h : getAt n w (fun p => (fs p).map (openElf long)) fn ls ud mf = some (.error x)) :
    x ∈ [Err.memMap, .valueError, .typeError, .nameError, .indexError, .keyError, .elf, .unicode, .structError] := by
  rcases C104_errors_partial n w _ fn ls ud mf hl hc x h with h | ⟨_, p, hp⟩ | ⟨e, _, hx⟩
  · simp only [List.mem_cons, List.not_mem_nil, or_false] at h
    rcases h with rfl | rfl | rfl | rfl | rfl | rfl <;> decide
  · cases hb : fs p with
    | none => rw [hb] at hp; cases hp
    | some b =>
      rw [hb] at hp
      have := openElf_raises long b x (by simpa using hp)
      exact (by decide : [Err.elf, .structError, .indexError, .typeError] ⊆ [Err.memMap, .valueError, .typeError, .nameError, .indexError, .keyError, .elf, .unicode, .structError]) this
  · have h1 : [Err.indexError, .elf, .valueError, .unicode] ⊆ [Err.memMap, .valueError, .typeError, .nameError, .indexError, .keyError, .elf, .unicode, .structError] := by decide
    have h2 : [Err.elf, .structError, .indexError] ⊆ [Err.memMap, .valueError, .typeError, .nameError, .indexError, .keyError, .elf, .unicode, .structError] := by decide
    rw [hu] at hx
    cases hx with
    | «section» s _ _ hs => exact h1 (stringAt_raises _ _ _ x hs)
    | table _ ht => exact h2 (symbols_raises _ x ht)
    | symbol _ _ _ _ _ _ hs => exact h1 (stringAt_raises _ _ _ x hs)
    | units hf _ => cases hf
    | named hf => cases hf

/-! ### The exceptions escape -/

/-- **C104** (violates `C59`) the exception of the first unreadable name of a section of the image is raised by `get`, whatever
the link map file and the options. -/
theorem C104_section_escapes (n : Nat) (w : World) (files : Str → Option (Except Err ElfFile)) (fn : Str) (ls : Bool) (ud : Option Bool) (mf : Option MapFile)
    (l : GetInAt) (e : ElfFile) (done rest : List RawShdr) (s : RawShdr) (x : Err) (hl : loadAt w files fn ud mf = .ok l) (he : l.elf = some e)
    (hs : e.shdrs = done ++ s :: rest) (hd : ∀ t ∈ done, LoadedSec t → ∃ name, e.shdrName t = .ok name) (hi : LoadedSec s)
    (hx : e.shdrName s = .error x) : getAt n w files fn ls ud mf = some (.error x) := by
  have hdn : ∀ t ∈ done, LoadedSec t → e.shdrName t = .ok ((fun t => match e.shdrName t with | .ok n => n | .error _ => []) t) := by
    intro t ht hlo
    obtain ⟨name, hn⟩ := hd t ht hlo
    simp only [hn]
  have hh : headersOf (some e) = .error x := by
    unfold headersOf
    simp only []
    rw [hs, List.foldlM_append, headers_fold done hdn]
    simp only [bind, Except.bind, List.foldlM_cons]
    unfold ElfFile.headerStep
    rw [if_neg hi.1, if_neg (by rw [and_two_eq_zero, hi.2]; decide), hx]
    rfl
  unfold getAt
  rw [hl]
  unfold buildAt
  simp only [he, hh]

/-- **C104** (violates `C59`) if symbols are wanted, the exception of reading the table of symbols is raised by `get`. -/
theorem C104_table_escapes (n : Nat) (w : World) (files : Str → Option (Except Err ElfFile)) (fn : Str) (ud : Option Bool) (mf : Option MapFile)
    (l : GetInAt) (e : ElfFile) (x : Err) (hl : loadAt w files fn ud mf = .ok l) (he : l.elf = some e)
    (hd : ∀ s ∈ e.shdrs, LoadedSec s → ∃ name, e.shdrName s = .ok name) (hx : e.symbols = .error x) :
    getAt n w files fn true ud mf = none ∨ getAt n w files fn true ud mf = some (.error x) := by
  have hdn : ∀ t ∈ e.shdrs, LoadedSec t → e.shdrName t = .ok ((fun t => match e.shdrName t with | .ok n => n | .error _ => []) t) := by
    intro t ht hlo
    obtain ⟨name, hn⟩ := hd t ht hlo
    simp only [hn]
  unfold getAt
  rw [hl]
  unfold buildAt
  simp only [he, headers_named hdn]
  cases splitMemoryRegions n l.types (filterMemoryRegions l.regions) [] [] with
  | none => exact .inl rfl
  | some r =>
    right
    simp only [symbolStepAt, if_true, addSymbolsAt, hx, bind, Except.bind]

theorem sweepAt_escapes {e : ElfFile} {y : RawSym} {x : Err} (hx : e.symName y = .error x) (ys zs : List RawSym) (cur : Slot) (rest : List (Nat × ISec))
    (done out : List Slot) (h : sweepAt e ys cur rest done = .ok out) : sweepAt e (ys ++ y :: zs) cur rest done = .error x := by
  induction ys generalizing cur rest done with
  | nil =>
    rw [List.nil_append, sweepAt, hx]
    rfl
  | cons z t ih =>
    rw [sweepAt] at h
    obtain ⟨n, hn, h⟩ := bind_ok h
    obtain ⟨⟨c, r, d⟩, ha, h⟩ := bind_ok h
    rw [List.cons_append, sweepAt, hn]
    simp only [bind, Except.bind, ha]
    simp only [] at h
    split at h
    · cases h
    · rename_i h1
      rw [if_neg h1]
      split at h
      · rename_i h2
        rw [if_pos h2]
        exact ih _ _ _ h
      · rename_i h2
        rw [if_neg h2]
        exact ih _ _ _ h

theorem insertBy_least {α : Type} {b : α → α → Bool} {x : α} {l : List α} (h : ∀ y ∈ l, b x y = true) : insertBy b x l = x :: l := by
  cases l with
  | nil => rfl
  | cons y t =>
    unfold insertBy
    rw [if_pos (h y (by simp))]

theorem isortBy_sortedAlready {α : Type} {b : α → α → Bool} {l : List α} (h : l.Pairwise fun x y => b x y = true) : isortBy b l = l := by
  induction l with
  | nil => rfl
  | cons x t ih =>
    rw [List.pairwise_cons] at h
    unfold isortBy
    rw [ih h.2, insertBy_least h.1]

theorem sweepRaw_prefix {t done rest : List RawSym} (h : sweepRaw t = done ++ rest) : sweepRaw done = done := by
  have hsorted : (sweepRaw t).Pairwise fun x y => (x.value : Int) ≤ y.value := by
    unfold sweepRaw
    refine List.Pairwise.filter _ ?_
    have := (sortedBy_stable (fun s : RawSym => (s.value : Int)) false t).sorted
    simpa using this
  rw [h] at hsorted
  have hd := (List.pairwise_append.mp hsorted).1
  have hf : done.filter (fun s => (s.type = sttFunc || s.type = sttObject) && s.size ≠ 0) = done := by
    rw [List.filter_eq_self]
    intro y hy
    rw [isSized_iff]
    exact (mem_sweepRaw.mp (by rw [h]; simp [hy] : y ∈ sweepRaw t)).2
  have hsd : sortedBy (fun s : RawSym => (s.value : Int)) false done = done := by
    unfold sortedBy
    apply isortBy_sortedAlready
    exact hd.imp fun hxy => by simpa using hxy
  unfold sweepRaw
  rw [hsd, hf]

/-- **C104** (violates `C59`) if symbols are wanted, the sized functions and objects are looked at by address; when those before `y` can be
read and fit into the sections, the exception of the name of `y` is raised. -/
theorem C104_symbol_escapes (e : ElfFile) (t done rest : List RawSym) (y : RawSym) (yn : RawSym → Str) (x : Err) (kept out : List OSec)
    (ht : e.symbols = .ok t) (hsp : sweepRaw t = done ++ y :: rest) (hd : ∀ z ∈ done, e.symName z = .ok (yn z)) (hx : e.symName y = .error x)
    (hok : addSymbols (some (done.map (elfSymNamed yn))) kept = .ok out) : symbolStepAt true (some e) kept = .error x := by
  unfold symbolStepAt addSymbolsAt
  simp only [if_true, ht, bind, Except.bind]
  unfold addSymbols at hok
  simp only [sweepRaw_named, sweepRaw_prefix hsp] at hok
  generalize sortedBy (fun p : Nat × ISec => p.2.address) false ((kept.flatMap (·.inputs)).zipIdx.map fun p => (p.2, p.1)) = ps at hok
  cases ps with
  | nil => cases hok
  | cons p ps =>
    simp only [] at hok
    obtain ⟨slots, hs, _⟩ := bind_ok hok
    rw [← sweep_named done hd] at hs
    rw [hsp]
    simp only [sweepAt_escapes hx done rest _ _ _ _ hs]

/-! ### Dependencies -/

/-- **C104** the table of cross references is filtered with the names of the functions and objects that are not absolute; other names may be
anything. -/
theorem C104_deps (e : ElfFile) (t : List RawSym) (yn : RawSym → Str) (sn : RawShdr → Str) (ht : e.symbols = .ok t)
    (h : ∀ y ∈ t, (y.info % 16 = 1 ∨ y.info % 16 = 2) → y.shndx ≠ 0xFFF1 → e.symName y = .ok (yn y)) (crt : Crt) (archives : Dict Str Entry) :
    filterCrtAt crt archives (some e) = filterCrt crt archives (some (e.named sn yn).syms) := by
  have hsy : (e.named sn yn).syms = t.map (elfSymNamed yn) := by
    simp only [ElfFile.named, ht]
    rfl
  have hc : crtSymbolsAt e = .ok (crtSymbols (t.map (elfSymNamed yn))) := by
    unfold crtSymbolsAt crtSymbols
    simp only [ht, bind, Except.bind]
    rw [List.filter_map, List.map_map]
    have hf : (t.filter fun s => (s.type = sttFunc || s.type = sttObject) && s.shndx ≠ shnAbs) =
        t.filter ((fun s : ElfSym => (s.type = sttFunc || s.type = sttObject) && s.shndx ≠ shnAbs) ∘ elfSymNamed yn) := by
      apply List.filter_congr
      intro y _
      have h1 : (elfSymNamed yn y).type = y.type := (sym_type y).symm
      have h2 : (elfSymNamed yn y).shndx = y.shndx := rfl
      simp only [Function.comp, h1, h2]
    rw [← hf]
    apply mapM_ok
    intro y hy
    obtain ⟨hy, hc⟩ := List.mem_filter.mp hy
    simp only [Bool.and_eq_true, Bool.or_eq_true, decide_eq_true_eq, ne_eq, decide_not, Bool.not_eq_true', decide_eq_false_iff_not] at hc
    rw [sym_type] at hc
    exact h y hy hc.1.symm hc.2
  unfold filterCrtAt filterCrt
  simp only [hc, hsy, bind, Except.bind]

/-- **C104** (violates the documented behaviour) the exception of reading the symbols escapes the dependency report. -/
theorem C104_deps_escapes (e : ElfFile) (x : Err) (crt : Crt) (archives : Dict Str Entry) (hx : e.symbols = .error x) :
    filterCrtAt crt archives (some e) = .error x := by
  unfold filterCrtAt crtSymbolsAt
  simp only [hx, bind, Except.bind]

/-! ### Files in which everything can be read -/

theorem dset_elem {κ α : Type} [DecidableEq κ] {d : Dict κ α} {k : κ} {v : α} {p : κ × α} (h : p ∈ dset d k v) : p ∈ d ∨ p = (k, v) := by
  induction d with
  | nil => exact .inr (by simpa [dset] using h)
  | cons q t ih =>
    simp only [dset] at h
    split at h
    · rcases List.mem_cons.mp h with h | h
      · exact .inr h
      · exact .inl (by simp [h])
    · rcases List.mem_cons.mp h with h | h
      · exact .inl (by simp [h])
      · rcases ih h with h | h
        · exact .inl (by simp [h])
        · exact .inr h

theorem symsByAddr_mem (l : List RawSym) : ∀ p ∈ symsByAddr l, p.2.1 ∈ l := by
  have key : ∀ (l' : List RawSym) (acc : Dict Nat (RawSym × Option Str)), (∀ p ∈ acc, p.2.1 ∈ l) → (∀ s ∈ l', s ∈ l) →
      ∀ p ∈ l'.foldl (fun acc s => dset acc s.value (s, none)) acc, p.2.1 ∈ l := by
    intro l'
    induction l' with
    | nil => intro acc h _; exact h
    | cons s t ih =>
      intro acc h hl
      refine ih _ ?_ fun z hz => hl z (by simp [hz])
      intro p hp
      rcases dset_elem hp with hp | rfl
      · exact h p hp
      · exact hl s (by simp)
  unfold symsByAddr
  exact key _ [] (by intro p hp; cases hp) fun s hs => (List.mem_filter.mp hs).1

theorem addCus_mem {e : ElfFile} {d : Dict Nat (RawSym × Option Str)} (h : e.addCus = .ok d) : ∃ l, e.symbols = .ok l ∧ ∀ p ∈ d, p.2.1 ∈ l := by
  unfold ElfFile.addCus at h
  obtain ⟨info, _, h⟩ := bind_ok h
  obtain ⟨cus, _, h⟩ := bind_ok h
  obtain ⟨dies, _, h⟩ := bind_ok h
  obtain ⟨l, hl, h⟩ := bind_ok h
  refine ⟨l, hl, ?_⟩
  have key : ∀ (ds : List (Nat × (Die × CU))) (acc out : Dict Nat (RawSym × Option Str)), (∀ p ∈ acc, p.2.1 ∈ l) →
      ds.foldlM (fun acc p => e.nameStep dies acc p.2) acc = .ok out → ∀ p ∈ out, p.2.1 ∈ l := by
    intro ds
    induction ds with
    | nil => intro acc out ha h; cases h; exact ha
    | cons x t ih =>
      intro acc out ha h
      rw [List.foldlM_cons] at h
      obtain ⟨acc', h1, h⟩ := bind_ok h
      refine ih acc' out ?_ h
      unfold ElfFile.nameStep at h1
      obtain ⟨a, _, h1⟩ := bind_ok h1
      split at h1
      · cases h1; exact ha
      · split at h1
        · cases h1; exact ha
        · split at h1
          · cases h1; exact ha
          · rename_i s hs
            obtain ⟨nm, _, h1⟩ := bind_ok h1
            cases h1
            intro p hp
            rcases dset_elem hp with hp | rfl
            · exact ha p hp
            · exact ha (_, s) (mem_of_dget hs)
  exact key _ _ _ (symsByAddr_mem l) h

theorem mapM_ok_all {α β : Type} {f : α → Except Err β} {l : List α} {r : List β} (h : l.mapM f = .ok r) : ∀ x ∈ l, ∃ y, f x = .ok y := by
  induction l generalizing r with
  | nil => intro x hx; cases hx
  | cons a t ih =>
    rw [List.mapM_cons] at h
    obtain ⟨y, hy, h⟩ := bind_ok h
    obtain ⟨ys, hys, h⟩ := bind_ok h
    intro x hx
    rcases List.mem_cons.mp hx with rfl | hx
    · exact ⟨y, hy⟩
    · exact ih hys x hx

/-- The name, or nothing. -/
def nameOr (r : Except Err Str) : Str := match r with | .ok n => n | .error _ => []

theorem view_names {e : ElfFile} {v : ElfData} (h : e.view = .ok v) :
    (∀ symbols units, NamesRead e symbols units (fun s => nameOr (e.shdrName s)) fun y => nameOr (e.symName y)) ∧
    e.named (fun s => nameOr (e.shdrName s)) (fun y => nameOr (e.symName y)) = v := by
  unfold ElfFile.view at h
  obtain ⟨sh, h1, h⟩ := bind_ok h
  obtain ⟨raw, h2, h⟩ := bind_ok h
  obtain ⟨sy, h3, h⟩ := bind_ok h
  cases h
  have ns : ∀ s ∈ e.shdrs, e.shdrName s = .ok (nameOr (e.shdrName s)) := by
    intro s hs
    obtain ⟨y, hy⟩ := mapM_ok_all h1 s hs
    unfold ElfFile.shdrView at hy
    obtain ⟨nm, hn, _⟩ := bind_ok hy
    rw [hn]
    rfl
  have ny : ∀ y ∈ raw, e.symName y = .ok (nameOr (e.symName y)) := by
    intro s hs
    obtain ⟨y, hy⟩ := mapM_ok_all h3 s hs
    unfold ElfFile.symView at hy
    obtain ⟨nm, hn, _⟩ := bind_ok hy
    rw [hn]
    rfl
  have nc : ∀ d, e.addCus = .ok d → ∀ p ∈ d, e.symName p.2.1 = .ok (nameOr (e.symName p.2.1)) := by
    intro d hd p hp
    obtain ⟨l, hl, hm⟩ := addCus_mem hd
    rw [h2] at hl
    cases hl
    exact ny _ (hm p hp)
  refine ⟨fun a b => ⟨fun s hs _ => ns s hs, fun _ => ⟨raw, h2, fun y hy _ => ny y hy⟩, fun _ d hd p hp _ _ _ _ => nc d hd p hp⟩, ?_⟩
  have g1 : e.shdrs.mapM e.shdrView = .ok (e.shdrs.map (secNamed fun s => nameOr (e.shdrName s))) := by
    apply mapM_ok
    intro s hs
    unfold ElfFile.shdrView
    rw [ns s hs]
    rfl
  have g2 : raw.mapM e.symView = .ok (raw.map (elfSymNamed fun y => nameOr (e.symName y))) := by
    apply mapM_ok
    intro y hy
    unfold ElfFile.symView
    rw [ny y hy, sym_type]
    rfl
  have g3 : e.cuSyms = e.addCus.map fun d => d.map (cuNamed fun y => nameOr (e.symName y)) := by
    unfold ElfFile.cuSyms
    cases hd : e.addCus with
    | error x => rfl
    | ok d =>
      simp only [bind, Except.bind, Except.map]
      apply mapM_ok
      intro p hp
      unfold ElfFile.cuView
      rw [nc d hd p hp]
      rfl
  rw [g1] at h1
  cases h1
  rw [g2] at h3
  cases h3
  unfold ElfFile.named
  rw [g3]
  congr 1
  rw [h2]
  rfl

/-- **C104** for ELF files in which all names and the tables of symbols can be read, evaluation on first use makes no difference: all theorems on
`getMap` hold for `getAt`. -/
theorem C104_same (n : Nat) (w : World) (files : Str → Option (Except Err ElfFile)) (fn : Str) (ls : Bool) (ud : Option Bool) (mf : Option MapFile)
    (h : ∀ p e, files p = some (.ok e) → ∃ v, e.view = .ok v) :
    getAt n w files fn ls ud mf = getMap n { w with elf := fun p => (files p).map fun r => r >>= ElfFile.view } fn ls ud mf none := by
  have hv : ∀ p, (files p).map (fun r => r >>= ElfFile.view) =
      (files p).map (Except.map fun e => e.named (fun s => nameOr (e.shdrName s)) fun y => nameOr (e.symName y)) := by
    intro p
    cases hp : files p with
    | none => rfl
    | some r =>
      cases r with
      | error x => rfl
      | ok e =>
        obtain ⟨v, hv⟩ := h p e hp
        simp only [Option.map_some, bind, Except.bind, Except.map, hv, (view_names hv).2]
  rw [C104_get n w files fn ls ud mf (fun e s => nameOr (e.shdrName s)) (fun e y => nameOr (e.symName y))]
  · congr 2
    funext p
    exact (hv p).symm
  · intro e he
    unfold getElfFile at he
    simp only [] at he
    split at he
    · cases he
    · obtain ⟨app, _, he⟩ := bind_ok he
      split at he
      · cases he
      · rename_i r hr
        cases r with
        | error x => cases x <;> cases he
        | ok e' =>
          cases he
          obtain ⟨v, hv⟩ := h _ _ hr
          exact (view_names hv).1 _ _

/-! ### Examples -/

/-- The string table is a section of the image and has no NUL at the end; the name of the table of symbols cannot be read. -/
def exLazySecs : List RawShdr := [⟨6, 3, 2, 0x3FFB0000, 132, 7, 0, 0, 1, 0⟩, ⟨5, 2, 0, 0, 1000, 16, 0, 0, 4, 16⟩]

/-- Bytes of a file with one section of the image, and a table of symbols that lies outside of the file. -/
def exLazyFile (name : Nat) : Bytes :=
  exEhdr.ident ++ fieldBytes .little (ehdrFields .c32 { exEhdr with shnum := 2 }) ++
    (exLazySecs.flatMap fun s => fieldBytes .little (shdrFields .c32 { s with name := if s.type = 3 then name else s.name })) ++ [0, 46, 97, 98, 0, 99, 100]

def exLazyWorld : World :=
  { exWorld with json := fun p => if p = str "/b/project_description.json" then some ⟨some (str "x.elf"), some (str "espx"), none, none, true⟩ else none }

def exLazyFiles (name : Nat) : Str → Option (Except Err ElfFile) := fun p => if p = str "/b/x.elf" then some (openElf 8 (exLazyFile name)) else none

/-- **C104** (violates `C59`) a name without end: `ValueError`; a table of symbols outside of the file: `Elf_Exception`,
if symbols are wanted.  If not, the unreadable name of this table does not matter. -/
theorem C104_witness :
    getAt 3 exLazyWorld (exLazyFiles 6) (str "/b/x.map") false none none = some (.error .valueError) ∧
    getAt 3 exLazyWorld (exLazyFiles 4) (str "/b/x.map") true none none = some (.error .elf) ∧
    getAt 3 exLazyWorld (exLazyFiles 4) (str "/b/x.map") false none none = some (.ok { exResult with imageSize := 0, memoryTypes := [(str "IRAM", { size := 256, sizeDiff := 0, used := 0, usedDiff := 0, sections := [] })] }) :=
  ⟨by decide +kernel, by decide +kernel, by decide +kernel⟩

/-- With the names evaluated when the file is opened the same files count as files that cannot be read. -/
example : getMap 3 { exLazyWorld with elf := fun p => (exLazyFiles 6 p).map fun r => r >>= ElfFile.view } (str "/b/x.map") false none none none =
    some (.ok exResult) := by decide +kernel

def exLazyElf : ElfFile :=
  { file := exLazyFile 4, order := .little, cls := .c32, ehdr := { exEhdr with shnum := 2 }
    shdrs := [⟨4, 3, 2, 0x3FFB0000, 132, 7, 0, 0, 1, 0⟩, ⟨5, 2, 0, 0, 1000, 16, 0, 0, 4, 16⟩] }

/-- The hypothesis of `C104_get` is met though a name cannot be read. -/
example : getElfFile exLazyWorld (exLazyFiles 4) (str "/b/x.map") (getProjDesc exLazyWorld (str "/b/x.map")) = .ok (some exLazyElf) ∧
    NamesRead exLazyElf false false (fun _ => []) (fun _ => []) ∧ exLazyElf.view = .error .valueError := by
  refine ⟨by decide +kernel, ⟨?_, fun h => absurd h (by decide), fun h => absurd h (by decide)⟩, by decide +kernel⟩
  intro s hs hl
  simp only [exLazyElf, List.mem_cons, List.not_mem_nil, or_false] at hs
  rcases hs with rfl | rfl
  · decide +kernel
  · exact absurd hl.2 (by decide)

end EspSize
