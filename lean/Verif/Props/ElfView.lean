import Verif.Model.ElfView
import Verif.Spec.ElfView
import Verif.Props.ElfFile
import Verif.Props.CsvRun
/-!
# From the bytes of the ELF file to the memory map
-/
namespace EspSize

theorem mapM_ok_map {α β γ : Type} {f : β → Except Err γ} {k : α → β} {g : α → γ} {l : List α}
    (h : ∀ x ∈ l, f (k x) = .ok (g x)) : (l.map k).mapM f = .ok (l.map g) := by
  induction l with
  | nil => rfl
  | cons x t ih =>
    rw [List.map_cons, List.mapM_cons, h x (by simp), ih fun y hy => h y (by simp [hy])]
    rfl

theorem data_of {e : ElfFile} {s : RawShdr} {d : Bytes} (h : SectionBytes e.file s d) : e.data s = .ok d := by
  obtain ⟨pre, post, h1, h2, h3⟩ := h
  have := slice_append pre d post
  rw [h2, h3, ← h1] at this
  unfold ElfFile.data readAt
  rw [this, if_pos h3]

theorem string_of {e : ElfFile} {st : RawShdr} {ndx i : Nat} {name : Str} (h : e.shdrs[ndx]? = some st)
    (hs : StringIn e.file st i name) : e.stringAt ndx i = .ok name := by
  obtain ⟨pre, post, h1, h2, h3⟩ := hs
  subst h2
  exact C48_name e ndx st name pre post h (data_of h1) h3

theorem sum_len {o : Order} {c : ElfClass} (l : List (Str × RawSym)) :
    (l.flatMap fun y => fieldBytes o (symFields c y.2)).length = l.length * calcsize (symFmt c) := by
  induction l with
  | nil => simp
  | cons y t ih =>
    rw [List.flatMap_cons, List.length_append, ih, List.length_cons, Nat.add_mul, Nat.one_mul, Nat.add_comm]
    congr 1
    cases c <;> cases o <;> simp [fieldBytes, symFields, intBytes, length_leBytes] <;> decide

/-- What is used of a section. -/
def viewSec (p : Str × RawShdr) : Shdr := { name := p.1, type := p.2.type, flags := p.2.flags, size := p.2.size }

/-- What is used of a symbol: the type is the low half of `st_info`. -/
def viewSym (y : Str × RawSym) : ElfSym :=
  { name := y.1, value := y.2.value, size := y.2.size, type := y.2.info % 16, shndx := y.2.shndx }

/-- The file is opened, and the names of its sections and symbols are found. -/
theorem named_elf (long : Nat) (o : Order) (c : ElfClass) (h : Ehdr) (secs : List (Str × RawShdr))
    (syms : RawShdr → List (Str × RawSym)) (file : Bytes) (hn : ElfNamed o c h secs syms file) (hp : PhdrsReadable c h file)
    (hlong : long = 4 ∨ long = 8) (hlen : nativeSize long (ehdrFmt c) ≤ file.length) :
    ∃ e, openElf long file = .ok e ∧ e.file = file ∧ e.order = o ∧ e.cls = c ∧ e.shdrs = secs.map (·.2) ∧
      (∀ p ∈ secs, e.shdrName p.2 = .ok p.1) ∧ e.symbols = .ok ((allSyms secs syms).map (·.2)) ∧
      ∀ y ∈ allSyms secs syms, e.symName y.2 = .ok y.1 := by
  rw [C47_open_partial long o c h (secs.map (·.2)) file hn.elf hp hlong hlen]
  generalize he : ({ file := file, order := o, cls := c, ehdr := h, shdrs := secs.map (·.2) } : ElfFile) = e
  have e1 : e.file = file := by rw [← he]
  have e2 : e.order = o := by rw [← he]
  have e3 : e.cls = c := by rw [← he]
  have e4 : e.ehdr = h := by rw [← he]
  have e5 : e.shdrs = secs.map (·.2) := by rw [← he]
  obtain ⟨st, hst, hname⟩ := hn.names
  refine ⟨e, rfl, e1, e2, e3, e5, ?_, ?_, ?_⟩
  · intro p hp
    unfold ElfFile.shdrName
    exact string_of (by rw [e4, e5]; exact hst) (by rw [e1]; exact hname p hp)
  · have := C47_symbols e (fun s => (syms s).map (·.2)) (by
      intro s hs ht
      rw [e5] at hs
      obtain ⟨p, hp, rfl⟩ := List.mem_map.mp hs
      obtain ⟨h1, st', h2, h3⟩ := hn.tables p hp ht
      refine ⟨?_, ?_, ?_⟩
      · rw [List.flatMap_map, e2, e3]
        exact data_of (by rw [e1]; exact h1)
      · obtain ⟨_, _, _, _, h5⟩ := h1
        rw [← h5, sum_len, List.length_map, e3]
      · intro y hy
        obtain ⟨z, hz, rfl⟩ := List.mem_map.mp hy
        rw [e3]
        exact ⟨(h3 z hz).1, (h3 z hz).2.1⟩)
    rw [this, e5]
    congr 1
    unfold allSyms
    rw [List.filter_map, List.flatMap_map, List.map_flatMap]
    congr 1
    apply List.filter_congr
    intro p _
    rw [Bool.eq_iff_iff, decide_eq_true_iff]
    simp [IsSymtab]
  · intro y hy
    unfold allSyms at hy
    obtain ⟨p, hp, hy⟩ := List.mem_flatMap.mp hy
    obtain ⟨hp, ht⟩ := List.mem_filter.mp hp
    obtain ⟨_, st', h2, h3⟩ := hn.tables p hp (by simpa using ht)
    unfold ElfFile.symName
    rw [(h3 y hy).1]
    exact string_of (by rw [e5]; exact h2) (by rw [e1]; exact (h3 y hy).2.2)

theorem sym_type (s : RawSym) : s.type = s.info % 16 := Nat.and_two_pow_sub_one_eq_mod s.info 4

theorem view_named {e : ElfFile} {secs : List (Str × RawShdr)} {ys : List (Str × RawSym)} (h1 : e.shdrs = secs.map (·.2))
    (h2 : ∀ p ∈ secs, e.shdrName p.2 = .ok p.1) (h3 : e.symbols = .ok (ys.map (·.2))) (h4 : ∀ y ∈ ys, e.symName y.2 = .ok y.1) :
    e.view = .ok { shdrs := secs.map viewSec, syms := ys.map viewSym, cuSyms := e.cuSyms } := by
  have hsh : (secs.map (·.2)).mapM e.shdrView = .ok (secs.map viewSec) := by
    apply mapM_ok_map
    intro p hp
    simp only [ElfFile.shdrView, h2 p hp, bind, Except.bind]
    rfl
  have hsv : (ys.map (·.2)).mapM e.symView = .ok (ys.map viewSym) := by
    apply mapM_ok_map
    intro y hy
    simp only [ElfFile.symView, h4 y hy, bind, Except.bind]
    congr 1
    unfold viewSym
    congr 1
    exact sym_type y.2
  unfold ElfFile.view
  simp only [h1, hsh, h3, hsv, bind, Except.bind]

/-- **C72** everything that is used of an ELF file: all sections with their names, types, flags and sizes, in order,
and all symbols with their names, values, sizes, types and section indices, table by table. -/
theorem C72_elf_view (long : Nat) (o : Order) (c : ElfClass) (h : Ehdr) (secs : List (Str × RawShdr))
    (syms : RawShdr → List (Str × RawSym)) (file : Bytes) (hn : ElfNamed o c h secs syms file) (hp : PhdrsReadable c h file)
    (hlong : long = 4 ∨ long = 8) (hlen : nativeSize long (ehdrFmt c) ≤ file.length) :
    ∃ e, openElf long file = .ok e ∧
      elfView long file = .ok { shdrs := secs.map viewSec, syms := (allSyms secs syms).map viewSym, cuSyms := e.cuSyms } := by
  obtain ⟨e, h1, _, _, _, h2, h3, h4, h5⟩ := named_elf long o c h secs syms file hn hp hlong hlen
  refine ⟨e, h1, ?_⟩
  unfold elfView
  rw [h1]
  simp only [bind, Except.bind]
  exact view_named h2 h3 h4 h5

/-- **C72** the image size of the memory map returned by `get` is the total size of the loaded sections with contents of
the ELF file, and every section of the map has the name of a loaded section of the ELF file, possibly with `_overflow`. -/
theorem C72_image_size_partial (n long : Nat) (w : World) (fn : Str) (ls : Bool) (ud : Option Bool) (mf : Option MapFile)
    (given : Option ElfData) (m : MemMap) (hget : getMap n w fn ls ud mf given = some (.ok m))
    (d : ProjDesc) (app : Str) (hd : getProjDesc w fn = some d) (happ : d.appElf = some app)
    (o : Order) (c : ElfClass) (h : Ehdr) (secs : List (Str × RawShdr)) (syms : RawShdr → List (Str × RawSym)) (file : Bytes)
    (hfile : w.elf (pathJoin (dirname fn) app) = some (elfView long file))
    (hn : ElfNamed o c h secs syms file) (hp : PhdrsReadable c h file) (hlong : long = 4 ∨ long = 8)
    (hlen : nativeSize long (ehdrFmt c) ≤ file.length)
    (hload : ∃ p ∈ secs, LoadedSec p.2)
    (hdist : ((secs.filter fun p => decide (LoadedSec p.2)).map (·.1)).Nodup) :
    m.imageSize = sumBy (fun p : Str × RawShdr => (p.2.size : Int)) (secs.filter fun p => inImage p.2) ∧
    ∀ k s x, getSec m k s = some x → ∃ p ∈ secs, LoadedSec p.2 ∧ (s = p.1 ∨ s = overflowKey p.1) := by
  obtain ⟨_, _, hv⟩ := C72_elf_view long o c h secs syms file hn hp hlong hlen
  have hl : ∃ l, load w fn ud mf = .ok l ∧ build n fn ls l = some (.ok m) := by
    unfold getMap at hget
    split at hget
    · cases hget
    · exact ⟨_, ‹_›, hget⟩
  obtain ⟨l, hl, hb⟩ := hl
  obtain ⟨_, _, elf, _, _, _, _, he, _, _, _, hleq⟩ := load_ok hl
  have hshd : l.elf.map ElfData.shdrs = some (secs.map viewSec) := by
    rw [hleq]
    unfold getElf at he
    have : d.nonempty = true := by unfold ProjDesc.nonempty; rw [happ]; rfl
    simp only [hd, this, if_true, happ, getKey, bind, Except.bind, hfile, hv, loadElf, Except.ok.injEq] at he
    rw [← he]
    rfl
  have hL : ∀ p : Str × RawShdr, Loaded (viewSec p) ↔ LoadedSec p.2 := fun p => Iff.rfl
  have hne : ∃ s ∈ secs.map viewSec, Loaded s := by
    obtain ⟨p, h1, h2⟩ := hload
    exact ⟨_, List.mem_map_of_mem h1, h2⟩
  obtain ⟨l', regs, parts, goes, hl', hparts, _, _, _, _, hsec, hgoes, _⟩ := C58_accounted n w fn ls ud mf given m hget
  rw [hl] at hl'
  cases hl'
  constructor
  · obtain ⟨_, _, _, _, _, _, _, _, _, rfl⟩ := build_ok hb
    show getImageSize _ _ = _
    rw [hshd, C21_image_size_elf_partial _ _ hne]
    · rw [List.filter_map, sumBy_map]
      rfl
    · rw [List.filter_map, List.map_map]
      exact hdist
  · intro k s x hx
    obtain ⟨_, p, hpm, _, hg⟩ := hsec k s x hx
    obtain ⟨q, hq, hname, _⟩ := parts_from hparts hpm
    obtain ⟨_, hkept⟩ := List.mem_filter.mp hq
    have hkept' : Kept (l.elf.map ElfData.shdrs) q := by simpa using hkept
    obtain ⟨_, _, hk⟩ := hkept'
    rw [hshd] at hk
    simp only [if_pos hne] at hk
    obtain ⟨y, hy, hy1, hy2⟩ := hk
    obtain ⟨z, hz, rfl⟩ := List.mem_map.mp hy
    refine ⟨z, hz, hy1, ?_⟩
    rw [show z.1 = p.name from hy2.trans hname.symm]
    exact goes_key (hg ▸ hgoes p)

/-! ### Example -/

/-- The strings `.iram0.text`, `.symtab`, `.strtab` and `f`. -/
def exStrtab : Bytes :=
  [0, 46, 105, 114, 97, 109, 48, 46, 116, 101, 120, 116, 0, 46, 115, 121, 109, 116, 97, 98, 0, 46, 115, 116,
   114, 116, 97, 98, 0, 102, 0]

def exSections : List (Str × RawShdr) :=
  [([], ⟨0, 0, 0, 0, 0, 0, 0, 0, 0, 0⟩), (str ".iram0.text", ⟨1, 1, 6, 0x100, 212, 32, 0, 0, 4, 0⟩),
   (str ".symtab", ⟨13, 2, 0, 0, 212, 16, 3, 0, 4, 16⟩), (str ".strtab", ⟨21, 3, 0, 0, 228, 31, 0, 0, 1, 0⟩)]

def exSymbols (_ : RawShdr) : List (Str × RawSym) := [(str "f", ⟨3, 29, 0x100, 8, 0x12, 0, 1⟩)]

def exNamedHdr : Ehdr := { exEhdr with shnum := 4, shstrndx := 3 }

def exNamedFile : Bytes :=
  exNamedHdr.ident ++ fieldBytes .little (ehdrFields .c32 exNamedHdr) ++
    (exSections.flatMap fun p => fieldBytes .little (shdrFields .c32 p.2)) ++ fieldBytes .little (symFields .c32 (exSymbols ⟨13, 2, 0, 0, 212, 16, 3, 0, 4, 16⟩)[0].2) ++ exStrtab

theorem sectionBytes_slice {file : Bytes} {s : RawShdr} {d : Bytes} (h : slice file s.offset s.size = d) (hl : d.length = s.size) (ho : s.offset ≤ file.length) :
    SectionBytes file s d := by
  refine ⟨file.take s.offset, file.drop (s.offset + s.size), ?_, by simp [ho], hl⟩
  rw [← h]
  unfold slice
  have := List.take_append_drop s.offset file
  have h2 := List.take_append_drop s.size (file.drop s.offset)
  rw [List.drop_drop] at h2
  rw [List.append_assoc, h2, this]

theorem exNamed : ElfNamed .little .c32 exNamedHdr exSections exSymbols exNamedFile := by
  have hstr : ∀ (i : Nat) (name : Str), exStrtab.take i ++ name.utf8Encode.data.toList ++ 0 :: exStrtab.drop (i + name.utf8Encode.data.toList.length + 1) = exStrtab →
      (exStrtab.take i).length = i → (0 : UInt8) ∉ name.utf8Encode.data.toList → StringIn exNamedFile ⟨21, 3, 0, 0, 228, 31, 0, 0, 1, 0⟩ i name := by
    intro i name h1 h2 h3
    refine ⟨exStrtab.take i, exStrtab.drop (i + name.utf8Encode.data.toList.length + 1), ?_, h2, h3⟩
    rw [h1]
    exact sectionBytes_slice (by decide +kernel) (by decide +kernel) (by decide +kernel)
  refine ⟨⟨⟨_, rfl, rfl⟩, ⟨(exSections.flatMap fun p => fieldBytes .little (shdrFields .c32 p.2)) ++
    (fieldBytes .little (symFields .c32 (exSymbols ⟨13, 2, 0, 0, 212, 16, 3, 0, 4, 16⟩)[0].2) ++ exStrtab), ?_⟩, ?_, rfl, by decide, fun _ => ⟨exNamedHdr.ident ++ fieldBytes .little (ehdrFields .c32 exNamedHdr),
    fieldBytes .little (symFields .c32 (exSymbols ⟨13, 2, 0, 0, 212, 16, 3, 0, 4, 16⟩)[0].2) ++ exStrtab, ?_, by decide +kernel⟩, ?_⟩, ⟨_, rfl, ?_⟩, ?_⟩
  · simp only [exNamedFile, List.append_assoc]
  · unfold Fits; decide +kernel
  · simp only [exNamedFile, List.append_assoc, List.flatMap_map]
  · unfold Fits; decide +kernel
  · intro p hp
    simp only [exSections, List.mem_cons, List.not_mem_nil, or_false] at hp
    rcases hp with rfl | rfl | rfl | rfl <;> exact hstr _ _ (by decide +kernel) (by decide +kernel) (by decide +kernel)
  · intro p hp ht
    simp only [exSections, List.mem_cons, List.not_mem_nil, or_false] at hp
    rcases hp with rfl | rfl | rfl | rfl
    · exact absurd ht (by decide)
    · exact absurd ht (by decide)
    · refine ⟨sectionBytes_slice (by decide +kernel) (by decide +kernel) (by decide +kernel), _, rfl, ?_⟩
      intro y hy
      simp only [exSymbols, List.mem_cons, List.not_mem_nil, or_false] at hy
      subst hy
      exact ⟨rfl, by unfold Fits; decide +kernel, hstr _ _ (by decide +kernel) (by decide +kernel) (by decide +kernel)⟩
    · exact absurd ht (by decide)

def exElfWorld : World :=
  { exWorld with
    json := fun p => if p = str "/b/project_description.json" then
      some { appElf := some (str "x.elf"), target := some (str "espx"), build := none, comps := none } else none
    elf := fun p => if p = str "/b/x.elf" then some (elfView 8 exNamedFile) else none }

example : getMap 3 exElfWorld (str "/b/x.map") false none none none = some (.ok exResult) := by decide +kernel
example : (exSections.filter fun p => inImage p.2).map (·.1) = [str ".iram0.text"] := by decide
example : (∃ p ∈ exSections, LoadedSec p.2) ∧ ((exSections.filter fun p => decide (LoadedSec p.2)).map (·.1)).Nodup ∧
    PhdrsReadable .c32 exNamedHdr exNamedFile ∧ nativeSize 8 (ehdrFmt .c32) ≤ exNamedFile.length :=
  ⟨⟨_, .tail _ (.head _), by decide⟩, by decide, .inl rfl, by decide +kernel⟩

end EspSize
