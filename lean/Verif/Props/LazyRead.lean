import Verif.Props.Lazy
/-! # C104: a call of `get` that returns has read the names it needs -/
namespace EspSize

theorem fold_read {e : ElfFile} {l : List RawShdr} {d d' : Dict Str Shdr} (h : l.foldlM e.headerStep d = .ok d') :
    ∀ s ∈ l, LoadedSec s → ∃ n, e.shdrName s = .ok n := by
  induction l generalizing d with
  | nil => intro s hs; cases hs
  | cons x t ih =>
    rw [List.foldlM_cons] at h
    obtain ⟨d1, h1, h2⟩ := bind_ok h
    intro s hs hl
    rcases List.mem_cons.mp hs with rfl | hs
    · unfold ElfFile.headerStep at h1
      have hf : ¬ s.flags &&& 2 = 0 := by
        rw [and_two_eq_zero]
        simpa using hl.2
      rw [if_neg hl.1, if_neg hf] at h1
      obtain ⟨n, hn, _⟩ := bind_ok h1
      exact ⟨n, hn⟩
    · exact ih h2 s hs hl

theorem sweepAt_read {e : ElfFile} {ys : List RawSym} {cur : Slot} {rest : List (Nat × ISec)} {done r : List Slot}
    (h : sweepAt e ys cur rest done = .ok r) : ∀ y ∈ ys, ∃ n, e.symName y = .ok n := by
  induction ys generalizing cur rest done with
  | nil => intro y hy; cases hy
  | cons z t ih =>
    rw [sweepAt] at h
    obtain ⟨n, hn, h⟩ := bind_ok h
    obtain ⟨⟨c, rs, dn⟩, _, h⟩ := bind_ok h
    intro y hy
    rcases List.mem_cons.mp hy with rfl | hy
    · exact ⟨n, hn⟩
    · simp only [] at h
      split at h
      · cases h
      · split at h
        · exact ih h y hy
        · exact ih h y hy

/-- The text read, or nothing. -/
def readOr (r : Except Err Str) : Str := match r with
  | .ok n => n
  | .error _ => []

theorem readOr_ok {r : Except Err Str} (h : ∃ n, r = .ok n) : r = .ok (readOr r) := by
  obtain ⟨n, rfl⟩ := h
  rfl

theorem getAt_ok {n : Nat} {w : World} {files : Str → Option (Except Err ElfFile)} {fn : Str} {ls : Bool} {ud : Option Bool} {mf : Option MapFile}
    {m : MemMap} (h : getAt n w files fn ls ud mf = some (.ok m)) :
    ∃ l hdrs kept ss, loadAt w files fn ud mf = .ok l ∧ headersOf l.elf = .ok hdrs ∧ symbolStepAt ls l.elf kept = .ok ss ∧
      m.imageSize = getImageSize hdrs kept := by
  unfold getAt at h
  split at h
  · cases h
  · rename_i l hl
    unfold buildAt at h
    split at h
    · cases h
    · rename_i hdrs hh
      split at h
      · cases h
      · injection h with h
        obtain ⟨ss, hs, h⟩ := bind_ok h
        obtain ⟨d, _, h⟩ := bind_ok h
        cases h
        exact ⟨l, hdrs, _, ss, hl, hh, hs, rfl⟩

/-- **C104** (converse of `C104_get`) whenever `get` returns, the names of all sections of the image were read, and, if symbols
are wanted, the table of symbols and the names of all its sized functions and objects: none of these failures is passed over. -/
theorem C104_read (n : Nat) (w : World) (files : Str → Option (Except Err ElfFile)) (fn : Str) (ls : Bool) (ud : Option Bool) (mf : Option MapFile)
    (m : MemMap) (h : getAt n w files fn ls ud mf = some (.ok m)) (e : ElfFile) (he : getElfFile w files fn (getProjDesc w fn) = .ok (some e)) :
    (∀ s ∈ e.shdrs, LoadedSec s → ∃ t, e.shdrName s = .ok t) ∧
    (ls = true → ∃ l, e.symbols = .ok l ∧ ∀ y ∈ l, IsSized y → ∃ t, e.symName y = .ok t) := by
  obtain ⟨l, hdrs, kept, ss, hl, hh, hs, _⟩ := getAt_ok h
  have := loadAt_elf hl
  rw [he] at this
  injection this with this
  rw [← this] at hh hs
  constructor
  · unfold headersOf at hh
    obtain ⟨d, hd, _⟩ := bind_ok hh
    exact fold_read hd
  · rintro rfl
    unfold symbolStepAt at hs
    rw [if_pos rfl] at hs
    unfold addSymbolsAt at hs
    obtain ⟨t, ht, hs⟩ := bind_ok hs
    refine ⟨t, ht, fun y hy hz => ?_⟩
    simp only [] at hs
    split at hs
    · cases hs
    · obtain ⟨sl, hsl, _⟩ := bind_ok hs
      exact sweepAt_read hsl y (mem_sweepRaw.mpr ⟨hy, hz⟩)

/-- **C104**, **C72** the image size for every opened ELF file, whatever else in it cannot be read: if the names of
the sections of the image are distinct and there is one, it is the total size of those with contents. -/
theorem C104_image_partial (n : Nat) (w : World) (files : Str → Option (Except Err ElfFile)) (fn : Str) (ls : Bool) (ud : Option Bool) (mf : Option MapFile)
    (m : MemMap) (h : getAt n w files fn ls ud mf = some (.ok m)) (e : ElfFile) (he : getElfFile w files fn (getProjDesc w fn) = .ok (some e))
    (hload : ∃ s ∈ e.shdrs, LoadedSec s)
    (hdist : (e.shdrs.filter fun s => decide (LoadedSec s)).Pairwise fun s t => e.shdrName s ≠ e.shdrName t) :
    m.imageSize = sumBy (fun s : RawShdr => (s.size : Int)) (e.shdrs.filter inImage) := by
  obtain ⟨hsec, _⟩ := C104_read n w files fn ls ud mf m h e he
  obtain ⟨l, hdrs, kept, ss, hl, hh, hs, him⟩ := getAt_ok h
  have := loadAt_elf hl
  rw [he] at this
  injection this with this
  rw [← this] at hh
  have hn : ∀ s ∈ e.shdrs, LoadedSec s → e.shdrName s = .ok (readOr (e.shdrName s)) := fun s hs hl => readOr_ok (hsec s hs hl)
  rw [headers_named (sn := fun s => readOr (e.shdrName s)) hn] at hh
  injection hh with hh
  rw [him, ← hh, C21_image_size_elf_partial]
  · rw [List.filter_map, sumBy_map]
    rfl
  · obtain ⟨s, h1, h2⟩ := hload
    exact ⟨_, List.mem_map_of_mem h1, h2⟩
  · rw [List.filter_map, List.map_map]
    have hf : (e.shdrs.filter fun s => decide (LoadedSec s)).Pairwise fun s t => readOr (e.shdrName s) ≠ readOr (e.shdrName t) := by
      refine hdist.imp_of_mem ?_
      intro s t hs ht hne heq
      obtain ⟨hs1, hs2⟩ := List.mem_filter.mp hs
      obtain ⟨ht1, ht2⟩ := List.mem_filter.mp ht
      exact hne (by rw [hn s hs1 (by simpa using hs2), hn t ht1 (by simpa using ht2), heq])
    exact List.pairwise_map.mpr hf

/-- The hypotheses are met by a file of which another name cannot be read. -/
example : (getAt 3 exLazyWorld (exLazyFiles 4) (str "/b/x.map") false none none).isSome ∧
    getElfFile exLazyWorld (exLazyFiles 4) (str "/b/x.map") (getProjDesc exLazyWorld (str "/b/x.map")) = .ok (some exLazyElf) ∧
    (∃ s ∈ exLazyElf.shdrs, LoadedSec s) ∧
    (exLazyElf.shdrs.filter fun s => decide (LoadedSec s)).length = 1 := by decide +kernel

end EspSize
