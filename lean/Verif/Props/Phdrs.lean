import Verif.Spec.Phdrs
import Verif.Props.ElfFile
import Verif.Props.MapErrors
/-! # C97: what an opened ELF file holds -/
namespace EspSize

theorem leBytes_fromLE (b : Bytes) : leBytes b.length (fromLE b) = b := by
  induction b with
  | nil => rfl
  | cons x t ih =>
    have hx : x.toNat < 256 := x.toNat_lt
    simp only [List.length_cons, fromLE, leBytes]
    rw [show (x.toNat + 256 * fromLE t) % 256 = x.toNat by omega, show (x.toNat + 256 * fromLE t) / 256 = fromLE t by omega, ih]
    simp

theorem intBytes_fromBytes (o : Order) (b : Bytes) : intBytes o b.length (fromBytes o b) = b := by
  cases o
  · exact leBytes_fromLE b
  · have := leBytes_fromLE b.reverse
    rw [List.length_reverse] at this
    simp only [intBytes, fromBytes, this, List.reverse_reverse]

theorem fieldBytes_of (o : Order) (fs : List (Nat × Nat)) (r : List Bytes) (h1 : fs.map Prod.fst = r.map List.length)
    (h2 : fs.map Prod.snd = r.map (fromBytes o)) : fieldBytes o fs = r.flatten ∧ Fits fs := by
  induction fs generalizing r with
  | nil =>
    cases r with
    | nil => exact ⟨rfl, fun _ h => nomatch h⟩
    | cons _ _ => cases h1
  | cons f t ih =>
    cases r with
    | nil => cases h1
    | cons b r =>
      simp only [List.map_cons, List.cons.injEq] at h1 h2
      obtain ⟨e1, e2⟩ := ih r h1.2 h2.2
      refine ⟨?_, ?_⟩
      · have : fieldBytes o (f :: t) = intBytes o f.1 f.2 ++ fieldBytes o t := by simp [fieldBytes]
        rw [this, e1, h1.1, h2.1, intBytes_fromBytes, List.flatten_cons]
      · intro g hg
        rcases List.mem_cons.mp hg with rfl | hg
        · rw [h1.1, h2.1]; exact fromBytes_lt o b
        · exact e2 g hg

theorem chunks_length (ws : List Nat) (d : Bytes) (h : ws.sum ≤ d.length) : (chunks ws d).map List.length = ws := by
  induction ws generalizing d with
  | nil => rfl
  | cons w t ih =>
    simp only [List.sum_cons] at h
    simp only [chunks, List.map_cons, List.length_take, ih (d.drop w) (by simp only [List.length_drop]; omega)]
    rw [Nat.min_eq_left (by omega)]

theorem chunks_flatten (ws : List Nat) (d : Bytes) : (chunks ws d).flatten = d.take ws.sum := by
  induction ws generalizing d with
  | nil => simp [chunks]
  | cons w t ih =>
    simp only [chunks, List.flatten_cons, ih, List.sum_cons]
    rw [List.take_add]

/-- What a loop over records read: all the bytes, each record where it is. -/
theorem records_inv (fmt : Str) (n : Nat) (rest : Bytes) (hn : rest.length ≤ n) (l : List (List Bytes)) (h : records fmt rest = .ok l) :
    rest.length = l.length * calcsize fmt ∧
    ∀ i r, l[i]? = some r → r = chunks (fmtWidths fmt) (rest.drop (i * calcsize fmt)) ∧ (i + 1) * calcsize fmt ≤ rest.length := by
  induction n generalizing rest l with
  | zero =>
    have : rest = [] := List.length_eq_zero_iff.mp (by omega)
    subst this
    unfold records at h
    rw [if_pos rfl] at h
    cases h
    exact ⟨by simp, fun i r h => by simp at h⟩
  | succ n ih =>
    unfold records at h
    by_cases h0 : rest = []
    · subst h0
      rw [if_pos rfl] at h
      cases h
      exact ⟨by simp, fun i r h => by simp at h⟩
    · rw [if_neg h0] at h
      by_cases h1 : rest.length < calcsize fmt
      · rw [if_pos h1] at h; cases h
      · rw [if_neg h1] at h
        by_cases h2 : calcsize fmt = 0
        · rw [if_pos h2] at h; cases h
        · rw [if_neg h2] at h
          obtain ⟨t, ht, h⟩ := bind_ok h
          cases h
          obtain ⟨e1, e2⟩ := ih (rest.drop (calcsize fmt)) (by simp only [List.length_drop]; omega) t ht
          simp only [List.length_drop] at e1 e2
          refine ⟨by simp only [List.length_cons, Nat.add_mul]; omega, ?_⟩
          intro i r hr
          cases i with
          | zero =>
            simp only [List.getElem?_cons_zero, Option.some.injEq] at hr
            exact ⟨by rw [← hr]; simp, by omega⟩
          | succ i =>
            simp only [List.getElem?_cons_succ] at hr
            obtain ⟨e3, e4⟩ := e2 i r hr
            refine ⟨by rw [e3, List.drop_drop, Nat.add_mul i 1, Nat.one_mul, Nat.add_comm (calcsize fmt)], ?_⟩
            rw [Nat.add_mul (i + 1) 1, Nat.one_mul]
            omega

theorem mapM_ok_get {α β : Type} (f : α → Except Err β) (l : List α) (r : List β) (h : l.mapM f = .ok r) :
    r.length = l.length ∧ ∀ (i : Nat) b, r[i]? = some b → ∃ a, l[i]? = some a ∧ f a = .ok b := by
  induction l generalizing r with
  | nil =>
    cases h
    exact ⟨rfl, fun i b h => by simp at h⟩
  | cons x t ih =>
    rw [List.mapM_cons] at h
    obtain ⟨y, hy, h⟩ := bind_ok h
    obtain ⟨ys, hys, h⟩ := bind_ok h
    cases h
    obtain ⟨e1, e2⟩ := ih ys hys
    refine ⟨by simp [e1], ?_⟩
    intro i b hb
    cases i with
    | zero => simp only [List.getElem?_cons_zero, Option.some.injEq] at hb; exact ⟨x, by simp, by rw [hy, hb]⟩
    | succ i => simp only [List.getElem?_cons_succ] at hb ⊢; exact e2 i b hb

theorem shdrOf_inv (o : Order) (c : ElfClass) (r : List Bytes) (s : RawShdr) (h : shdrOf o r = .ok s) :
    (shdrFields c s).map Prod.snd = r.map (fromBytes o) := by
  unfold shdrOf at h
  split at h
  · cases h; rfl
  · cases h

/-- A table of headers: as many as fit into the bytes, one directly after the other. -/
theorem table_inv (file : Bytes) (fmt : Str) (num entsize off : Nat) (l : List (List Bytes)) (h : table file fmt num entsize off = .ok l) :
    l.length * calcsize fmt = num * entsize ∧
    ∀ i r, l[i]? = some r → r = chunks (fmtWidths fmt) (slice file (off + i * calcsize fmt) (calcsize fmt)) ∧
      (slice file (off + i * calcsize fmt) (calcsize fmt)).length = calcsize fmt := by
  unfold table at h
  by_cases h0 : num = 0
  · rw [if_pos h0] at h
    cases h
    exact ⟨by simp [h0], fun i r h => by simp at h⟩
  · rw [if_neg h0] at h
    obtain ⟨d, hd, h⟩ := bind_ok h
    unfold readAt at hd
    split at hd
    · rename_i hl
      cases hd
      obtain ⟨e1, e2⟩ := records_inv fmt _ _ (Nat.le_refl _) l h
      refine ⟨by rw [← e1, hl], ?_⟩
      intro i r hr
      obtain ⟨e3, e4⟩ := e2 i r hr
      rw [hl] at e4
      rw [Nat.add_mul, Nat.one_mul] at e4
      have hlen : (slice file (off + i * calcsize fmt) (calcsize fmt)).length = calcsize fmt := by
        simp only [slice, List.length_take, List.length_drop] at hl ⊢
        omega
      refine ⟨?_, hlen⟩
      rw [e3]
      have key : ∀ (ws : List Nat) (a b : Bytes), a.take ws.sum = b.take ws.sum → chunks ws a = chunks ws b := by
        intro ws
        induction ws with
        | nil => intros; rfl
        | cons w t ih =>
          intro a b hab
          simp only [List.sum_cons] at hab
          simp only [chunks]
          have h1 : a.take w = b.take w := by
            have := congrArg (List.take w) hab
            rwa [List.take_take, List.take_take, Nat.min_eq_left (by omega)] at this
          have h2 : (a.drop w).take t.sum = (b.drop w).take t.sum := by
            have := congrArg (List.drop w) hab
            rwa [List.drop_take, List.drop_take, Nat.add_sub_cancel_left] at this
          rw [h1, ih _ _ h2]
      refine key _ _ _ ?_
      show List.take (calcsize fmt) _ = List.take (calcsize fmt) _
      simp only [slice, List.drop_take, List.drop_drop, List.take_take, Nat.min_self]
      rw [Nat.min_eq_left (by omega)]
    · cases hd

/-- **C97** the sections of an opened file, of any class and byte order and whatever its headers say: each is what the bytes at
`e_shoff` plus the headers before it say, and together they are the `e_shnum * e_shentsize` bytes. -/
theorem C97_sections (long : Nat) (file : Bytes) (e : ElfFile) (h : openElf long file = .ok e) :
    e.file = file ∧ e.shdrs.length * e.cls.shdrBytes = e.ehdr.shnum * e.ehdr.shentsize ∧
    ∀ i s, e.shdrs[i]? = some s → slice file (e.ehdr.shoff + i * e.cls.shdrBytes) e.cls.shdrBytes = fieldBytes e.order (shdrFields e.cls s) ∧
      Fits (shdrFields e.cls s) := by
  unfold openElf at h
  obtain ⟨ident, _, h⟩ := bind_ok h
  split at h
  · cases h
  · obtain ⟨o, _, h⟩ := bind_ok h
    obtain ⟨c, _, h⟩ := bind_ok h
    obtain ⟨_, _, h⟩ := bind_ok h
    obtain ⟨_, _, h⟩ := bind_ok h
    obtain ⟨eh, _, h⟩ := bind_ok h
    obtain ⟨_, _, h⟩ := bind_ok h
    obtain ⟨sh, hsh, h⟩ := bind_ok h
    obtain ⟨shdrs, hm, h⟩ := bind_ok h
    cases h
    have hsz : calcsize (shdrFmt c) = c.shdrBytes := by cases c <;> decide
    obtain ⟨e1, e2⟩ := table_inv _ _ _ _ _ _ hsh
    obtain ⟨e3, e4⟩ := mapM_ok_get _ _ _ hm
    rw [hsz] at e1 e2
    refine ⟨rfl, by simp only [e3]; exact e1, ?_⟩
    intro i s hs
    obtain ⟨r, hr, hrs⟩ := e4 i s hs
    obtain ⟨e5, e6⟩ := e2 i r hr
    have hw := shdr_widths c s
    have := fieldBytes_of o (shdrFields c s) r (by
      rw [← hw, e5, chunks_length _ _ (by rw [e6, ← hsz]; exact Nat.le_refl _)]) (shdrOf_inv o c r s hrs)
    refine ⟨?_, this.2⟩
    rw [this.1, e5, chunks_flatten]
    have : (fmtWidths (shdrFmt c)).sum = c.shdrBytes := hsz
    rw [this, List.take_of_length_le (by omega)]

theorem ehdrOf_inv (o : Order) (c : ElfClass) (r : List Bytes) (h : Ehdr) (hh : ehdrOf o r = .ok h) :
    ∃ i t, r = i :: t ∧ h.ident = i ∧ (ehdrFields c h).map Prod.snd = t.map (fromBytes o) := by
  unfold ehdrOf at hh
  split at hh
  · cases hh; exact ⟨_, _, rfl, rfl, rfl⟩
  · cases hh

theorem take_prefix_fill (a : Bytes) (n : Nat) (b : Bytes) (h : a.take n = b) : ∃ rest, a = b ++ rest := ⟨a.drop n, by rw [← h, List.take_append_drop]⟩

/-- **C97** the ELF header of an opened file, of any class and byte order, is what its first bytes say. -/
theorem C97_header (long : Nat) (file : Bytes) (e : ElfFile) (h : openElf long file = .ok e) (hlong : long = 4 ∨ long = 8) :
    (∃ rest, e.ehdr.ident = 0x7F :: 0x45 :: 0x4C :: 0x46 :: e.cls.code :: e.order.code :: rest ∧ rest.length = 10) ∧
    (∃ rest, file = e.ehdr.ident ++ fieldBytes e.order (ehdrFields e.cls e.ehdr) ++ rest) ∧ Fits (ehdrFields e.cls e.ehdr) := by
  unfold openElf at h
  obtain ⟨ident, hident, h⟩ := bind_ok h
  split at h
  · cases h
  rename_i hmagic
  obtain ⟨o, ho, h⟩ := bind_ok h
  obtain ⟨c, hc, h⟩ := bind_ok h
  obtain ⟨d, hd, h⟩ := bind_ok h
  obtain ⟨r, hr, h⟩ := bind_ok h
  obtain ⟨eh, heh, h⟩ := bind_ok h
  obtain ⟨_, _, h⟩ := bind_ok h
  obtain ⟨sh, _, h⟩ := bind_ok h
  obtain ⟨shdrs, _, h⟩ := bind_ok h
  cases h
  simp only
  have hcn : calcsize (ehdrFmt c) ≤ nativeSize long (ehdrFmt c) := by rcases hlong with rfl | rfl <;> cases c <;> decide
  have hc16 : 16 ≤ calcsize (ehdrFmt c) := by cases c <;> decide
  unfold readAt at hident hd
  split at hident
  · rename_i hl1
    cases hident
    split at hd
    · rename_i hl2
      cases hd
      unfold unpackFrom at hr
      split at hr
      · cases hr
      · cases hr
        obtain ⟨i, t, hit, hi, ht⟩ := ehdrOf_inv o c _ eh heh
        rw [ehdr_widths c eh] at hit
        simp only [chunks, List.cons.injEq, List.drop_zero] at hit
        obtain ⟨hit1, hit2⟩ := hit
        have hs0 : ∀ n, slice file 0 n = file.take n := by intro n; simp [slice]
        rw [hs0] at hl1 hl2 hmagic ho hc
        rw [hs0, List.take_take, Nat.min_eq_left (by omega)] at hit1
        have hid : eh.ident = file.take 16 := by rw [hi, ← hit1]
        have hsum : 16 + ((ehdrFields c eh).map Prod.fst).sum = calcsize (ehdrFmt c) := by
          rw [calcsize, ehdr_widths c eh, List.sum_cons]
        have hf := fieldBytes_of o (ehdrFields c eh) t (by
          rw [← hit2, chunks_length]
          rw [hs0, List.length_drop]; omega) ht
        refine ⟨?_, ?_, hf.2⟩
        · rw [hid]
          generalize file.take 16 = z at hl1 hmagic ho hc
          match z, hl1 with
          | a0 :: a1 :: a2 :: a3 :: a4 :: a5 :: rest, hl1 =>
            simp only [List.take_succ_cons, List.take_zero, ne_eq, List.cons.injEq, and_true, Classical.not_not] at hmagic
            obtain ⟨rfl, rfl, rfl, rfl⟩ := hmagic
            simp only [List.drop_succ_cons, List.drop_zero, orderOf, classOf] at ho hc
            refine ⟨rest, ?_, by simp only [List.length_cons] at hl1; omega⟩
            have h4 : a4 = c.code := by
              split at hc
              · cases hc; assumption
              · split at hc
                · cases hc; assumption
                · cases hc
            have h5 : a5 = o.code := by
              split at ho
              · cases ho; assumption
              · split at ho
                · cases ho; assumption
                · cases ho
            rw [h4, h5]
        · refine take_prefix_fill file (calcsize (ehdrFmt c)) _ ?_
          rw [hid, hf.1, ← hit2, chunks_flatten, hs0, List.drop_take, List.take_take, Nat.min_eq_left (by omega), ← hsum, List.take_add]
    · cases hd
  · cases hident

/-- **C97** which files are opened: exactly those with an ELF header and its section headers in the file, if the entries of the tables
have the standard sizes and the program headers are in the file. -/
theorem C97_opened_partial (long : Nat) (hlong : long = 4 ∨ long = 8) (o : Order) (c : ElfClass) (h : Ehdr) (shdrs : List RawShdr) (file : Bytes)
    (hent : h.shentsize = c.shdrBytes) (hp : PhdrsReadable c h file) :
    openElf long file = .ok { file := file, order := o, cls := c, ehdr := h, shdrs := shdrs } ↔
    IsElf o c h shdrs file ∧ bytesNeeded long c ≤ file.length := by
  constructor
  · intro ho
    obtain ⟨h1, h2, h3⟩ := C97_header long file _ ho hlong
    obtain ⟨_, h4, h5⟩ := C97_sections long file _ ho
    simp only at h1 h2 h3 h4 h5
    rw [hent] at h4
    have hpos : 0 < c.shdrBytes := by cases c <;> decide
    have hcount : h.shnum = shdrs.length := (Nat.eq_of_mul_eq_mul_right hpos h4).symm
    have hf : IsElf o c h shdrs file := by
      refine ⟨h1, h2, h3, hcount, by rw [hent]; cases c <;> rfl, ?_, ?_⟩
      · intro hne
        refine ⟨file.take h.shoff, file.drop (h.shoff + shdrs.length * c.shdrBytes), ?_, ?_⟩
        · have key : ∀ (l : List RawShdr) (off : Nat), (∀ i s, l[i]? = some s →
              slice file (off + i * c.shdrBytes) c.shdrBytes = fieldBytes o (shdrFields c s)) →
              (l.flatMap fun s => fieldBytes o (shdrFields c s)) = slice file off (l.length * c.shdrBytes) := by
            intro l
            induction l with
            | nil => intro off _; simp [slice]
            | cons s t ih =>
              intro off hl
              have e1 := hl 0 s (by simp)
              rw [Nat.zero_mul, Nat.add_zero] at e1
              rw [List.flatMap_cons, ih (off + c.shdrBytes) (fun i s hs => by
                have := hl (i + 1) s (by simpa using hs)
                rwa [Nat.add_mul, Nat.one_mul, ← Nat.add_assoc, Nat.add_right_comm] at this), ← e1]
              simp only [slice, List.length_cons]
              rw [Nat.add_mul, Nat.one_mul, Nat.add_comm (t.length * c.shdrBytes), List.take_add, List.drop_drop]
          rw [key shdrs h.shoff fun i s hs => (h5 i s hs).1]
          simp only [slice]
          rw [← List.drop_drop, List.append_assoc, List.take_append_drop, List.take_append_drop]
        · cases hs : shdrs with
          | nil => exact absurd hs hne
          | cons s t =>
            have := (h5 0 s (by simp [hs])).1
            have hl := congrArg List.length this
            rw [length_fieldBytes, ← shdr_widths c s] at hl
            have : (fmtWidths (shdrFmt c)).sum = c.shdrBytes := by cases c <;> decide
            rw [this] at hl
            simp only [slice, List.length_take, List.length_drop] at hl ⊢
            omega
      · intro s hs
        obtain ⟨i, hi⟩ := List.getElem?_of_mem hs
        exact (h5 i s hi).2
    refine ⟨hf, ?_⟩
    have := (C47_length long o c h shdrs file hf hp hlong).1
    rcases Nat.lt_or_ge file.length (bytesNeeded long c) with hlt | hge
    · rw [this hlt] at ho; cases ho
    · exact hge
  · rintro ⟨hf, hl⟩
    exact (C47_length long o c h shdrs file hf hp hlong).2 hl

/-- **C97** (violated) the entry size of the header is the size of the table, not the distance between two headers: in a file whose
section headers have an entry size other than 40 or 64 bytes, the number of sections is not the one of the header. -/
theorem C97_entry_size (long : Nat) (file : Bytes) (e : ElfFile) (h : openElf long file = .ok e) (hn : e.ehdr.shnum ≠ 0)
    (hs : e.ehdr.shentsize ≠ e.cls.shdrBytes) : e.shdrs.length ≠ e.ehdr.shnum := by
  obtain ⟨_, h1, _⟩ := C97_sections long file e h
  intro he
  rw [he] at h1
  exact hs (Nat.eq_of_mul_eq_mul_left (Nat.pos_of_ne_zero hn) h1).symm

theorem phdr_widths (c : ElfClass) (p : RawPhdr) : fmtWidths (phdrFmt c) = (phdrFields c p).map Prod.fst := by
  cases c <;> (simp only [phdrFields, List.map]; decide)

/-- What `Elf_Phdr(*hdr)` makes of the fields of a 64-bit program header: every field from `p_flags` to `p_memsz` is taken for the next. -/
def phdrRead : ElfClass → RawPhdr → RawPhdr
  | .c32, p => p
  | .c64, p => { type := p.type, offset := p.flags, vaddr := p.offset, paddr := p.vaddr, filesz := p.paddr, memsz := p.filesz, flags := p.memsz, align := p.align }

theorem phdrOf_enc (o : Order) (c : ElfClass) (p : RawPhdr) (h : Fits (phdrFields c p)) :
    phdrOf o ((phdrFields c p).map fun f => intBytes o f.1 f.2) = .ok (phdrRead c p) := by
  have hf : ∀ f ∈ phdrFields c p, fromBytes o (intBytes o f.1 f.2) = f.2 := fun f hf => fromBytes_intBytes o _ _ (h f hf)
  cases c <;>
  · simp only [phdrFields, List.forall_mem_cons] at hf
    obtain ⟨h1, h2, h3, h4, h5, h6, h7, h8, _⟩ := hf
    simp only [phdrFields, List.map, phdrOf, h1, h2, h3, h4, h5, h6, h7, h8, phdrRead]

theorem phdrs_enc (e : ElfFile) (phdrs : List RawPhdr) (h : HasPhdrs e.order e.cls e.ehdr phdrs e.file) :
    e.phdrs = .ok (phdrs.map (phdrRead e.cls)) := by
  obtain ⟨file, o, c, hd, shdrs⟩ := e
  simp only at h ⊢
  have ht : table file (phdrFmt c) hd.phnum hd.phentsize hd.phoff = .ok (phdrs.map fun s => (phdrFields c s).map fun f => intBytes o f.1 f.2) := by
    unfold table
    by_cases h0 : phdrs = []
    · simp [h.count, h0]
    · have hne : hd.phnum ≠ 0 := by
        rw [h.count]; exact fun hl => h0 (List.length_eq_zero_iff.mp hl)
      rw [if_neg hne]
      obtain ⟨pre, post, hfile', hpre⟩ := h.table h0
      have hent : hd.phentsize = calcsize (phdrFmt c) := by rw [h.entsize]; cases c <;> decide
      have key : ∀ l : List RawPhdr, (l.flatMap fun s => fieldBytes o (phdrFields c s)).length = l.length * calcsize (phdrFmt c) := by
        intro l
        induction l with
        | nil => simp
        | cons s t ih =>
          simp only [List.flatMap_cons, List.length_append, List.length_cons, ih]
          rw [calcsize_fields o (phdrFmt c) _ (phdr_widths c s), Nat.add_mul]
          omega
      have hblen : (phdrs.flatMap fun s => fieldBytes o (phdrFields c s)).length = hd.phnum * hd.phentsize := by
        rw [h.count, hent, key]
      rw [← hpre, ← hblen, hfile', readAt_mid]
      simp only [bind, Except.bind]
      have : (phdrs.flatMap fun s => fieldBytes o (phdrFields c s)) = (phdrs.map (phdrFields c)).flatMap (fieldBytes o) := by
        rw [List.flatMap_map]
      rw [this, records_fields o (phdrFmt c) (by cases c <;> decide)]
      · simp
      · intro fs hfs
        obtain ⟨s, _, rfl⟩ := List.mem_map.mp hfs
        exact phdr_widths c s
  unfold ElfFile.phdrs
  simp only [ht, bind, Except.bind]
  exact mapM_map_ok (phdrOf o) _ (phdrRead c) phdrs fun s hs => phdrOf_enc o c s (h.fits s hs)

/-- **C97** (32-bit files) the program headers of a 32-bit file, of either byte order, are read back. -/
theorem C97_phdrs_partial (e : ElfFile) (phdrs : List RawPhdr) (h : HasPhdrs e.order e.cls e.ehdr phdrs e.file) (hc : e.cls = .c32) :
    e.phdrs = .ok phdrs := by
  rw [phdrs_enc e phdrs h, hc]
  exact congrArg _ (List.map_id phdrs)

/-- **C97** (violated) the program headers of any 64-bit file are read with `p_flags` as the offset, the offset as the virtual
address, and so on; a program header is read right only if these six fields are the same number. -/
theorem C97_phdrs64 (e : ElfFile) (phdrs : List RawPhdr) (h : HasPhdrs e.order e.cls e.ehdr phdrs e.file) (hc : e.cls = .c64) :
    e.phdrs = .ok (phdrs.map fun p => { type := p.type, offset := p.flags, vaddr := p.offset, paddr := p.vaddr, filesz := p.paddr, memsz := p.filesz, flags := p.memsz, align := p.align }) ∧
    (e.phdrs = .ok phdrs ↔ ∀ p ∈ phdrs, p.flags = p.offset ∧ p.offset = p.vaddr ∧ p.vaddr = p.paddr ∧ p.paddr = p.filesz ∧ p.filesz = p.memsz) := by
  have h1 := phdrs_enc e phdrs h
  rw [hc] at h1
  refine ⟨h1, ?_⟩
  rw [h1]
  constructor
  · intro he p hp
    have he : phdrs.map (phdrRead .c64) = phdrs := Except.ok.inj he
    have : phdrRead .c64 p = p := by
      have := List.map_inj_left.mp (he.trans (List.map_id phdrs).symm) p hp
      exact this
    obtain ⟨a, b, c, d, e, f, g, h⟩ := p
    simp only [phdrRead, RawPhdr.mk.injEq] at this ⊢
    omega
  · intro hall
    have : phdrs.map (phdrRead .c64) = phdrs := by
      conv => rhs; rw [← List.map_id phdrs]
      refine List.map_inj_left.mpr fun p hp => ?_
      have := hall p hp
      obtain ⟨a, b, c, d, e, f, g, h⟩ := p
      simp only at this
      obtain ⟨rfl, rfl, rfl, rfl, rfl⟩ := this
      rfl
    rw [this]

theorem eight {α : Type} (r : List α) (h : r.length = 8) : ∃ a b c d e f g k, r = [a, b, c, d, e, f, g, k] := by
  match r, h with
  | [a, b, c, d, e, f, g, k], _ => exact ⟨a, b, c, d, e, f, g, k, rfl⟩

/-- **C97** an opened file, whatever its headers say, has program headers: those of the `e_phnum * e_phentsize` bytes at `e_phoff`,
one directly after the other. -/
theorem C97_phdrs_opened (long : Nat) (file : Bytes) (e : ElfFile) (h : openElf long file = .ok e) :
    ∃ l, e.phdrs = .ok l ∧ l.length * e.cls.phdrBytes = e.ehdr.phnum * e.ehdr.phentsize ∧
      ∀ (i : Nat) (p : RawPhdr), l[i]? = some p → ∃ q, p = phdrRead e.cls q ∧
        slice file (e.ehdr.phoff + i * e.cls.phdrBytes) e.cls.phdrBytes = fieldBytes e.order (phdrFields e.cls q) := by
  unfold openElf at h
  obtain ⟨ident, _, h⟩ := bind_ok h
  split at h
  · cases h
  obtain ⟨o, _, h⟩ := bind_ok h
  obtain ⟨c, _, h⟩ := bind_ok h
  obtain ⟨_, _, h⟩ := bind_ok h
  obtain ⟨_, _, h⟩ := bind_ok h
  obtain ⟨eh, _, h⟩ := bind_ok h
  obtain ⟨ph, hph, h⟩ := bind_ok h
  obtain ⟨sh, hsh, h⟩ := bind_ok h
  obtain ⟨shdrs, hm, h⟩ := bind_ok h
  cases h
  have hsz : calcsize (phdrFmt c) = c.phdrBytes := by cases c <;> decide
  obtain ⟨e1, e2⟩ := table_inv _ _ _ _ _ _ hph
  rw [hsz] at e1 e2
  have hw32 : fmtWidths (phdrFmt .c32) = [4, 4, 4, 4, 4, 4, 4, 4] := by decide
  have hw64 : fmtWidths (phdrFmt .c64) = [4, 4, 8, 8, 8, 8, 8, 8] := by decide
  have hone : ∀ r ∈ ph, ∃ p q, phdrOf o r = .ok p ∧ p = phdrRead c q ∧ fieldBytes o (phdrFields c q) = r.flatten := by
    intro r hr
    obtain ⟨i, hi⟩ := List.getElem?_of_mem hr
    obtain ⟨e5, e6⟩ := e2 i r hi
    have hlen : r.map List.length = fmtWidths (phdrFmt c) := by
      rw [e5, chunks_length _ _ (by rw [e6, ← hsz]; exact Nat.le_refl _)]
    clear e5 e6 hi hr e1 e2 hph
    cases c <;> first | rw [hw32] at hlen | rw [hw64] at hlen
    all_goals
      obtain ⟨a, b, c, d, e, f, g, k, rfl⟩ := eight r (by simpa using congrArg List.length hlen)
      simp only [List.map_cons, List.map_nil, List.cons.injEq, and_true] at hlen
      obtain ⟨h1, h2, h3, h4, h5, h6, h7, h8⟩ := hlen
    · refine ⟨_, { type := fromBytes o a, offset := fromBytes o b, vaddr := fromBytes o c, paddr := fromBytes o d, filesz := fromBytes o e, memsz := fromBytes o f, flags := fromBytes o g, align := fromBytes o k }, rfl, rfl, ?_⟩
      refine (fieldBytes_of o _ [a, b, c, d, e, f, g, k] ?_ rfl).1
      simp only [phdrFields, List.map_cons, List.map_nil, h1, h2, h3, h4, h5, h6, h7, h8]
    · refine ⟨_, { type := fromBytes o a, flags := fromBytes o b, offset := fromBytes o c, vaddr := fromBytes o d, paddr := fromBytes o e, filesz := fromBytes o f, memsz := fromBytes o g, align := fromBytes o k }, rfl, rfl, ?_⟩
      refine (fieldBytes_of o _ [a, b, c, d, e, f, g, k] ?_ rfl).1
      simp only [phdrFields, List.map_cons, List.map_nil, h1, h2, h3, h4, h5, h6, h7, h8]
  have hall : ∃ l, ph.mapM (phdrOf o) = .ok l := by
    clear e1 e2 hph
    induction ph with
    | nil => exact ⟨[], rfl⟩
    | cons r t ih =>
      obtain ⟨p, _, hp, _⟩ := hone r (by simp)
      obtain ⟨l, hl⟩ := ih fun r hr => hone r (List.mem_cons_of_mem _ hr)
      exact ⟨p :: l, by rw [List.mapM_cons, hp, hl]; rfl⟩
  obtain ⟨l, hl⟩ := hall
  obtain ⟨e3, e4⟩ := mapM_ok_get _ _ _ hl
  refine ⟨l, by unfold ElfFile.phdrs; simp only [hph, bind, Except.bind]; exact hl, by rw [e3]; exact e1, ?_⟩
  intro i p hp
  obtain ⟨r, hr, hrp⟩ := e4 i p hp
  obtain ⟨p', q, h1, h2, h3⟩ := hone r (List.mem_of_getElem? hr)
  rw [h1] at hrp
  cases hrp
  obtain ⟨e5, e6⟩ := e2 i r hr
  refine ⟨q, h2, ?_⟩
  rw [h3, e5, chunks_flatten]
  have : (fmtWidths (phdrFmt c)).sum = c.phdrBytes := hsz
  rw [this, List.take_of_length_le (by omega)]

/-- A 64-bit file with one program header and no sections. -/
def exEhdr64 : Ehdr :=
  { ident := [0x7F, 0x45, 0x4C, 0x46, 2, 1, 1, 0, 0, 0, 0, 0, 0, 0, 0, 0], type := 2, machine := 243, version := 1, entry := 0, phoff := 64, shoff := 0, flags := 0, ehsize := 64, phentsize := 56, phnum := 1, shentsize := 64, shnum := 0, shstrndx := 0 }
def exPhdr64 : RawPhdr := { type := 1, offset := 4096, vaddr := 0x42000000, paddr := 0x42000000, filesz := 100, memsz := 100, flags := 5, align := 4096 }
def exFile64 : Bytes := exEhdr64.ident ++ fieldBytes .little (ehdrFields .c64 exEhdr64) ++ fieldBytes .little (phdrFields .c64 exPhdr64)

/-- **C97** (violated) a 64-bit file which is opened and whose only segment, at offset 4096 with flags 5, is read as one at offset 5. -/
theorem C97_phdrs64_wrong :
    openElf 8 exFile64 = .ok { file := exFile64, order := .little, cls := .c64, ehdr := exEhdr64, shdrs := [] } ∧
    HasPhdrs .little .c64 exEhdr64 [exPhdr64] exFile64 ∧
    ({ file := exFile64, order := .little, cls := .c64, ehdr := exEhdr64, shdrs := [] } : ElfFile).phdrs ≠ .ok [exPhdr64] := by
  have hp : HasPhdrs .little .c64 exEhdr64 [exPhdr64] exFile64 := by
    refine ⟨rfl, rfl, fun _ => ⟨exEhdr64.ident ++ fieldBytes .little (ehdrFields .c64 exEhdr64), [], by simp [exFile64], by decide +kernel⟩, ?_⟩
    intro p hp
    rw [List.mem_singleton.mp hp]
    unfold Fits
    decide +kernel
  refine ⟨by decide +kernel, hp, ?_⟩
  rw [phdrs_enc _ [exPhdr64] hp]
  intro h
  exact absurd (Except.ok.inj h) (by decide +kernel)

/-- A table of 5 section headers with an entry size of 48 bytes: 240 bytes, in which 6 headers are read. -/
def exEhdr48 : Ehdr := { exEhdr with shentsize := 48, shnum := 5, shoff := 52 }
def exFile48 : Bytes := exEhdr48.ident ++ fieldBytes .little (ehdrFields .c32 exEhdr48) ++ List.replicate 240 1

/-- **C97** (violated) the header says 5 sections; 6 are read. -/
theorem C97_entry_size_wrong : ∃ e, openElf 8 exFile48 = .ok e ∧ e.ehdr = exEhdr48 ∧ e.ehdr.shnum = 5 ∧ e.shdrs.length = 6 := by
  cases h : openElf 8 exFile48 with
  | error x => exact absurd h (by cases x <;> decide +kernel)
  | ok e =>
    have h1 : openElf 8 exFile48 = .ok { file := exFile48, order := .little, cls := .c32, ehdr := exEhdr48, shdrs := List.replicate 6 ⟨0x01010101, 0x01010101, 0x01010101, 0x01010101, 0x01010101, 0x01010101, 0x01010101, 0x01010101, 0x01010101, 0x01010101⟩ } := by
      decide +kernel
    rw [h1] at h
    cases h
    exact ⟨_, rfl, rfl, rfl, rfl⟩

end EspSize
