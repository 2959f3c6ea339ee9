import Verif.Proofs.Bytes
/-! # C45-C48: integers, structures and strings of ELF files -/
namespace EspSize

/-! ### C45 ULEB128 -/

/-- Every number has an encoding; one byte more is also an encoding. -/
theorem uleb_exists (n : Nat) : ∃ bs, Uleb n bs := by
  induction n using Nat.strongRecOn with
  | ind n ih =>
    by_cases h : n < 128
    · have hb : (UInt8.ofNat n).toNat = n := by simp [UInt8.toNat_ofNat']; omega
      exact ⟨[UInt8.ofNat n], by have := Uleb.last (b := UInt8.ofNat n) (by omega); rw [hb] at this; exact this⟩
    · obtain ⟨bs, hbs⟩ := ih (n / 128) (by omega)
      have hb : (UInt8.ofNat (n % 128 + 128)).toNat = n % 128 + 128 := by simp [UInt8.toNat_ofNat']; omega
      refine ⟨UInt8.ofNat (n % 128 + 128) :: bs, ?_⟩
      have := Uleb.more (b := UInt8.ofNat (n % 128 + 128)) (by omega) hbs
      rw [hb] at this
      have he : n % 128 + 128 - 128 + 128 * (n / 128) = n := by omega
      rw [he] at this
      exact this

/-- **C45** decoding an encoding of `n`, with any padding, anywhere in any data, gives `n` and the offset after it. -/
theorem C45_uleb_decode (n : Nat) (bs pre post : Bytes) (h : Uleb n bs) :
    getUleb128 (pre ++ bs ++ post) pre.length = .ok (n, pre.length + bs.length) := by
  unfold getUleb128
  rw [List.append_assoc, drop_pre]
  simp [bind, Except.bind, ulebLoop_enc h post 0 0 (by simp)]

/-- **C45** for any data and offset: a decoded number is what is encoded there, the offset advances and stays within
the data; decoding fails only if no byte from the offset on ends a number. -/
theorem C45_uleb_any (d : Bytes) (off : Nat) :
    (∃ n bs pre post, getUleb128 d off = .ok (n, off + bs.length) ∧ d = pre ++ bs ++ post ∧ pre.length = off ∧ Uleb n bs ∧
      off < off + bs.length ∧ off + bs.length ≤ d.length) ∨
    (getUleb128 d off = .error .indexError ∧ ∀ b ∈ d.drop off, 128 ≤ b.toNat) := by
  unfold getUleb128
  rcases ulebLoop_inv (d.drop off) 0 0 (by simp) with ⟨h1, h2⟩ | ⟨n, bs, post, h1, h2, h3⟩
  · right
    exact ⟨by simp [bind, Except.bind, h1], h2⟩
  · left
    have hp := h2.length_pos
    have ho : off ≤ d.length := by
      by_cases hle : off ≤ d.length
      · exact hle
      · rw [List.drop_of_length_le (by omega)] at h1
        have := congrArg List.length h1
        simp at this; omega
    have hd : d = d.take off ++ bs ++ post := by
      rw [List.append_assoc, ← h1, List.take_append_drop]
    have hl : (d.take off).length = off := by simp; omega
    refine ⟨n, bs, d.take off, post, by simp [bind, Except.bind, h3], hd, hl, h2, by omega, ?_⟩
    have := congrArg List.length hd
    simp only [List.length_append, hl] at this
    omega

/-- The number and its end are unique. -/
theorem uleb_unique {n m : Nat} {a b p q : Bytes} (h1 : Uleb n a) (h2 : Uleb m b) (h : a ++ p = b ++ q) : n = m ∧ a = b ∧ p = q := by
  have e1 := ulebLoop_enc h1 p 0 0 (by simp)
  have e2 := ulebLoop_enc h2 q 0 0 (by simp)
  rw [h, e2] at e1
  simp only [Nat.zero_add, Nat.zero_mul, Nat.pow_zero, Nat.mul_one, Except.ok.injEq, Prod.mk.injEq] at e1
  have hab := List.append_inj h e1.2.symm
  exact ⟨e1.1.symm, hab.1, hab.2⟩

example : Uleb 624485 [0xE5, 0x8E, 0x26] ∧ getUleb128 [0xFF, 0xE5, 0x8E, 0x26, 0x80] 1 = .ok (624485, 4) ∧
    getUleb128 [0x80, 0x80] 0 = .error .indexError :=
  ⟨.more (b := 0xE5) (by decide) (.more (b := 0x8E) (by decide) (.last (b := 0x26) (by decide))), by decide, by decide⟩

/-! ### C46 SLEB128 -/

/-- Every integer has an encoding. -/
theorem sleb_exists (z : Int) : ∃ bs, Sleb z bs := by
  have key : ∀ k : Nat, ∀ z : Int, z.natAbs ≤ k → ∃ bs, Sleb z bs := by
    intro k
    induction k with
    | zero =>
      intro z hz
      have : z = 0 := by omega
      subst this
      exact ⟨[0], Sleb.pos (b := 0) (by decide)⟩
    | succ k ih =>
      intro z hz
      by_cases h1 : 0 ≤ z ∧ z < 64
      · have hb : (UInt8.ofNat z.toNat).toNat = z.toNat := by simp [UInt8.toNat_ofNat']; omega
        have := Sleb.pos (b := UInt8.ofNat z.toNat) (by omega)
        rw [hb] at this
        exact ⟨_, by rw [show z = (z.toNat : Int) by omega]; simpa using this⟩
      · by_cases h2 : -64 ≤ z ∧ z < 0
        · have hb : (UInt8.ofNat (z + 128).toNat).toNat = (z + 128).toNat := by simp [UInt8.toNat_ofNat']; omega
          have := Sleb.neg (b := UInt8.ofNat (z + 128).toNat) (by omega) (by omega)
          rw [hb] at this
          have he : (((z + 128).toNat : Int) - 128) = z := by omega
          rw [he] at this
          exact ⟨_, this⟩
        · obtain ⟨bs, hbs⟩ := ih (z / 128) (by omega)
          have hb : (UInt8.ofNat ((z % 128).toNat + 128)).toNat = (z % 128).toNat + 128 := by simp [UInt8.toNat_ofNat']; omega
          have := Sleb.more (b := UInt8.ofNat ((z % 128).toNat + 128)) (by omega) hbs
          rw [hb] at this
          have he : (((z % 128).toNat + 128 : Nat) : Int) - 128 + 128 * (z / 128) = z := by omega
          rw [he] at this
          exact ⟨_, this⟩
  exact key _ z (Nat.le_refl _)

/-- What is read for `z` in `n` bytes, if bit 6 of the byte that the program looks at is `neg`. -/
def slebSeen (z : Int) (n : Nat) (neg : Bool) : Int :=
  if neg then (if 0 ≤ z then z - (2 ^ (n * 7) : Nat) else z) else if 0 ≤ z then z else z + (2 ^ (n * 7) : Nat)

theorem sleb_seen {z : Int} {bs d : Bytes} {off m : Nat} (h : Sleb z bs) (hat : ∃ pre post, d = pre ++ bs ++ post ∧ pre.length = off) (hb : byteBefore d off = .ok m) :
    getSleb128 d off = .ok (slebSeen z bs.length (m &&& 0x40 ≠ 0), off + bs.length) := by
  obtain ⟨n, hu, hz⟩ := h.uleb
  obtain ⟨pre, post, hd, hl⟩ := hat
  have h1 : getUleb128 d off = .ok (n, off + bs.length) := by rw [hd, ← hl]; exact C45_uleb_decode n bs pre post hu
  have hk : off + bs.length - off = bs.length := by omega
  unfold getSleb128 slebSeen
  simp only [bind, Except.bind, h1, hb, hk]
  by_cases h0 : m &&& 0x40 = 0
  · simp only [h0, if_true, ne_eq, not_true_eq_false, decide_false, Bool.false_eq_true, if_false]
    rcases hz with hz | hz
    · rw [if_pos hz.1, hz.2]
    · rw [if_neg (by omega), hz.2, Int.sub_add_cancel]
  · simp only [h0, if_false, ne_eq, not_false_eq_true, decide_true, if_true]
    rcases hz with hz | hz
    · rw [if_pos hz.1, hz.2]
    · rw [if_neg (by omega), hz.2]

/-- **C46** (what holds) the offset after an encoded number is right, and the number is right exactly if bit 6 of the byte
*before* the number is its sign; otherwise it is off by the power of 2 that makes it have the other sign. -/
theorem C46_sleb_partial (z : Int) (bs pre post : Bytes) (h : Sleb z bs) (b : UInt8) :
    getSleb128 (pre ++ [b] ++ bs ++ post) (pre.length + 1) = .ok (slebSeen z bs.length (b.toNat &&& 0x40 ≠ 0), pre.length + 1 + bs.length) ∧
      (slebSeen z bs.length (b.toNat &&& 0x40 ≠ 0) = z ↔ (b.toNat &&& 0x40 ≠ 0 ↔ z < 0)) := by
  refine ⟨sleb_seen h ⟨pre ++ [b], post, rfl, by simp⟩ (by simp [byteBefore, byteAt]), ?_⟩
  have hp : 0 < 2 ^ (bs.length * 7) := Nat.two_pow_pos _
  unfold slebSeen
  generalize 2 ^ (bs.length * 7) = p at hp
  by_cases h0 : b.toNat &&& 0x40 = 0 <;> by_cases hz : 0 ≤ z <;> simp [h0, hz] <;> omega

/-- **C46** at the start of the data the last byte of the data takes the place of the byte before. -/
theorem C46_sleb_start (z : Int) (bs post : Bytes) (h : Sleb z bs) (b : UInt8) (hl : (bs ++ post).getLast? = some b) :
    getSleb128 (bs ++ post) 0 = .ok (slebSeen z bs.length (b.toNat &&& 0x40 ≠ 0), bs.length) := by
  have := sleb_seen h (d := bs ++ post) (off := 0) (m := b.toNat) ⟨[], post, rfl, rfl⟩ (by simp [byteBefore, hl])
  simpa using this

/-- **C46** (violated) the encoding of -2 after a byte without bit 6 is decoded as 126, the encoding of 2 after a byte
with bit 6 as -126; at offset 0 the last byte of the data decides. -/
theorem C46_sleb_wrong :
    Sleb (-2) [0x7E] ∧ Sleb 2 [0x02] ∧
    getSleb128 [0x01, 0x7E] 1 = .ok (126, 2) ∧ getSleb128 [0x40, 0x02] 1 = .ok (-126, 2) ∧
    getSleb128 [0x02, 0x40] 0 = .ok (-126, 1) :=
  ⟨.neg (b := 0x7E) (by decide) (by decide), .pos (b := 0x02) (by decide), by decide, by decide, by decide⟩

/-! ### C47 fixed-width integers -/

/-- **C47** an unsigned integer of any width in either byte order. -/
theorem C47_uint (o : Order) (n v : Nat) (pre post : Bytes) (h : v < 256 ^ n) :
    getUint o (pre ++ intBytes o n v ++ post) n pre.length = (v, pre.length + n) := by
  have := slice_append pre (intBytes o n v) post
  rw [length_intBytes] at this
  simp only [getUint, this, fromBytes_intBytes o n v h]

/-- The two's complement of `z` in `n` bytes. -/
def twos (n : Nat) (z : Int) : Nat := if 0 ≤ z then z.toNat else ((256 ^ n : Nat) + z).toNat

/-- **C47** a signed integer of any width in either byte order. -/
theorem C47_sint (o : Order) (n : Nat) (z : Int) (pre post : Bytes) (h1 : -(256 ^ n : Nat) ≤ 2 * z) (h2 : 2 * z < (256 ^ n : Nat)) :
    getSint o (pre ++ intBytes o n (twos n z) ++ post) n pre.length = (z, pre.length + n) := by
  have hs := slice_append pre (intBytes o n (twos n z)) post
  rw [length_intBytes] at hs
  have hlt : twos n z < 256 ^ n := by
    unfold twos
    split <;> omega
  simp only [getSint, hs, fromBytesSigned, fromBytes_intBytes o n _ hlt, length_intBytes]
  refine Prod.ext ?_ rfl
  simp only
  unfold twos at hlt ⊢
  by_cases hz : 0 ≤ z
  · simp only [hz, if_true] at hlt ⊢
    have : 2 * z.toNat < 256 ^ n := by omega
    simp only [this, if_true]
    omega
  · simp only [hz, if_false] at hlt ⊢
    have : ¬ 2 * ((256 ^ n : Nat) + z).toNat < 256 ^ n := by omega
    simp only [this, if_false]
    omega

example : getSint .little [0xFF, 0xFE, 0xFF, 0x00] 2 1 = (-2, 3) ∧ getSint .big [0xFF, 0xFE] 2 0 = (-2, 2) ∧
    getUint .big [0, 1, 2] 3 0 = (258, 3) := by decide

/-- Reading past the end is not noticed: the missing bytes count as if they were not there. -/
theorem uint_truncated (o : Order) (n : Nat) (d : Bytes) : getUint o d n d.length = (0, d.length + n) := by
  cases o <;> simp [getUint, slice, fromBytes, fromLE]

/-! ### C47 structures -/

theorem shdr_widths (c : ElfClass) (s : RawShdr) : fmtWidths (shdrFmt c) = (shdrFields c s).map Prod.fst := by
  cases c <;> (simp only [shdrFields, List.map]; decide)

theorem sym_widths (c : ElfClass) (s : RawSym) : fmtWidths (symFmt c) = (symFields c s).map Prod.fst := by
  cases c <;> (simp only [symFields, List.map]; decide)

theorem ehdr_widths (c : ElfClass) (h : Ehdr) : fmtWidths (ehdrFmt c) = 16 :: (ehdrFields c h).map Prod.fst := by
  cases c <;> (simp only [ehdrFields, List.map]; decide)

theorem calcsize_shdr (c : ElfClass) : calcsize (shdrFmt c) = (match c with | .c32 => 40 | .c64 => 64) := by cases c <;> decide
theorem calcsize_sym (c : ElfClass) : calcsize (symFmt c) = (match c with | .c32 => 16 | .c64 => 24) := by cases c <;> decide

theorem calcsize_fields (o : Order) (fmt : Str) (fs : List (Nat × Nat)) (h : fmtWidths fmt = fs.map Prod.fst) :
    (fieldBytes o fs).length = calcsize fmt := by
  rw [length_fieldBytes, calcsize, h]

/-- A table of encoded records is read back as their fields. -/
theorem records_fields (o : Order) (fmt : Str) (hpos : 0 < calcsize fmt) (rs : List (List (Nat × Nat)))
    (h : ∀ fs ∈ rs, fmtWidths fmt = fs.map Prod.fst) :
    records fmt (rs.flatMap (fieldBytes o)) = .ok (rs.map fun fs => fs.map fun f => intBytes o f.1 f.2) := by
  induction rs with
  | nil => unfold records; simp
  | cons fs t ih =>
    have hw := h fs (by simp)
    have hl := calcsize_fields o fmt fs hw
    have hne : fieldBytes o fs ++ t.flatMap (fieldBytes o) ≠ [] := by
      intro he
      have := congrArg List.length he
      simp only [List.length_append, List.length_nil] at this
      omega
    have hlen : ¬ (fieldBytes o fs ++ t.flatMap (fieldBytes o)).length < calcsize fmt := by
      simp only [List.length_append]; omega
    have hdrop : (fieldBytes o fs ++ t.flatMap (fieldBytes o)).drop (calcsize fmt) = t.flatMap (fieldBytes o) := by
      rw [← hl]; simp
    rw [List.flatMap_cons]
    unfold records
    rw [if_neg hne, if_neg hlen, if_neg (by omega), hdrop, ih fun fs hfs => h fs (List.mem_cons_of_mem _ hfs)]
    simp only [bind, Except.bind, List.map_cons]
    rw [hw, chunks_fields]

theorem shdrOf_enc (o : Order) (c : ElfClass) (s : RawShdr) (h : Fits (shdrFields c s)) :
    shdrOf o ((shdrFields c s).map fun f => intBytes o f.1 f.2) = .ok s := by
  have hf : ∀ f ∈ shdrFields c s, fromBytes o (intBytes o f.1 f.2) = f.2 := fun f hf => fromBytes_intBytes o _ _ (h f hf)
  simp only [shdrFields, List.forall_mem_cons] at hf
  obtain ⟨h1, h2, h3, h4, h5, h6, h7, h8, h9, h10, _⟩ := hf
  simp only [shdrFields, List.map, shdrOf, h1, h2, h3, h4, h5, h6, h7, h8, h9, h10]

/-- **C47** a symbol of either class, in either byte order, is read back. -/
theorem symOf_enc (o : Order) (c : ElfClass) (s : RawSym) (h : Fits (symFields c s)) :
    symOf o c s.strndx ((symFields c s).map fun f => intBytes o f.1 f.2) = .ok s := by
  have hf : ∀ f ∈ symFields c s, fromBytes o (intBytes o f.1 f.2) = f.2 := fun f hf => fromBytes_intBytes o _ _ (h f hf)
  cases c <;>
  · simp only [symFields, List.forall_mem_cons] at hf
    obtain ⟨h1, h2, h3, h4, h5, h6, _⟩ := hf
    simp only [symFields, List.map, symOf, h1, h2, h3, h4, h5, h6]

theorem ehdrOf_enc (o : Order) (c : ElfClass) (e : Ehdr) (h : Fits (ehdrFields c e)) :
    ehdrOf o (e.ident :: (ehdrFields c e).map fun f => intBytes o f.1 f.2) = .ok e := by
  have hf : ∀ f ∈ ehdrFields c e, fromBytes o (intBytes o f.1 f.2) = f.2 := fun f hf => fromBytes_intBytes o _ _ (h f hf)
  simp only [ehdrFields, List.forall_mem_cons] at hf
  obtain ⟨h1, h2, h3, h4, h5, h6, h7, h8, h9, h10, h11, h12, h13, _⟩ := hf
  simp only [ehdrFields, List.map, ehdrOf, h1, h2, h3, h4, h5, h6, h7, h8, h9, h10, h11, h12, h13]

theorem mapM_map_ok {α β γ : Type} (f : β → Except Err γ) (g : α → β) (k : α → γ) (l : List α) (h : ∀ a ∈ l, f (g a) = .ok (k a)) :
    (l.map g).mapM f = .ok (l.map k) := by
  induction l with
  | nil => rfl
  | cons a t ih =>
    simp only [List.map_cons, List.mapM_cons, h a (by simp), ih fun a ha => h a (List.mem_cons_of_mem _ ha)]
    rfl

theorem readAt_mid (pre bs post : Bytes) : readAt (pre ++ bs ++ post) pre.length bs.length = .ok bs := by
  unfold readAt
  rw [slice_append]; simp

theorem readAt_zero (file : Bytes) (n : Nat) (h : n ≤ file.length) : readAt file 0 n = .ok (file.take n) := by
  unfold readAt slice
  simp; omega

/-- The program headers can be read: there are none, or a table of entries of the standard size is in the file. -/
def PhdrsReadable (c : ElfClass) (h : Ehdr) (file : Bytes) : Prop :=
  h.phnum = 0 ∨ (h.phentsize = calcsize (phdrFmt c) ∧ h.phoff + h.phnum * h.phentsize ≤ file.length)

theorem records_total (fmt : Str) (hpos : 0 < calcsize fmt) (k : Nat) (d : Bytes) (h : d.length = k * calcsize fmt) : ∃ l, records fmt d = .ok l := by
  induction k generalizing d with
  | zero =>
    have : d = [] := by rw [Nat.zero_mul] at h; exact List.length_eq_zero_iff.mp h
    exact ⟨[], by subst this; unfold records; simp⟩
  | succ k ih =>
    rw [Nat.add_mul, Nat.one_mul] at h
    obtain ⟨l, hl⟩ := ih (d.drop (calcsize fmt)) (by simp; omega)
    have hne : d ≠ [] := by intro he; subst he; simp at h; omega
    refine ⟨chunks (fmtWidths fmt) d :: l, ?_⟩
    unfold records
    rw [if_neg hne, if_neg (by omega), if_neg (by omega), hl]
    rfl

theorem phdrs_ok {c : ElfClass} {h : Ehdr} {file : Bytes} (hp : PhdrsReadable c h file) :
    ∃ l, table file (phdrFmt c) h.phnum h.phentsize h.phoff = .ok l := by
  unfold table
  by_cases h0 : h.phnum = 0
  · exact ⟨[], by simp [h0]⟩
  · rcases hp with hp | ⟨h1, h2⟩
    · exact absurd hp h0
    · have hl : (slice file h.phoff (h.phnum * h.phentsize)).length = h.phnum * h.phentsize := by
        simp only [slice, List.length_take, List.length_drop]; omega
      rw [if_neg h0]
      simp only [readAt, hl, if_true, bind, Except.bind]
      exact records_total _ (by cases c <;> decide) h.phnum _ (by rw [hl, h1])

/-- **C47** (files of at least the native header size, 76 bytes on common platforms): a file with this ELF header and
these section headers, in either class and byte order, wherever the section headers are, is read back. -/
theorem C47_open_partial (long : Nat) (o : Order) (c : ElfClass) (h : Ehdr) (shdrs : List RawShdr) (file : Bytes)
    (hf : IsElf o c h shdrs file) (hp : PhdrsReadable c h file) (hlong : long = 4 ∨ long = 8)
    (hlen : nativeSize long (ehdrFmt c) ≤ file.length) :
    openElf long file = .ok { file := file, order := o, cls := c, ehdr := h, shdrs := shdrs } := by
  obtain ⟨irest, hi, hil⟩ := hf.ident
  obtain ⟨rest, hfile⟩ := hf.header
  have hident : h.ident.length = 16 := by rw [hi]; simp [hil]
  have hn16 : 16 ≤ nativeSize long (ehdrFmt c) := by rcases hlong with rfl | rfl <;> cases c <;> decide
  have htake : file.take 16 = h.ident := by
    rw [hfile, List.append_assoc, ← hident]; simp
  have hr1 : readAt file 0 16 = .ok h.ident := by rw [readAt_zero _ _ (by omega), htake]
  have hmagic : ¬ h.ident.take 4 ≠ [0x7F, 0x45, 0x4C, 0x46] := by rw [hi]; simp
  have ho : orderOf (h.ident.drop 5) = .ok o := by rw [hi]; cases o <;> rfl
  have hc : classOf (h.ident.drop 4) = .ok c := by rw [hi]; cases c <;> rfl
  have hr2 : readAt file 0 (nativeSize long (ehdrFmt c)) = .ok (file.take (nativeSize long (ehdrFmt c))) := readAt_zero _ _ hlen
  have hfb : (fieldBytes o (ehdrFields c h)).length + 16 = calcsize (ehdrFmt c) := by
    rw [length_fieldBytes, calcsize, ehdr_widths c h, List.sum_cons, Nat.add_comm]
  have hcn : calcsize (ehdrFmt c) ≤ nativeSize long (ehdrFmt c) := by rcases hlong with rfl | rfl <;> cases c <;> decide
  have hu : unpackFrom (ehdrFmt c) (file.take (nativeSize long (ehdrFmt c))) 0 =
      .ok (h.ident :: (ehdrFields c h).map fun f => intBytes o f.1 f.2) := by
    unfold unpackFrom
    rw [if_neg (by simp only [List.length_take]; omega), List.drop_zero, ehdr_widths c h]
    obtain ⟨tail, ht⟩ : ∃ tail, file.take (nativeSize long (ehdrFmt c)) = h.ident ++ (fieldBytes o (ehdrFields c h) ++ tail) := by
      refine ⟨rest.take (nativeSize long (ehdrFmt c) - calcsize (ehdrFmt c)), ?_⟩
      rw [hfile, List.take_append, List.take_of_length_le (by simp only [List.length_append]; omega), List.append_assoc]
      congr 4
      simp only [List.length_append]; omega
    rw [ht]
    simp only [chunks]
    have h16 : (h.ident ++ (fieldBytes o (ehdrFields c h) ++ tail)).take 16 = h.ident := by
      rw [← hident]; simp
    have h16' : (h.ident ++ (fieldBytes o (ehdrFields c h) ++ tail)).drop 16 = fieldBytes o (ehdrFields c h) ++ tail := by
      rw [← hident]; simp
    rw [h16, h16', chunks_fields]
  obtain ⟨ph, hph⟩ := phdrs_ok hp
  have hsh : table file (shdrFmt c) h.shnum h.shentsize h.shoff =
      .ok (shdrs.map fun s => (shdrFields c s).map fun f => intBytes o f.1 f.2) := by
    unfold table
    by_cases h0 : shdrs = []
    · simp [hf.count, h0]
    · have hne : h.shnum ≠ 0 := by
        rw [hf.count]; exact fun hl => h0 (List.length_eq_zero_iff.mp hl)
      rw [if_neg hne]
      obtain ⟨pre, post, hfile', hpre⟩ := hf.table h0
      have hent : h.shentsize = calcsize (shdrFmt c) := by rw [hf.entsize]; cases c <;> decide
      have hblen : (shdrs.flatMap fun s => fieldBytes o (shdrFields c s)).length = h.shnum * h.shentsize := by
        rw [hf.count, hent]
        clear hfile' hf
        induction shdrs with
        | nil => simp
        | cons s t ih =>
          simp only [List.flatMap_cons, List.length_append, List.length_cons]
          rw [calcsize_fields o (shdrFmt c) _ (shdr_widths c s), Nat.add_mul]
          by_cases ht : t = []
          · subst ht; simp
          · have := ih ht; omega
      rw [← hpre, ← hblen, hfile', readAt_mid]
      simp only [bind, Except.bind]
      have : (shdrs.flatMap fun s => fieldBytes o (shdrFields c s)) = (shdrs.map (shdrFields c)).flatMap (fieldBytes o) := by
        rw [List.flatMap_map]
      rw [this, records_fields o (shdrFmt c) (by cases c <;> decide)]
      · simp
      · intro fs hfs
        obtain ⟨s, _, rfl⟩ := List.mem_map.mp hfs
        exact shdr_widths c s
  have hm : (shdrs.map fun s => (shdrFields c s).map fun f => intBytes o f.1 f.2).mapM (shdrOf o) = .ok shdrs := by
    have := mapM_map_ok (shdrOf o) (fun s => (shdrFields c s).map fun f => intBytes o f.1 f.2) id shdrs
      (fun s hs => shdrOf_enc o c s (hf.shdrFits s hs))
    simpa using this
  unfold openElf
  simp only [hr1, bind, Except.bind]
  rw [if_neg hmagic]
  simp only [ho, hc, hr2, hu, ehdrOf_enc o c h hf.fits, hph, hsh, hm]

theorem tableSymbols_enc {e : ElfFile} {s : RawShdr} {tab : List RawSym}
    (h : (s.type = 2 ∨ s.type = 11) → e.data s = .ok (tab.flatMap fun y => fieldBytes e.order (symFields e.cls y)) ∧
      s.size = tab.length * calcsize (symFmt e.cls) ∧ ∀ y ∈ tab, y.strndx = s.link ∧ Fits (symFields e.cls y)) :
    e.tableSymbols s = .ok (if s.type = 2 || s.type = 11 then tab else []) := by
  unfold ElfFile.tableSymbols
  by_cases ht : s.type = 2 ∨ s.type = 11
  · obtain ⟨h1, h2, h3⟩ := h ht
    have hb : (s.type = 2 || s.type = 11) = true := by simpa using ht
    rw [if_pos ht]
    simp only [hb, if_true]
    by_cases hz : s.size = 0
    · rw [if_pos hz]
      have : tab = [] := by
        have hp : 0 < calcsize (symFmt e.cls) := by cases e.cls <;> decide
        rw [hz] at h2
        rcases Nat.mul_eq_zero.mp h2.symm with h | h
        · exact List.length_eq_zero_iff.mp h
        · omega
      rw [this]
    · rw [if_neg hz, h1]
      simp only [bind, Except.bind]
      have : (tab.flatMap fun y => fieldBytes e.order (symFields e.cls y)) = (tab.map (symFields e.cls)).flatMap (fieldBytes e.order) := by
        rw [List.flatMap_map]
      rw [this, records_fields e.order (symFmt e.cls) (by cases e.cls <;> decide)]
      · simp only [List.map_map]
        have := mapM_map_ok (symOf e.order e.cls s.link) (fun y => (symFields e.cls y).map fun f => intBytes e.order f.1 f.2) id tab
          (fun y hy => by have := h3 y hy; rw [← this.1]; exact symOf_enc _ _ _ this.2)
        rw [List.map_id] at this
        exact this
      · intro fs hfs
        obtain ⟨y, _, rfl⟩ := List.mem_map.mp hfs
        exact sym_widths _ y
  · rw [if_neg ht]
    have hb : (s.type = 2 || s.type = 11) = false := by simpa using ht
    simp [hb]

/-- **C47** the symbols of a file whose symbol tables hold these symbols, table by table. -/
theorem C47_symbols (e : ElfFile) (tabs : RawShdr → List RawSym)
    (h : ∀ s ∈ e.shdrs, (s.type = 2 ∨ s.type = 11) → e.data s = .ok ((tabs s).flatMap fun y => fieldBytes e.order (symFields e.cls y)) ∧
      s.size = (tabs s).length * calcsize (symFmt e.cls) ∧
      ∀ y ∈ tabs s, y.strndx = s.link ∧ Fits (symFields e.cls y)) :
    e.symbols = .ok ((e.shdrs.filter fun s => s.type = 2 || s.type = 11).flatMap tabs) := by
  have hone : ∀ s ∈ e.shdrs, e.tableSymbols s = .ok (if s.type = 2 || s.type = 11 then tabs s else []) :=
    fun s hs => tableSymbols_enc (h s hs)
  unfold ElfFile.symbols
  have := mapM_map_ok e.tableSymbols id (fun s => if s.type = 2 || s.type = 11 then tabs s else []) e.shdrs hone
  rw [List.map_id] at this
  simp only [this, bind, Except.bind]
  congr 1
  clear this hone h
  induction e.shdrs with
  | nil => rfl
  | cons s t ih =>
    simp only [List.map_cons, List.flatten_cons, ih, List.filter_cons]
    split <;> simp

/-- The header of an empty 32-bit little-endian file. -/
def exEhdr : Ehdr :=
  { ident := [0x7F, 0x45, 0x4C, 0x46, 1, 1, 1, 0, 0, 0, 0, 0, 0, 0, 0, 0], type := 2, machine := 94, version := 1, entry := 0x40080000
    phoff := 0, shoff := 52, flags := 0, ehsize := 52, phentsize := 0, phnum := 0, shentsize := 40, shnum := 0, shstrndx := 0 }

def exHeaderFile : Bytes := exEhdr.ident ++ fieldBytes .little (ehdrFields .c32 exEhdr)

/-- **C47** (violated for short files) a complete ELF file of 52 bytes, without section headers, is rejected where
`long` has 8 bytes: the number of bytes read is computed with native sizes (`elf.py:1967`). -/
theorem C47_short_file :
    IsElf .little .c32 exEhdr [] exHeaderFile ∧ exHeaderFile.length = 52 ∧
    openElf 8 exHeaderFile = .error .elf ∧
    openElf 4 exHeaderFile = .ok { file := exHeaderFile, order := .little, cls := .c32, ehdr := exEhdr, shdrs := [] } := by
  refine ⟨⟨⟨_, rfl, rfl⟩, ⟨[], by simp [exHeaderFile]⟩, ?_, rfl, by decide, fun h => absurd rfl h, fun s hs => by cases hs⟩, by decide +kernel,
    by decide +kernel, by decide +kernel⟩
  unfold Fits
  decide +kernel

/-- **C47** the number of bytes of a file with an ELF header: at least 76 where `long` has 8 bytes, whatever the class; 52 and 64, as
the ELF specification says, where it has 4. Below that number the file is rejected, from that number on it is read back. -/
theorem C47_length (long : Nat) (o : Order) (c : ElfClass) (h : Ehdr) (shdrs : List RawShdr) (file : Bytes)
    (hf : IsElf o c h shdrs file) (hp : PhdrsReadable c h file) (hlong : long = 4 ∨ long = 8) :
    (file.length < bytesNeeded long c → openElf long file = .error .elf) ∧
    (bytesNeeded long c ≤ file.length →
      openElf long file = .ok { file := file, order := o, cls := c, ehdr := h, shdrs := shdrs }) := by
  have hn : nativeSize long (ehdrFmt c) = bytesNeeded long c := by
    rcases hlong with rfl | rfl <;> cases c <;> decide
  rw [← hn]
  refine ⟨fun hl => ?_, C47_open_partial long o c h shdrs file hf hp hlong⟩
  obtain ⟨irest, hi, hil⟩ := hf.ident
  obtain ⟨rest, hfile⟩ := hf.header
  have hident : h.ident.length = 16 := by rw [hi]; simp [hil]
  have htake : file.take 16 = h.ident := by
    rw [hfile, List.append_assoc, ← hident]; simp
  have h16 : 16 ≤ file.length := by rw [hfile]; simp only [List.length_append]; omega
  have hr1 : readAt file 0 16 = .ok h.ident := by rw [readAt_zero _ _ h16, htake]
  have hmagic : ¬ h.ident.take 4 ≠ [0x7F, 0x45, 0x4C, 0x46] := by rw [hi]; simp
  have ho : orderOf (h.ident.drop 5) = .ok o := by rw [hi]; cases o <;> rfl
  have hc : classOf (h.ident.drop 4) = .ok c := by rw [hi]; cases c <;> rfl
  have hr2 : readAt file 0 (nativeSize long (ehdrFmt c)) = .error .elf := by
    unfold readAt
    rw [if_neg (by simp only [slice, List.length_take, List.length_drop]; omega)]
  unfold openElf
  simp only [hr1, bind, Except.bind, if_neg hmagic, ho, hc, hr2]

def exShdr : RawShdr := ⟨1, 3, 2, 0x3FFB0000, 92, 7, 0, 0, 1, 0⟩
def exElfFile : Bytes :=
  exEhdr.ident ++ fieldBytes .big (ehdrFields .c32 { exEhdr with shnum := 1 }) ++ fieldBytes .big (shdrFields .c32 exShdr) ++ [0, 46, 97, 98, 0, 99, 0]

example : openElf 8 (exElfFile.set 5 2) =
    .ok { file := exElfFile.set 5 2, order := .big, cls := .c32, ehdr := { exEhdr with shnum := 1, ident := exEhdr.ident.set 5 2 }, shdrs := [exShdr] } := by
  decide +kernel

/-! ### C48 string tables -/

/-- **C48** the string at an index is what is before the first NUL at or after it. -/
theorem C48_lookup (pre s post : Bytes) (h : ∀ b ∈ s, b ≠ 0) :
    lookupString (pre ++ s ++ 0 :: post) pre.length = .ok s ∧
    getString (pre ++ s ++ 0 :: post) pre.length = .ok (s, pre.length + s.length + 1) := by
  have hf : (s ++ 0 :: post).findIdx? (fun x => decide (x = 0)) = some s.length := by
    induction s with
    | nil => rfl
    | cons b t ih =>
      have hb : b ≠ 0 := h b (by simp)
      simp only [List.cons_append, List.findIdx?_cons, hb, decide_false, Bool.false_eq_true, if_false,
        ih fun x hx => h x (List.mem_cons_of_mem _ hx)]
      rfl
  have hi : indexNul (pre ++ s ++ 0 :: post) pre.length = .ok (pre.length + s.length) := by
    unfold indexNul
    rw [List.append_assoc, drop_pre, hf]
  have hs := slice_append pre s (0 :: post)
  unfold lookupString getString
  simp only [hi, bind, Except.bind, Nat.add_sub_cancel_left, hs]
  simp

/-- **C48** the lookup fails, with `ValueError`, exactly if there is no NUL at or after the index. -/
theorem C48_fails (d : Bytes) (i : Nat) :
    (lookupString d i = .error .valueError ∧ (0 : UInt8) ∉ d.drop i) ∨
    (∃ pre s post, d = pre ++ s ++ 0 :: post ∧ pre.length = i ∧ (∀ b ∈ s, b ≠ 0) ∧ lookupString d i = .ok s) := by
  by_cases h : (0 : UInt8) ∈ d.drop i
  · right
    obtain ⟨s, post, hd, hn⟩ : ∃ s post, d.drop i = s ++ 0 :: post ∧ ∀ b ∈ s, b ≠ 0 := by
      revert h
      generalize d.drop i = l
      intro h
      induction l with
      | nil => cases h
      | cons b t ih =>
        by_cases hb : b = 0
        · exact ⟨[], t, by rw [hb]; rfl, fun x hx => by cases hx⟩
        · have : (0 : UInt8) ∈ t := by
            rcases List.mem_cons.mp h with h | h
            · exact absurd h.symm hb
            · exact h
          obtain ⟨s, post, h1, h2⟩ := ih this
          refine ⟨b :: s, post, by rw [h1]; rfl, fun x hx => ?_⟩
          rcases List.mem_cons.mp hx with rfl | hx
          · exact hb
          · exact h2 x hx
    have hle : i ≤ d.length := by
      by_cases hle : i ≤ d.length
      · exact hle
      · rw [List.drop_of_length_le (by omega)] at h; cases h
    have hdd : d = d.take i ++ s ++ 0 :: post := by rw [List.append_assoc, ← hd, List.take_append_drop]
    have hl : (d.take i).length = i := by simp; omega
    refine ⟨d.take i, s, post, hdd, hl, hn, ?_⟩
    have := (C48_lookup (d.take i) s post hn).1
    rw [← hdd, hl] at this
    exact this
  · left
    refine ⟨?_, h⟩
    have : (d.drop i).findIdx? (fun x => decide (x = 0)) = none := by
      rw [List.findIdx?_eq_none_iff]
      intro x hx
      simp only [decide_eq_false_iff_not]
      intro he; subst he; exact h hx
    simp [lookupString, indexNul, this, bind, Except.bind]

/-- Names are UTF-8: an encoded name is decoded. -/
theorem decodeUtf8_enc (s : Str) : decodeUtf8 s.utf8Encode.data.toList = .ok s := by
  unfold decodeUtf8
  rw [Array.toArray_toList]
  have : (ByteArray.mk s.utf8Encode.data).utf8Decode? = some s.toArray := List.utf8Decode?_utf8Encode
  rw [this]

/-- **C48** the name of a section or symbol: the text whose UTF-8 encoding is in the string table at the index. -/
theorem C48_name (e : ElfFile) (ndx : Nat) (t : RawShdr) (name : Str) (pre post : Bytes) (h1 : e.shdrs[ndx]? = some t)
    (h2 : e.data t = .ok (pre ++ name.utf8Encode.data.toList ++ 0 :: post)) (h3 : (0 : UInt8) ∉ name.utf8Encode.data.toList) :
    e.stringAt ndx pre.length = .ok name := by
  unfold ElfFile.stringAt
  rw [h1]
  simp only [h2, bind, Except.bind]
  rw [(C48_lookup pre _ post fun b hb he => h3 (he ▸ hb)).1]
  exact decodeUtf8_enc name

example : lookupString [0, 97, 98, 0, 99] 1 = .ok [97, 98] ∧ lookupString [0, 97, 98, 0, 99] 2 = .ok [98] ∧
    lookupString [0, 97, 98, 0, 99] 4 = .error .valueError := by decide

end EspSize
