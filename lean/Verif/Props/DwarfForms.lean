import Verif.Proofs.At
/-! # C50: attribute forms -/
namespace EspSize

/-- The forms whose values are not right or not kept: `sdata` (see C46), `loclistx` and `rnglistx`. -/
def valueLost : List Nat := [0x0D, 0x22, 0x23]

/-- What is read for a value of `n` bytes: for `sdata` the number or the one of the other sign with the same bits, for `loclistx` and `rnglistx`
`None`, otherwise the value. -/
def ValueRead (form n : Nat) (v v' : AVal) : Prop :=
  if form = 0x0D then ∃ z w, v = .num z ∧ v' = .num w ∧ SlebRead z n w
  else if form = 0x22 ∨ form = 0x23 then v' = .none_
  else v' = v

theorem ValueRead.same {form n : Nat} {v v' : AVal} (h : ValueRead form n v v') (hf : form ∉ valueLost) : v' = v := by
  simp only [valueLost, List.mem_cons, List.not_mem_nil, or_false, not_or] at hf
  simpa [ValueRead, hf.1, hf.2.1, hf.2.2] using h

theorem ValueRead.refl {form n : Nat} (v : AVal) (hf : form ∉ valueLost) : ValueRead form n v v := by
  simp only [valueLost, List.mem_cons, List.not_mem_nil, or_false, not_or] at hf
  simp [ValueRead, hf.1, hf.2.1, hf.2.2]

theorem form_read (E : FormEnv) (version : Nat) (a : AbbrevAttr) (v : AVal) (bs d : Bytes) (off : Nat)
    (h : FormEnc E version a.form v bs) (hs : Supported E version a.form) (hat : At d off bs) :
    ∃ v', attrValue E a d off = .ok (v', off + bs.length) ∧ (a.form ∉ valueLost → v' = v) := by
  obtain ⟨attr, f, val⟩ := a
  obtain ⟨hs1, hs2⟩ := hs
  simp only at h hs1 hs2 ⊢
  cases h with
  | fixed hm hv =>
    rename_i n v
    have hu := hat.getUint hv
    simp only [fixedForms, List.mem_cons, List.not_mem_nil, or_false, Prod.mk.injEq] at hm
    simp only [List.mem_cons, List.not_mem_nil, or_false, not_or] at hs1
    refine ⟨.num v, ?_, fun _ => rfl⟩
    rw [length_intBytes]
    rcases hm with hm | hm | hm | hm | hm | hm | hm | hm | hm | hm | hm | hm | hm | hm | hm | hm | hm | hm | hm | hm | hm | hm | hm
    all_goals
      obtain ⟨hm1, hm2⟩ := hm
      subst hm1
      try (exfalso; omega)
    case inr.inr.inr.inr.inr.inr.inr.inl =>
      have : n = E.offSize := by
        rw [hm2]
        split
        · rename_i hv2
          by_cases he : E.addrSize = E.offSize
          · exact he
          · exact absurd ⟨rfl, hv2, he⟩ hs2
        · rfl
      subst this
      simp [attrValue, numAt, hu]
    all_goals
      subst hm2
      simp [attrValue, numAt, hu]
  | ref hm hv =>
    rename_i n v
    have hu := hat.getUint hv
    simp only [List.mem_cons, List.not_mem_nil, or_false, Prod.mk.injEq] at hm
    refine ⟨_, ?_, fun _ => rfl⟩
    rw [length_intBytes]
    rcases hm with hm | hm | hm | hm
    all_goals
      obtain ⟨rfl, rfl⟩ := hm
      simp [attrValue, refAt, hu]
  | refUdata hu =>
    exact ⟨_, by simp [attrValue, bind, Except.bind, hat.uleb hu], fun _ => rfl⟩
  | uleb hm hu =>
    simp only [List.mem_cons, List.not_mem_nil, or_false] at hm hs1
    rcases hm with rfl | rfl | rfl
    · exact ⟨_, by simp [attrValue, ulebNum, bind, Except.bind, hat.uleb hu], fun _ => rfl⟩
    · exact ⟨_, by simp [attrValue, ulebNum, bind, Except.bind, hat.uleb hu], fun _ => rfl⟩
    · omega
  | index hm hu =>
    simp only [List.mem_cons, List.not_mem_nil, or_false] at hm
    rcases hm with rfl | rfl
    · exact ⟨.none_, by simp [attrValue, bind, Except.bind, hat.uleb hu], fun h => absurd (by simp [valueLost]) h⟩
    · exact ⟨.none_, by simp [attrValue, bind, Except.bind, hat.uleb hu], fun h => absurd (by simp [valueLost]) h⟩
  | sdata hz =>
    obtain ⟨w, hw, -⟩ := hat.sleb hz
    exact ⟨.num w, by simp [attrValue, bind, Except.bind, hw], fun h => absurd (by simp [valueLost]) h⟩
  | block hm hl =>
    rename_i n data
    have h1 := hat.left.getUint hl
    have h2 := hat.right.getBytes
    simp only [length_intBytes] at h2
    simp only [List.mem_cons, List.not_mem_nil, or_false, Prod.mk.injEq] at hm
    refine ⟨.bytes data, ?_, fun _ => rfl⟩
    rw [List.length_append, length_intBytes, ← Nat.add_assoc]
    rcases hm with hm | hm | hm
    all_goals
      obtain ⟨rfl, rfl⟩ := hm
      simp [attrValue, blockAt, h1, h2]
  | ublock hm hu =>
    rename_i lb data
    have h1 := hat.left.uleb hu
    have h2 := hat.right.getBytes
    simp only [List.mem_cons, List.not_mem_nil, or_false] at hm
    refine ⟨.bytes data, ?_, fun _ => rfl⟩
    rw [List.length_append, ← Nat.add_assoc]
    rcases hm with rfl | rfl
    all_goals simp [attrValue, blockAt, bind, Except.bind, h1, h2]
  | string hn =>
    exact ⟨_, by simp only [attrValue, bind, Except.bind, hat.string hn]; simp, fun _ => rfl⟩
  | present => exact ⟨_, by simp [attrValue], fun _ => rfl⟩
  | indirect => exact absurd (by simp) hs1

/-- **C50** (for the supported forms) reading a value that stands at an offset consumes exactly its bytes, for every
value, in either byte order, for every size of addresses and offsets; and the value is the encoded one, except for
three forms, for which `ValueRead` tells what is read. -/
theorem C50_form_partial (E : FormEnv) (version : Nat) (a : AbbrevAttr) (v : AVal) (bs d : Bytes) (off : Nat)
    (h : FormEnc E version a.form v bs) (hs : Supported E version a.form) (hat : At d off bs) :
    ∃ v', attrValue E a d off = .ok (v', off + bs.length) ∧ ValueRead a.form bs.length v v' := by
  by_cases hf : a.form ∈ valueLost
  · obtain ⟨attr, f, val⟩ := a
    simp only [valueLost, List.mem_cons, List.not_mem_nil, or_false] at h hf ⊢
    rcases hf with rfl | rfl | rfl
    · cases h with
      | fixed hm _ => simp [fixedForms] at hm
      | ref hm _ => simp at hm
      | uleb hm _ => simp at hm
      | index hm _ => simp at hm
      | block hm _ => simp at hm
      | ublock hm _ => simp at hm
      | sdata hz =>
        obtain ⟨w, hw, hr⟩ := hat.sleb hz
        exact ⟨.num w, by simp [attrValue, bind, Except.bind, hw], by simpa [ValueRead] using hr⟩
    all_goals
      cases h with
      | fixed hm _ => simp [fixedForms] at hm
      | ref hm _ => simp at hm
      | uleb hm _ => simp at hm
      | block hm _ => simp at hm
      | ublock hm _ => simp at hm
      | index hm hu => exact ⟨.none_, by simp [attrValue, bind, Except.bind, hat.uleb hu], by simp [ValueRead]⟩
  · obtain ⟨v', h1, h2⟩ := form_read E version a v bs d off h hs hat
    rw [h2 hf] at h1
    exact ⟨v, h1, .refl v hf⟩

/-- `implicit_const`: no bytes, the value of the abbreviation. -/
theorem C50_implicit (E : FormEnv) (attr v : Nat) (d : Bytes) (off : Nat) : attrValue E ⟨attr, 0x21, some v⟩ d off = .ok (.num v, off) := by
  simp [attrValue]

/-! ### Values cut off at the end of the data -/

theorem slice_cut (pre cut : Bytes) {off n : Nat} (ho : off = pre.length) (hn : cut.length ≤ n) : slice (pre ++ cut) off n = cut := by
  subst ho
  simp [slice, List.take_of_length_le hn]

/-- **C50** (violated) a number that is cut off at the end of the data is not rejected: the number made by the bytes
there are is taken, and the offset is that behind the whole number. -/
theorem C50_cut_number (E : FormEnv) (a : AbbrevAttr) (pre : Bytes) (k n w : Nat) (hw : w < 256 ^ k) (hk : k ≤ n)
    (hm : (a.form, n) ∈ fixedForms E 5) (hs : Supported E 5 a.form) :
    attrValue E a (pre ++ intBytes E.order k w) pre.length = .ok (.num w, pre.length + n) := by
  have hu : getUint E.order (pre ++ intBytes E.order k w) n pre.length = (w, pre.length + n) := by
    unfold getUint
    rw [slice_cut _ _ rfl (by simpa using hk), fromBytes_intBytes _ _ _ hw]
  obtain ⟨attr, f, val⟩ := a
  obtain ⟨hs1, _⟩ := hs
  simp only [fixedForms, List.mem_cons, List.not_mem_nil, or_false, Prod.mk.injEq] at hm
  simp only [List.mem_cons, List.not_mem_nil, or_false, not_or] at hs1
  rcases hm with hm | hm | hm | hm | hm | hm | hm | hm | hm | hm | hm | hm | hm | hm | hm | hm | hm | hm | hm | hm | hm | hm | hm
  all_goals
    obtain ⟨hm1, hm2⟩ := hm
    subst hm1
    try (exfalso; omega)
  all_goals
    subst hm2
    try simp only [show ¬(5 : Nat) = 2 by decide, if_false] at hu
    simp [attrValue, numAt, hu]

/-- **C50** (violated) the same for references. -/
theorem C50_cut_ref (E : FormEnv) (a : AbbrevAttr) (pre : Bytes) (k n w : Nat) (hw : w < 256 ^ k) (hk : k ≤ n)
    (hm : (a.form, n) ∈ [(0x11, 1), (0x12, 2), (0x13, 4), (0x14, 8)]) :
    attrValue E a (pre ++ intBytes E.order k w) pre.length = .ok (.num ((w : Int) + E.cuOffset), pre.length + n) := by
  have hu : getUint E.order (pre ++ intBytes E.order k w) n pre.length = (w, pre.length + n) := by
    unfold getUint
    rw [slice_cut _ _ rfl (by simpa using hk), fromBytes_intBytes _ _ _ hw]
  obtain ⟨attr, f, val⟩ := a
  simp only [List.mem_cons, List.not_mem_nil, or_false, Prod.mk.injEq] at hm
  rcases hm with hm | hm | hm | hm
  all_goals
    obtain ⟨rfl, rfl⟩ := hm
    simp [attrValue, refAt, hu]

/-- **C50** (violated) a block that is cut off at the end of the data is not rejected: the bytes there are are taken, and
the offset is that behind the whole block. -/
theorem C50_cut_block (E : FormEnv) (a : AbbrevAttr) (pre rest : Bytes) (n len : Nat) (hl : len < 256 ^ n) (hr : rest.length ≤ len)
    (hm : (a.form, n) ∈ [(0x0A, 1), (0x03, 2), (0x04, 4)]) :
    attrValue E a (pre ++ intBytes E.order n len ++ rest) pre.length = .ok (.bytes rest, pre.length + n + len) := by
  have hu : getUint E.order (pre ++ intBytes E.order n len ++ rest) n pre.length = (len, pre.length + n) :=
    At.getUint ⟨pre, rest, rfl, rfl⟩ hl
  have hb : getBytes len (pre ++ intBytes E.order n len ++ rest) (pre.length + n) = (rest, pre.length + n + len) := by
    unfold getBytes
    rw [slice_cut _ _ (by simp) hr]
  generalize pre ++ intBytes E.order n len ++ rest = d at hu hb ⊢
  obtain ⟨attr, f, val⟩ := a
  simp only [List.mem_cons, List.not_mem_nil, or_false, Prod.mk.injEq] at hm
  rcases hm with hm | hm | hm
  all_goals
    obtain ⟨rfl, rfl⟩ := hm
    simp only [attrValue, blockAt]
    rw [hu]
    simp [hb]

/-- **C50** (violated) the same for blocks and expressions with a length of variable size. -/
theorem C50_cut_ublock (E : FormEnv) (a : AbbrevAttr) (pre lb rest : Bytes) (len : Nat) (hl : Uleb len lb) (hr : rest.length ≤ len)
    (hm : a.form ∈ [0x09, 0x18]) :
    attrValue E a (pre ++ lb ++ rest) pre.length = .ok (.bytes rest, pre.length + lb.length + len) := by
  have hu : getUleb128 (pre ++ lb ++ rest) pre.length = .ok (len, pre.length + lb.length) := At.uleb ⟨pre, rest, rfl, rfl⟩ hl
  have hb : getBytes len (pre ++ lb ++ rest) (pre.length + lb.length) = (rest, pre.length + lb.length + len) := by
    unfold getBytes
    rw [slice_cut _ _ (by simp) hr]
  generalize pre ++ lb ++ rest = d at hu hb ⊢
  obtain ⟨attr, f, val⟩ := a
  simp only [List.mem_cons, List.not_mem_nil, or_false] at hm
  rcases hm with rfl | rfl
  all_goals simp [attrValue, blockAt, bind, Except.bind, hu, hb]

theorem uleb_ends {n : Nat} {bs : Bytes} (h : Uleb n bs) : ∃ b ∈ bs, b.toNat < 128 := by
  induction h with
  | last hb => exact ⟨_, List.mem_singleton.mpr rfl, hb⟩
  | more _ _ ih =>
    obtain ⟨b, hb, h⟩ := ih
    exact ⟨b, List.mem_cons_of_mem _ hb, h⟩

/-- **C50** a number or length of variable size that is cut off raises `IndexError`. -/
theorem C50_cut_leb (E : FormEnv) (a : AbbrevAttr) (pre cut : Bytes) (hc : ∀ b ∈ cut, 128 ≤ b.toNat)
    (hm : a.form ∈ [0x0F, 0x1A, 0x15, 0x22, 0x23, 0x0D, 0x09, 0x18]) :
    attrValue E a (pre ++ cut) pre.length = .error .indexError := by
  have hu : getUleb128 (pre ++ cut) pre.length = .error .indexError := by
    rcases C45_uleb_any (pre ++ cut) pre.length with ⟨n, bs, pre', post, _, h1, h2, h3, _⟩ | h
    · exfalso
      rw [List.append_assoc] at h1
      have h1 := (List.append_inj h1 h2.symm).2
      obtain ⟨b, hb, hlt⟩ := uleb_ends h3
      have := hc b (by rw [h1]; exact List.mem_append.mpr (.inl hb))
      omega
    · exact h.1
  obtain ⟨attr, f, val⟩ := a
  simp only [List.mem_cons, List.not_mem_nil, or_false] at hm
  rcases hm with rfl | rfl | rfl | rfl | rfl | rfl | rfl | rfl
  all_goals simp [attrValue, ulebNum, getSleb128, bind, Except.bind, hu]

/-- **C50** a string without its end raises `ValueError`. -/
theorem C50_cut_string (E : FormEnv) (attr : Nat) (v : Option Nat) (pre cut : Bytes) (hc : ∀ b ∈ cut, b ≠ 0) :
    attrValue E ⟨attr, 0x08, v⟩ (pre ++ cut) pre.length = .error .valueError := by
  have : cut.findIdx? (· = 0) = none := by
    rw [List.findIdx?_eq_none_iff]
    intro b hb
    simp [hc b hb]
  simp [attrValue, getString, indexNul, this, bind, Except.bind]

/-- The forms of the standard that are rejected. -/
theorem C50_unsupported (E : FormEnv) (a : AbbrevAttr) (d : Bytes) (off : Nat) (h : a.form ∈ [0x1B, 0x29, 0x2A, 0x2B, 0x2C, 0x16]) :
    attrValue E a d off = .error .elf := by
  simp only [List.mem_cons, List.not_mem_nil, or_false] at h
  rcases h with h | h | h | h | h | h <;> simp [attrValue, h]

def exForm : FormEnv := { order := .little, addrSize := 8, offSize := 4, cuOffset := 100 }

/-- **C50** (violated) of the 8 bytes of a type signature one is consumed, so the next attribute is read from the wrong
place. -/
theorem C50_ref_sig8 :
    FormEnc exForm 4 0x20 (.num 0x0807060504030201) [1, 2, 3, 4, 5, 6, 7, 8] ∧
    attrValue exForm ⟨0x49, 0x20, none⟩ [1, 2, 3, 4, 5, 6, 7, 8] 0 = .ok (.num 1, 1) :=
  ⟨.fixed (f := 0x20) (n := 8) (v := 0x0807060504030201) (by decide) (by decide), by decide⟩

/-- **C50** (violated) a reference of DWARF 2 to another unit has the size of an address, the size of an offset is
consumed. -/
theorem C50_ref_addr_v2 :
    FormEnc exForm 2 0x10 (.num 5) [5, 0, 0, 0, 0, 0, 0, 0] ∧ attrValue exForm ⟨0x31, 0x10, none⟩ [5, 0, 0, 0, 0, 0, 0, 0] 0 = .ok (.num 5, 4) :=
  ⟨.fixed (f := 0x10) (n := 8) (v := 5) (by decide) (by decide), by decide⟩

/-- A block of five bytes of which two are there, and an address of eight bytes of which one is there. -/
example : attrValue exForm ⟨0x02, 0x0A, none⟩ [9, 5, 1, 2] 1 = .ok (.bytes [1, 2], 7) ∧ attrValue exForm ⟨0x11, 0x01, none⟩ [9, 5] 1 = .ok (.num 5, 9) :=
  ⟨C50_cut_block exForm ⟨0x02, 0x0A, none⟩ [9] [1, 2] 1 5 (by decide) (by decide) (by decide),
   C50_cut_number exForm ⟨0x11, 0x01, none⟩ [9] 1 8 5 (by decide) (by decide) (by decide) ⟨by decide, by decide⟩⟩

/-- The hypotheses are met by values of several kinds. -/
example : FormEnc exForm 4 0x13 (.num 102) [2, 0, 0, 0] ∧ FormEnc exForm 4 0x18 (.bytes [3, 1]) [2, 3, 1] ∧ FormEnc exForm 4 0x08 (.bytes [65]) [65, 0] ∧
    Supported exForm 4 0x13 ∧ Supported exForm 4 0x18 ∧ Supported exForm 4 0x10 ∧ At [9, 2, 3, 1, 9] 1 [2, 3, 1] :=
  ⟨.ref (f := 0x13) (n := 4) (v := 2) (by decide) (by decide), .ublock (lb := [2]) (data := [3, 1]) (by decide) (.last (b := 2) (by decide)), .string (s := [65]) (by decide),
   ⟨by decide, by decide⟩, ⟨by decide, by decide⟩, ⟨by decide, by decide⟩, ⟨[9], [9], rfl, rfl⟩⟩

end EspSize
