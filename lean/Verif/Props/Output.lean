import Verif.Spec.Output
import Verif.Proofs.Files
import Verif.Proofs.JsonDump
import Verif.Props.Json
import Verif.Props.Run
import Verif.Props.Files
/-! # C90: the bytes of the output file -/
namespace EspSize

theorem utf8_ascii : AsciiCompatible utf8Codec := by
  intro c hc
  have hv : c.val ≤ 0x7f := by
    rw [UInt32.le_iff_toNat_le]
    have : c.val.toNat = c.toNat := rfl
    rw [this]
    show c.toNat ≤ 127
    omega
  unfold utf8Codec String.utf8EncodeChar
  have : c.val.toNat = c.toNat := rfl
  rw [this, if_pos (by omega)]

theorem byte_ascii {n : Nat} (h : 128 ≤ n) : AsciiCompatible (byteCodec n) := by
  intro c hc
  unfold byteCodec
  rw [if_pos (by omega)]

theorem encodeStrict_ascii {k : Codec} (hk : AsciiCompatible k) {s : Str} (h : ∀ c ∈ s, c.toNat < 128) :
    encodeStrict k s = .ok (asciiBytes s) := by
  induction s with
  | nil => rfl
  | cons c s ih =>
    rw [encodeStrict, hk c (h c (by simp)), ih (fun d hd => h d (by simp [hd]))]
    rfl

theorem hexChar_table : ∀ d : Fin 16, (str "0123456789abcdef")[d.val]? = some (hexChar d) ∧ (hexChar d).toNat < 128 := by decide

theorem hexTail_ascii (n : Nat) : ∀ x, ∀ c ∈ hexTail n x, c.toNat < 128 := by
  induction n with
  | zero => intro x c hc; cases hc
  | succ n ih =>
    intro x c hc
    rcases List.mem_append.mp hc with hc | hc
    · exact ih _ c hc
    · rw [List.mem_singleton.mp hc]
      exact (hexChar_table ⟨x % 16, Nat.mod_lt _ (by decide)⟩).2

theorem all2_snoc {α β : Type} {R : α → β → Prop} : ∀ {a : List α} {b : List β} {x : α} {y : β}, All2 R a b → R x y → All2 R (a ++ [x]) (b ++ [y])
  | [], [], _, _, _, h => ⟨h, trivial⟩
  | _ :: _, _ :: _, _, _, h, h' => ⟨h.1, all2_snoc h.2 h'⟩

theorem hexTail_text (n : Nat) : ∀ x, x < 16 ^ n → HexText n x (hexTail n x) := by
  induction n with
  | zero =>
    intro x hx
    exact ⟨[], rfl, trivial, by simp at hx; subst hx; rfl⟩
  | succ n ih =>
    intro x hx
    obtain ⟨ds, h1, h2, h3⟩ := ih (x / 16) (by rw [Nat.pow_succ] at hx; omega)
    refine ⟨ds ++ [x % 16], ?_, ?_, ?_⟩
    · simp [hexTail, h1]
    · exact all2_snoc h2 (hexChar_table ⟨x % 16, Nat.mod_lt _ (by decide)⟩).1
    · unfold digitsValue at h3 ⊢
      rw [List.foldl_append, ← h3]
      simp only [List.foldl_cons, List.foldl_nil]
      omega

theorem char_lt (c : Char) : c.toNat < 16 ^ 8 := by
  have : c.toNat = c.val.toNat := rfl
  rw [this]
  have := c.val.toNat_lt
  omega

theorem backslash_ascii (c : Char) : ∀ d ∈ backslashReplace c, d.toNat < 128 := by
  have key : ∀ (x : Char) n, x.toNat < 128 → ∀ d ∈ '\\' :: x :: hexTail n c.toNat, d.toNat < 128 := by
    intro x n hx d hd
    rcases List.mem_cons.mp hd with rfl | hd
    · decide
    rcases List.mem_cons.mp hd with rfl | hd
    · exact hx
    · exact hexTail_ascii _ _ d hd
  unfold backslashReplace
  split
  · exact key _ _ (by decide)
  · split
    · exact key _ _ (by decide)
    · exact key _ _ (by decide)

theorem backslash_escape (c : Char) : EscapeOf c (backslashReplace c) := by
  unfold backslashReplace
  split
  · rename_i h; exact .two h (hexTail_text 2 _ (by omega))
  · split
    · rename_i h1 h2; exact .four (by omega) h2 (hexTail_text 4 _ (by omega))
    · rename_i h1 h2; exact .eight (by omega) (hexTail_text 8 _ (char_lt c))

/-- **C90** Every text can be written in every encoding that agrees with ASCII: characters without a code are written as
escape sequences, no exception is raised. -/
theorem C90_written {k : Codec} (hk : AsciiCompatible k) (s : Str) : ∃ b, encodeText k s = .ok b ∧ WrittenAs k s b := by
  induction s with
  | nil => exact ⟨[], rfl, .nil⟩
  | cons c s ih =>
    obtain ⟨bs, h1, h2⟩ := ih
    cases hc : k c with
    | some b => exact ⟨b ++ bs, by rw [encodeText, hc, h1]; rfl, .char hc h2⟩
    | none =>
      refine ⟨asciiBytes (backslashReplace c) ++ bs, ?_, .escape hc (backslash_escape c) h2⟩
      rw [encodeText, hc, h1]
      show (encodeStrict k (backslashReplace c)).bind _ = _
      rw [encodeStrict_ascii hk (backslash_ascii c)]
      rfl

theorem encodeText_codes {k : Codec} {f : Char → Bytes} {s : Str} (h : ∀ c ∈ s, k c = some (f c)) : encodeText k s = .ok (s.flatMap f) := by
  induction s with
  | nil => rfl
  | cons c s ih =>
    rw [encodeText, h c (by simp), ih (fun d hd => h d (by simp [hd]))]
    rfl

/-- **C90** In UTF-8 nothing is replaced. -/
theorem C90_utf8 (s : Str) : encodeText utf8Codec s = .ok (utf8 s) := encodeText_codes (fun _ _ => rfl)

/-- **C90** A text of ASCII characters is written in the same bytes in every encoding that agrees with ASCII. -/
theorem C90_ascii {k : Codec} (hk : AsciiCompatible k) {s : Str} (h : ∀ c ∈ s, c.toNat < 128) : encodeText k s = .ok (utf8 s) := by
  rw [← C90_utf8]
  have h1 := encodeText_codes (k := k) (f := fun c => [c.toNat.toUInt8]) (s := s) (fun c hc => hk c (h c hc))
  have h2 := encodeText_codes (k := utf8Codec) (f := fun c => [c.toNat.toUInt8]) (s := s) (fun c hc => utf8_ascii c (h c hc))
  rw [h1, h2]

/-- **C90** (violated) The escape sequences are not marked: two texts are written in the same bytes. -/
theorem C90_ambiguous : encodeText asciiCodec [Char.ofNat 0xe9] = encodeText asciiCodec (str "\\xe9") ∧
    encodeText asciiCodec [Char.ofNat 0xe9] = .ok (asciiBytes (str "\\xe9")) := by
  decide +kernel

/-! ### Ends of lines -/

theorem newlines_textMode {sep s : Str} (hs : sep = ['\n'] ∨ sep = ['\r', '\n']) (h : '\r' ∉ s) : newlines (textMode sep s) = s := by
  induction s with
  | nil => rfl
  | cons c s ih =>
    simp only [List.mem_cons, not_or] at h
    have ih := ih h.2
    unfold textMode at ih ⊢
    rw [List.flatMap_cons]
    by_cases hc : c = '\n'
    · subst hc
      rw [if_pos rfl]
      rcases hs with rfl | rfl
      · rw [List.singleton_append, newlines_cons (by decide), ih]
      · show newlines ('\r' :: '\n' :: List.flatMap _ s) = _
        rw [newlines, ih]
    · rw [if_neg hc, List.singleton_append, newlines_cons (Ne.symm h.1), ih]

theorem textMode_unix (s : Str) : textMode ['\n'] s = s := by
  induction s with
  | nil => rfl
  | cons c s ih =>
    unfold textMode at ih ⊢
    rw [List.flatMap_cons, ih]
    split
    · rename_i h; rw [h]; rfl
    · rfl

theorem textMode_ascii {sep s : Str} (hs : ∀ c ∈ sep, c.toNat < 128) (h : ∀ c ∈ s, c.toNat < 128) : ∀ c ∈ textMode sep s, c.toNat < 128 := by
  intro c hc
  obtain ⟨d, hd, hc⟩ := List.mem_flatMap.mp hc
  split at hc
  · exact hs c hc
  · rw [List.mem_singleton.mp hc]; exact h d hd

/-! ### JSON text is ASCII without carriage returns -/

/-- A character of JSON text. -/
def JsonPlain (s : Str) : Prop := ∀ c ∈ s, c.toNat < 128 ∧ c ≠ '\r'

theorem jsonPlain_append {a b : Str} (ha : JsonPlain a) (hb : JsonPlain b) : JsonPlain (a ++ b) := by
  intro c hc
  rcases List.mem_append.mp hc with h | h
  · exact ha c h
  · exact hb c h

theorem jsonPlain_cons {c : Char} {b : Str} (hc : c.toNat < 128 ∧ c ≠ '\r') (hb : JsonPlain b) : JsonPlain (c :: b) := by
  intro d hd
  rcases List.mem_cons.mp hd with rfl | h
  · exact hc
  · exact hb d h

theorem jsonPlain_nil : JsonPlain [] := by intro c hc; cases hc

theorem hexChar_plain (x : Nat) : (hexChar (x % 16)).toNat < 128 ∧ hexChar (x % 16) ≠ '\r' := by
  have : ∀ d : Fin 16, (hexChar d).toNat < 128 ∧ hexChar d ≠ '\r' := by decide
  exact this ⟨x % 16, Nat.mod_lt _ (by decide)⟩

theorem plain_uEscape (n : Nat) : JsonPlain (uEscape n) := by
  unfold uEscape
  exact jsonPlain_cons (by decide) (jsonPlain_cons (by decide) (jsonPlain_cons (hexChar_plain _) (jsonPlain_cons (hexChar_plain _)
    (jsonPlain_cons (hexChar_plain _) (jsonPlain_cons (hexChar_plain _) jsonPlain_nil)))))

theorem plain_escapeChar (c : Char) : JsonPlain (escapeChar c) := by
  have two : ∀ d : Char, d.toNat < 128 ∧ d ≠ '\r' → JsonPlain ['\\', d] := fun d h =>
    jsonPlain_cons (by decide) (jsonPlain_cons h jsonPlain_nil)
  unfold escapeChar
  split
  · exact two _ (by decide)
  split
  · exact two _ (by decide)
  split
  · exact two _ (by decide)
  split
  · exact two _ (by decide)
  split
  · exact two _ (by decide)
  split
  · exact two _ (by decide)
  split
  · exact two _ (by decide)
  split
  · rename_i h1 h2 h3 h4 h5 h6 h7 h
    exact jsonPlain_cons ⟨by omega, h4⟩ jsonPlain_nil
  split
  · exact plain_uEscape _
  · exact jsonPlain_append (plain_uEscape _) (plain_uEscape _)

theorem plain_jsonStr (s : Str) : JsonPlain (jsonStr s) := by
  unfold jsonStr
  refine jsonPlain_cons (by decide) (jsonPlain_append ?_ (jsonPlain_cons (by decide) jsonPlain_nil))
  intro c hc
  obtain ⟨d, _, hc⟩ := List.mem_flatMap.mp hc
  exact plain_escapeChar d c hc

theorem plain_int (i : Int) : JsonPlain (intStr i) := by
  have hd : ∀ n, JsonPlain (Nat.toDigits 10 n) := by
    intro n c hc
    have h := isDigit_toNat (Nat.isDigit_of_mem_toDigits (b := 10) (by omega) (by omega) hc)
    refine ⟨by omega, ?_⟩
    rintro rfl
    exact absurd h.1 (by decide)
  cases i with
  | ofNat n => exact (intStr_natCast n) ▸ hd n
  | negSucc n =>
    have := intStr_neg n
    rw [show Int.negSucc n = -((n + 1 : Nat) : Int) from rfl, this]
    exact jsonPlain_cons (by decide) (hd _)

theorem plain_nl (lvl : Nat) : JsonPlain (jsonNl lvl) := by
  unfold jsonNl
  refine jsonPlain_cons (by decide) ?_
  intro c hc
  rw [(List.mem_replicate.mp hc).2]
  decide

mutual
theorem plain_dump (lvl : Nat) (v : Json) : JsonPlain (v.dump lvl) := by
  match v with
  | .int i => unfold Json.dump; exact plain_int i
  | .str s => unfold Json.dump; exact plain_jsonStr s
  | .arr l =>
    have hi := plain_items (lvl + 1) l
    unfold Json.dump
    split
    · exact jsonPlain_cons (by decide) (jsonPlain_cons (by decide) jsonPlain_nil)
    · exact jsonPlain_cons (by decide) (jsonPlain_append (jsonPlain_append hi (plain_nl lvl)) (jsonPlain_cons (by decide) jsonPlain_nil))
  | .obj l =>
    have hi := plain_members (lvl + 1) l
    unfold Json.dump
    split
    · exact jsonPlain_cons (by decide) (jsonPlain_cons (by decide) jsonPlain_nil)
    · exact jsonPlain_cons (by decide) (jsonPlain_append (jsonPlain_append hi (plain_nl lvl)) (jsonPlain_cons (by decide) jsonPlain_nil))
termination_by structural v
theorem plain_items (lvl : Nat) (l : List Json) : JsonPlain (dumpItems lvl l) := by
  match l with
  | [] => unfold dumpItems; exact jsonPlain_nil
  | x :: t =>
    unfold dumpItems
    refine jsonPlain_append (jsonPlain_append (jsonPlain_append (plain_nl lvl) (plain_dump lvl x)) ?_) (plain_items lvl t)
    split
    · exact jsonPlain_nil
    · exact jsonPlain_cons (by decide) jsonPlain_nil
termination_by structural l
theorem plain_members (lvl : Nat) (l : List (Str × Json)) : JsonPlain (dumpMembers lvl l) := by
  match l with
  | [] => unfold dumpMembers; exact jsonPlain_nil
  | x :: t =>
    unfold dumpMembers
    refine jsonPlain_append (jsonPlain_append (jsonPlain_append (plain_nl lvl) (plain_member lvl x)) ?_) (plain_members lvl t)
    split
    · exact jsonPlain_nil
    · exact jsonPlain_cons (by decide) jsonPlain_nil
termination_by structural l
theorem plain_member (lvl : Nat) (p : Str × Json) : JsonPlain (dumpMember lvl p) := by
  match p with
  | (k, x) =>
    unfold dumpMember
    exact jsonPlain_append (plain_jsonStr k) (jsonPlain_cons (by decide) (jsonPlain_cons (by decide) (plain_dump lvl x)))
termination_by structural p
end

/-! ### Runs -/

/-- A run that writes its report: it succeeds, and the bytes of the file are those of the text of the report. -/
theorem runToFile_ok {R : RunIn} {input : Str} {args : Args} {k : Codec} {sep : Str} {drawn : Report → Str} {fs fs' : Files}
    {res : Except Err Unit} {rep : Report} {fn : Str} (hk : AsciiCompatible k) (hout : args.outputFile = some fn) (hfn : fn ≠ [])
    (hrep : makeReport R input args = some (.ok rep)) (h : runToFile R input args k sep drawn .fine fs = some (fs', res)) :
    res = .ok () ∧ ∃ b, encodeText k (textMode sep (rep.text drawn)) = .ok b ∧ WrittenAs k (textMode sep (rep.text drawn)) b ∧ fs' fn = some b := by
  obtain ⟨b, hb, hw⟩ := C90_written hk (textMode sep (rep.text drawn))
  cases fn with
  | nil => exact absurd rfl hfn
  | cons c fn =>
    unfold runToFile at h
    rw [hrep] at h
    simp only [Report.bytes, hb, Writing.encoded, Option.some.injEq] at h
    have hc := C43_output_file_partial (.ok rep) none (fun _ => b) .fine fs fs' args res c fn hout h
    have hres := hc.2.2.2.2 rep rfl rfl rfl
    obtain ⟨_, r, _, h3⟩ := hc.1 hres
    exact ⟨hres, b, hb, hw, h3⟩

/-- **C90** A run that has made its report and can write the file never fails for a character of it, in any encoding that
agrees with ASCII. -/
theorem C90_run {R : RunIn} {input : Str} {args : Args} {k : Codec} {sep : Str} {drawn : Report → Str} {fs fs' : Files}
    {res : Except Err Unit} {rep : Report} {fn : Str} (hk : AsciiCompatible k) (hout : args.outputFile = some fn) (hfn : fn ≠ [])
    (hrep : makeReport R input args = some (.ok rep)) (h : runToFile R input args k sep drawn .fine fs = some (fs', res)) :
    res = .ok () ∧ ∃ b, fs' fn = some b ∧ WrittenAs k (textMode sep (rep.text drawn)) b := by
  obtain ⟨h1, b, _, h2, h3⟩ := runToFile_ok hk hout hfn hrep h
  exact ⟨h1, b, h3, h2⟩

/-! ### Runs that cannot write -/

theorem encodeStrict_error {k : Codec} {s : Str} {e : Err} (h : encodeStrict k s = .error e) : e = .valueError ∧ ∃ d ∈ s, k d = none := by
  induction s with
  | nil => exact absurd h (by unfold encodeStrict; exact fun h => nomatch h)
  | cons c s ih =>
    unfold encodeStrict at h
    cases hc : k c with
    | none => rw [hc] at h; cases h; exact ⟨rfl, c, by simp, hc⟩
    | some b =>
      rw [hc] at h
      cases hs : encodeStrict k s with
      | ok x => rw [hs] at h; cases h
      | error x =>
        rw [hs] at h
        cases h
        obtain ⟨h1, d, h2, h3⟩ := ih hs
        exact ⟨h1, d, by simp [h2], h3⟩

theorem encodeStrict_none {k : Codec} {s : Str} {d : Char} (hd : d ∈ s) (h : k d = none) : encodeStrict k s = .error .valueError := by
  cases he : encodeStrict k s with
  | error e => rw [(encodeStrict_error he).1]
  | ok b =>
    exfalso
    induction s generalizing b with
    | nil => cases hd
    | cons c s ih =>
      unfold encodeStrict at he
      cases hc : k c with
      | none => rw [hc] at he; cases he
      | some x =>
        rw [hc] at he
        cases hs : encodeStrict k s with
        | error y => rw [hs] at he; cases he
        | ok y =>
          rcases List.mem_cons.mp hd with rfl | hd
          · rw [h] at hc; cases hc
          · exact ih hd y hs

theorem hexText_unique {len n : Nat} {s t : Str} (hs : HexText len n s) (ht : HexText len n t) : s = t := by
  obtain ⟨ds, l1, a1, e1⟩ := hs
  obtain ⟨es, l2, a2, e2⟩ := ht
  have gen : ∀ (s t : Str) (ds es : List Nat) (x y : Nat), s.length = t.length →
      All2 (fun c d => (str "0123456789abcdef")[d]? = some c) s ds → All2 (fun c d => (str "0123456789abcdef")[d]? = some c) t es →
      ds.foldl (fun a d => a * 16 + d) x = es.foldl (fun a d => a * 16 + d) y → s = t ∧ x = y := by
    intro s
    induction s with
    | nil =>
      intro t ds es x y hl a b h
      cases t with
      | cons => simp at hl
      | nil => cases ds <;> cases es <;> first | exact ⟨rfl, h⟩ | exact a.elim | exact b.elim
    | cons c s ih =>
      intro t ds es x y hl a b h
      cases t with
      | nil => simp at hl
      | cons d t =>
        cases ds with
        | nil => exact a.elim
        | cons p ds =>
          cases es with
          | nil => exact b.elim
          | cons q es =>
            obtain ⟨hc, a⟩ := a
            obtain ⟨hd, b⟩ := b
            obtain ⟨h1, h2⟩ := ih t _ _ _ _ (by simpa using hl) a b h
            obtain ⟨lp, -⟩ := List.getElem?_eq_some_iff.mp hc
            obtain ⟨lq, -⟩ := List.getElem?_eq_some_iff.mp hd
            have h2 : x * 16 + p = y * 16 + q := h2
            have lp : p < 16 := lp
            have lq : q < 16 := lq
            have h3 : p = q := by omega
            have h4 : x = y := by omega
            rw [h3, hd] at hc
            exact ⟨by rw [h1, Option.some.inj hc], h4⟩
  exact (gen s t ds es 0 0 (by rw [l1, l2]) a1 a2 (by unfold digitsValue at e1 e2; rw [← e1, ← e2])).1

theorem escape_unique {c : Char} {s t : Str} (hs : EscapeOf c s) (ht : EscapeOf c t) : s = t := by
  cases hs <;> cases ht <;> first | omega | (congr 2; apply hexText_unique <;> assumption)

theorem unwritable_iff {k : Codec} {c : Char} : Unwritable k c ↔ k c = none ∧ ∃ d ∈ backslashReplace c, k d = none := by
  constructor
  · exact fun ⟨h1, h2⟩ => ⟨h1, h2 _ (backslash_escape c)⟩
  · exact fun ⟨h1, h2⟩ => ⟨h1, fun e he => by rw [escape_unique he (backslash_escape c)]; exact h2⟩

theorem encodeText_error {k : Codec} {s : Str} : (∃ e, encodeText k s = .error e) ↔ ∃ c ∈ s, Unwritable k c := by
  induction s with
  | nil => simp [encodeText]
  | cons c s ih =>
    unfold encodeText
    cases hc : k c with
    | some b =>
      have hn : ¬ Unwritable k c := fun h => by rw [h.1] at hc; cases hc
      simp only [List.mem_cons, exists_eq_or_imp, hn, false_or, ← ih]
      cases encodeText k s with
      | ok x => exact ⟨(fun ⟨_, h⟩ => nomatch h), (fun ⟨_, h⟩ => nomatch h)⟩
      | error x => exact ⟨fun _ => ⟨x, rfl⟩, fun _ => ⟨x, rfl⟩⟩
    | none =>
      simp only [List.mem_cons, exists_eq_or_imp, unwritable_iff, hc, true_and]
      cases hs : encodeStrict k (backslashReplace c) with
      | error x =>
        obtain ⟨_, h⟩ := encodeStrict_error hs
        exact ⟨fun _ => .inl h, fun _ => ⟨x, rfl⟩⟩
      | ok x =>
        have hn : ¬ ∃ d ∈ backslashReplace c, k d = none := fun ⟨d, h1, h2⟩ => by rw [encodeStrict_none h1 h2] at hs; cases hs
        simp only [hn, false_or]
        simp only [unwritable_iff] at ih
        rw [← ih]
        cases encodeText k s with
        | ok y => exact ⟨(fun ⟨_, h⟩ => nomatch h), (fun ⟨_, h⟩ => nomatch h)⟩
        | error y => exact ⟨fun _ => ⟨y, rfl⟩, fun _ => ⟨y, rfl⟩⟩

theorem encodeText_value {k : Codec} {s : Str} {e : Err} (h : encodeText k s = .error e) : e = .valueError := by
  induction s with
  | nil => cases h
  | cons c s ih =>
    unfold encodeText at h
    cases hc : k c with
    | some b =>
      rw [hc] at h
      cases hs : encodeText k s with
      | ok x => rw [hs] at h; cases h
      | error x => rw [hs] at h; cases h; exact ih hs
    | none =>
      rw [hc] at h
      cases hb : encodeStrict k (backslashReplace c) with
      | error x => simp only [hb] at h; cases h; exact (encodeStrict_error hb).1
      | ok x =>
        simp only [hb] at h
        cases hs : encodeText k s with
        | ok x => rw [hs] at h; cases h
        | error x => rw [hs] at h; cases h; exact ih hs

/-- **C90** In any encoding at all, a run that has made its report and can write files ends with an exception exactly if
the text has a character for which there are no bytes.  It is then a `ValueError`, and the output file is left empty. -/
theorem C90_unwritable {R : RunIn} {input : Str} {args : Args} {k : Codec} {sep : Str} {drawn : Report → Str} {fs fs' : Files}
    {res : Except Err Unit} {rep : Report} {fn : Str} (hout : args.outputFile = some fn) (hfn : fn ≠ [])
    (hrep : makeReport R input args = some (.ok rep)) (h : runToFile R input args k sep drawn .fine fs = some (fs', res)) :
    (res = .ok () ↔ ¬ ∃ c ∈ textMode sep (rep.text drawn), Unwritable k c) ∧
    ((∃ c ∈ textMode sep (rep.text drawn), Unwritable k c) → res = .error .valueError ∧ fs' fn = some []) ∧
    ∀ p, p ≠ fn → fs' p = fs p := by
  cases fn with
  | nil => exact absurd rfl hfn
  | cons c fn =>
    unfold runToFile finishRun at h
    rw [hrep] at h
    simp only [hout, Report.bytes] at h
    rw [← encodeText_error]
    cases hb : encodeText k (textMode sep (rep.text drawn)) with
    | ok b =>
      rw [hb] at h
      cases h
      exact ⟨⟨(fun _ ⟨_, h⟩ => nomatch h), fun _ => rfl⟩, (fun ⟨_, h⟩ => nomatch h), fun p hp => if_neg hp⟩
    | error e =>
      rw [hb] at h
      cases encodeText_value hb
      cases h
      exact ⟨⟨(fun h => nomatch h), fun h => absurd ⟨_, rfl⟩ h⟩, fun _ => ⟨rfl, if_pos rfl⟩, fun p hp => if_neg hp⟩

/-- **C90** If the directory cannot be made or the file cannot be opened no file changes, whatever the text of the report
and its encoding are; an `OSError` becomes an exit. -/
theorem C90_not_opened {R : RunIn} {input : Str} {args : Args} {k : Codec} {sep : Str} {drawn : Report → Str} {fs fs' : Files}
    {res : Except Err Unit} {rep : Report} {fn : Str} {wr : Writing} {e : Err} (hwr : wr = .mkdir e ∨ wr = .opening e)
    (hout : args.outputFile = some fn) (hfn : fn ≠ [])
    (hrep : makeReport R input args = some (.ok rep)) (h : runToFile R input args k sep drawn wr fs = some (fs', res)) :
    fs' = fs ∧ (e = .osError → res = .error .exit) ∧ ∃ x, res = .error x := by
  cases fn with
  | nil => exact absurd rfl hfn
  | cons c fn =>
    unfold runToFile finishRun at h
    rw [hrep] at h
    simp only [hout] at h
    have hw : ∀ b, wr.encoded b = wr := by intro b; rcases hwr with rfl | rfl <;> cases b <;> rfl
    rw [hw] at h
    rcases hwr with rfl | rfl <;> cases h <;> exact ⟨rfl, fun he => by rw [he]; rfl, _, rfl⟩

theorem readJson_line (v : Json) : readJson (jsonDumps v ++ ['\n']) = some v := by
  unfold readJson jsonDumps
  have := readValue_dump v 0 ((v.dump 0 ++ ['\n']).length + 1) ['\n'] (noDigit_cons (by decide)) (by simp; omega)
  rw [this]; rfl

theorem report_json {R : RunIn} {input : Str} {args : Args} {rep : Report} (hf : args.format = str "json2" ∨ args.format = str "raw")
    (hrep : makeReport R input args = some (.ok rep)) : ∃ v, rep.json = some v := by
  obtain ⟨mf, elf, m, ref, d, -, -, -, -, -, h⟩ := makeReport_ok hrep
  have he := eff_format args
  unfold showReport at h
  rw [he] at h
  rcases hf with hf | hf
  · rw [if_neg (by rw [hf]; decide), if_pos hf] at h
    unfold showJson at h
    split at h
    · obtain ⟨_, _, h⟩ := bind_ok h; cases h; exact ⟨_, rfl⟩
    split at h
    · obtain ⟨_, _, h⟩ := bind_ok h; cases h; exact ⟨_, rfl⟩
    split at h
    · obtain ⟨_, _, h⟩ := bind_ok h; cases h; exact ⟨_, rfl⟩
    split at h
    · obtain ⟨_, _, h⟩ := bind_ok h; cases h; exact ⟨_, rfl⟩
    · cases h; exact ⟨_, rfl⟩
  · rw [if_neg (by rw [hf]; decide), if_neg (by rw [hf]; decide), if_pos hf] at h
    split at h
    · obtain ⟨_, _, h⟩ := bind_ok h; cases h; exact ⟨_, rfl⟩
    · cases h; exact ⟨_, rfl⟩

/-- **C90** (names without markup) The file a run with `--format json2` or `raw` writes is JSON text for its report in UTF-8,
whatever the encoding of the locale and the ends of lines. -/
theorem C90_json_partial {R : RunIn} {input : Str} {args : Args} {k : Codec} {sep : Str} {drawn : Report → Str} {fs fs' : Files}
    {res : Except Err Unit} {rep : Report} {fn : Str} (hk : AsciiCompatible k) (hsep : sep = ['\n'] ∨ sep = ['\r', '\n'])
    (hf : args.format = str "json2" ∨ args.format = str "raw") (hout : args.outputFile = some fn) (hfn : fn ≠ [])
    (hrep : makeReport R input args = some (.ok rep)) (h : runToFile R input args k sep drawn .fine fs = some (fs', res)) :
    res = .ok () ∧ ∃ v, rep.json = some v ∧
      ((∀ s ∈ v.strings, NoMarkup s) → ∃ t, readText fs' fn = .ok t ∧ readJson t = some v ∧
        (v.Distinct → JsonText v.loaded t ∧ jsonLoads t = some v.loaded)) := by
  obtain ⟨h1, b, hb, -, h3⟩ := runToFile_ok hk hout hfn hrep h
  obtain ⟨v, hv⟩ := report_json hf hrep
  refine ⟨h1, v, hv, fun hs => ?_⟩
  have hr : render (jsonDumps v) = jsonDumps v := by
    have := clean_dump 0 v hs []
    simpa [jsonDumps, render_nil] using this
  have ht : rep.text drawn = jsonDumps v ++ ['\n'] := by
    unfold Report.text
    rw [hv]
    simp only [hr]
  have hp : JsonPlain (jsonDumps v ++ ['\n']) := jsonPlain_append (plain_dump 0 v) (jsonPlain_cons (by decide) jsonPlain_nil)
  rw [ht] at hb
  have hasc := textMode_ascii (sep := sep) (by rcases hsep with rfl | rfl <;> decide) (fun c hc => (hp c hc).1)
  rw [C90_ascii hk hasc] at hb
  have hb := Except.ok.inj hb
  have hg : v.Distinct → JsonText v.loaded (jsonDumps v ++ ['\n']) := fun hd => dumps_text v hd (by intro c hc; exact .inr (.inr (.inl (List.mem_singleton.mp hc))))
  refine ⟨jsonDumps v ++ ['\n'], ?_, readJson_line v, fun hd => ⟨hg hd, jsonLoads_text (hg hd)⟩⟩
  unfold readText
  rw [h3, ← hb]
  simp only [decodeUtf8_utf8]
  rw [newlines_textMode hsep (fun hc => (hp _ hc).2 rfl)]

/-- **C90** with UTF-8 and Unix ends of lines the bytes of the file are the text of the report. -/
theorem C90_text {R : RunIn} {input : Str} {args : Args} {drawn : Report → Str} {fs fs' : Files}
    {res : Except Err Unit} {rep : Report} {fn : Str} (hout : args.outputFile = some fn) (hfn : fn ≠ [])
    (hrep : makeReport R input args = some (.ok rep)) (h : runToFile R input args utf8Codec ['\n'] drawn .fine fs = some (fs', res)) :
    res = .ok () ∧ ∃ b, fs' fn = some b ∧ decodeUtf8 b = .ok (rep.text drawn) := by
  obtain ⟨h1, b, hb, -, h3⟩ := runToFile_ok utf8_ascii hout hfn hrep h
  refine ⟨h1, b, h3, ?_⟩
  rw [C90_utf8, textMode_unix] at hb
  rw [← Except.ok.inj hb, decodeUtf8_utf8]

/-- **C90** from the bytes of a link map file to the bytes of the report of `--archives --format csv --output-file`. -/
theorem C90_csv_partial (R : RunIn) (long : Nat) (fs fs' : Files) (input text fn : Str) (args : Args) (rep : Report)
    {drawn : Report → Str} {res : Except Err Unit} {lines : List Str}
    {regs : List Region} {target : Str} {os : List ListedOut} {t : List (Str × List (Str × Str))}
    (hw : R.w = worldOf long fs) (hbytes : fs input = some (utf8 text)) (htext : LinesOf lines text) (hone : ∀ l ∈ lines, OneLine l)
    (hfile : MapFileText regs target os t lines)
    (hpads : ∀ o ∈ os, ∀ i ∈ o.inputs, SimplePads o.address o.size i)
    (hform : args.format = str "csv") (harch : args.archives = true) (hdiff : truthy args.diff = false)
    (huni : args.unify = false) (hfilt : args.filter = none) (hdwarf : wantDwarf R.w input (useDwarfOf args) = false)
    (hsec : ∀ o ∈ os, PlainName o.name ∧ ∀ g ∈ o.counted, PlainName g.archive)
    (hout : args.outputFile = some fn) (hfn : fn ≠ [])
    (hrep : makeReport R input args = some (.ok rep)) (h : runToFile R input args utf8Codec ['\n'] drawn .fine fs = some (fs', res)) :
    ∃ l regions parts goes, load R.w input (useDwarfOf args) none = .ok l ∧
      PartsOf R.n (loadSymbolsOf args) l regions parts ∧ (∀ s, Goes l.types regions s (goes s)) ∧ res = .ok () ∧
      (¬ Collision goes parts → (∀ s ∈ parts, goes s ≠ none) → (∀ k, IsAlias l.types k → PlainName k) →
        ∃ b s more archs rows, fs' fn = some b ∧ decodeUtf8 b = .ok s ∧
          csvRead s = (str "Archive File" :: str "Total Size" :: more) :: rows ∧ archs.Nodup ∧
          (∀ a, listedTotal (l.elf.map ElfData.shdrs) os a ≠ 0 → a ∈ archs) ∧
          All2 (fun a row => ∃ cells, row = strip (if args.noAbbrev then a else basename a) ::
            intStr (listedTotal (l.elf.map ElfData.shdrs) os a) :: cells) archs rows) := by
  obtain ⟨l, regions, parts, goes, ls, h1, h2, h3, h4, h5⟩ := C87_csv_partial R long fs input text args rep hw hbytes htext hone hfile hpads
    hform harch hdiff huni hfilt hdwarf hsec hrep
  obtain ⟨hres, b, hb, hd⟩ := C90_text hout hfn hrep h
  refine ⟨l, regions, parts, goes, h1, h2, h3, hres, fun a1 a2 a3 => ?_⟩
  obtain ⟨more, archs, rows, h6, h7, h8, h9⟩ := h5 a1 a2 a3
  refine ⟨b, printed ls, more, archs, rows, hb, ?_, h6, h7, h8, h9⟩
  rw [hd, h4]
  rfl

/-- **C68** (names without markup) what is shown for a value is JSON text for it, in the grammar of RFC 8259. -/
theorem C68_grammar_partial (v : Json) (hd : v.Distinct) (h : ∀ s ∈ v.strings, NoMarkup s) : JsonText v.loaded (shownJson v) := by
  have e : shownJson v = jsonDumps v := by
    have := clean_dump 0 v h []
    simpa [shownJson, jsonDumps, render_nil] using this
  have := dumps_text v hd jsonBlank_nil
  rwa [List.append_nil, ← e] at this

/-! ## Non-vacuity -/

example : (runToFile (exRun (worldOf 8 exFiles)) (str "/b/x.map") { format := str "csv", archives := true, outputFile := some (str "o.csv") }
    asciiCodec ['\r', '\n'] (fun _ => []) .fine exFiles).map (fun x => (x.1 (str "o.csv"), x.2)) =
    some (some (asciiBytes (str "\"Archive File\",\"Total Size\",\"IRAM\",\".text\"\r\n\"liba.a\",\"24\",\"24\",\"24\"\r\n\"libb.a\",\"8\",\"8\",\"8\"\r\n")), .ok ()) := by
  decide +kernel

/-- An encoding without a backslash: the report of a run whose names are all of its characters is written, another is not. -/
example : Unwritable (fun c => if c = 'a' then some [97] else none) 'b' :=
  unwritable_iff.mpr ⟨by decide, '\\', by decide +kernel, by decide⟩

example : (runToFile (exRun (worldOf 8 exFiles)) (str "/b/x.map") { format := str "csv", archives := true, outputFile := some (str "o.csv") }
    (fun c => if c = 'a' then some [97] else none) ['\n'] (fun _ => []) .fine exFiles).map (fun x => (x.1 (str "o.csv"), x.2)) =
    some (some [], .error .valueError) := by decide +kernel

example : encodeText latin1Codec [Char.ofNat 0xe9, Char.ofNat 0x20ac, Char.ofNat 0x1f600] =
    .ok (0xe9 :: asciiBytes (str "\\u20ac\\U0001f600")) := by decide +kernel

end EspSize
