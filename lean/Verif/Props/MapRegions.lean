import Verif.Spec.MapText
import Verif.Proofs.Split
import Verif.Proofs.Dict
/-! # C27, C28, C33: Memory Configuration, archive references, cross reference table -/
namespace EspSize

theorem startsWith_false {s p : Str} (h : ¬ p <+: s) : startsWith s p = false := by
  cases hb : startsWith s p with
  | false => rfl
  | true => exact absurd (startsWith_iff.mp hb) h

theorem startsWith_true {s p : Str} (h : p <+: s) : startsWith s p = true := startsWith_iff.mpr h

/-- Words of a line that starts with two words and a blank after them. -/
theorem split_prefix2 {a b l : Str} (ha : Word a) (hb : Word b) (h : (a ++ (str " " ++ (b ++ str " "))) <+: l) :
    ∃ ts, split l = a :: b :: ts := by
  obtain ⟨r, rfl⟩ := h
  refine ⟨split (str " " ++ r), ?_⟩
  have hg : Gap (str " ") := ⟨by decide, by decide⟩
  have h1 := words_split (str " " ++ r)
  have hn : (str " " ++ r).head? = some ' ' := rfl
  have h2 := Words.cons (w := str " ") hg.2 hb (.inr ⟨' ', hn, by decide⟩) h1
  have h3 := Words.cons (w := []) (fun _ h => by cases h) ha (gap_head hg _) h2
  have := split_words h3
  simpa [List.append_assoc] using this

theorem hexOf_not_word {n : Int} (b : Str) (hb : (str "0x").isPrefixOf b = false) : ¬ HexOf n b := by
  rintro ⟨ds, _, _, rfl, _⟩
  simp [str, List.isPrefixOf] at hb

theorem linker_split {l : Str} (h : linkerScript <+: l) : ∃ ts, split l = str "Linker" :: str "script" :: ts := by
  refine split_prefix2 (by unfold Word; decide) (by unfold Word; decide) ?_
  exact List.IsPrefix.trans (List.isPrefixOf_iff_prefix.mp (by decide)) h

theorem regionText_notStart {r : Region} {l : Str} (h : RegionText r l) : ¬ linkerScript <+: l := by
  intro hp
  obtain ⟨ts, hts⟩ := linker_split hp
  obtain ⟨o, n, _, ho, _, ⟨_, hw⟩ | ⟨_, hw⟩⟩ := h
  all_goals
    rw [split_words hw] at hts
    simp only [List.cons.injEq] at hts
    rw [hts.2.1] at ho
    exact hexOf_not_word _ (by decide) ho

theorem blank_notStart {w : Str} (h : Blank w) : ¬ linkerScript <+: w := by
  intro hp
  obtain ⟨ts, hts⟩ := linker_split hp
  rw [split_blank h] at hts
  cases hts

theorem regionLine_text {r : Region} {l : Str} (h : RegionText r l) : regionLine l = .ok (some r) := by
  obtain ⟨o, n, _, ho, hn, ⟨ha, hw⟩ | ⟨_, hw⟩⟩ := h
  all_goals
    unfold regionLine
    rw [split_words hw]
    simp only []
    rw [int0_hex ho, int0_hex hn]
  · rw [← ha]; rfl
  · rfl

theorem regionsLoop_body {rs : List Region} {ls : List Str} (h : RegionsText rs ls) (rest : List Str) (acc : List Region) :
    regionsLoop (ls ++ rest) true true acc = regionsLoop rest true true (acc ++ rs) := by
  induction h generalizing acc with
  | nil => simp
  | blank hw _ ih =>
    rw [List.cons_append, regionsLoop, if_neg (by simp [startsWith_false (blank_notStart hw)])]
    simp only [Bool.not_true, Bool.false_eq_true, if_false]
    unfold regionLine
    rw [split_blank hw]
    exact ih acc
  | line hl _ ih =>
    rw [List.cons_append, regionsLoop, if_neg (by simp [startsWith_false (regionText_notStart hl)])]
    simp only [Bool.not_true, Bool.false_eq_true, if_false]
    rw [regionLine_text hl]
    show regionsLoop _ true true _ = _
    rw [ih]
    simp

theorem regionsLoop_pre {pre : List Str} (h : ∀ l ∈ pre, NotStart [linkerScript, memConfig] l) (rest : List Str) (header : Bool)
    (acc : List Region) : regionsLoop (pre ++ rest) false header acc = regionsLoop rest false header acc := by
  induction pre with
  | nil => rfl
  | cons l pre ih =>
    have hl := h l (by simp)
    rw [List.cons_append, regionsLoop, if_neg (by simp [startsWith_false (hl linkerScript (by simp))])]
    simp only [Bool.not_false, if_true]
    rw [startsWith_false (hl memConfig (by simp))]
    exact ih fun x hx => h x (by simp [hx])

theorem regionsLoop_mid {mid : List Str} (h : ∀ l ∈ mid, NotStart [linkerScript, str "Name"] l) (rest : List Str)
    (acc : List Region) : regionsLoop (mid ++ rest) true false acc = regionsLoop rest true false acc := by
  induction mid with
  | nil => rfl
  | cons l mid ih =>
    have hl := h l (by simp)
    rw [List.cons_append, regionsLoop, if_neg (by simp [startsWith_false (hl linkerScript (by simp))])]
    simp only [Bool.not_true, Bool.false_eq_true, if_false, Bool.not_false, if_true]
    rw [startsWith_false (hl (str "Name") (by simp))]
    exact ih fun x hx => h x (by simp [hx])

theorem prefix_ne {p q l : Str} (hp : p <+: l) (h : p.isPrefixOf q = false ∧ q.isPrefixOf p = false) : ¬ q <+: l := by
  intro hq
  rcases List.prefix_or_prefix_of_prefix hp hq with h' | h'
  · have := List.isPrefixOf_iff_prefix.mpr h'; rw [h.1] at this; cases this
  · have := List.isPrefixOf_iff_prefix.mpr h'; rw [h.2] at this; cases this

theorem regionsLoop_head {hd : List Str} (h : ConfigHead hd) (rest : List Str) (acc : List Region) :
    regionsLoop (hd ++ rest) false false acc = regionsLoop rest true true acc := by
  obtain ⟨pre, title, mid, header, rfl, h1, h2, h3, h4⟩ := h
  rw [List.append_assoc, regionsLoop_pre h1, List.cons_append, regionsLoop,
    if_neg (by simp [startsWith_false (prefix_ne (q := linkerScript) h2 (by decide))])]
  simp only [Bool.not_false, if_true]
  rw [startsWith_true h2, List.append_assoc, regionsLoop_mid h3, List.singleton_append, regionsLoop,
    if_neg (by simp [startsWith_false (prefix_ne (q := linkerScript) h4 (by decide))])]
  simp only [Bool.not_true, Bool.false_eq_true, if_false, Bool.not_false, if_true]
  rw [startsWith_true h4]

theorem restFrom_eq {pre : List Str} {p : Str} (h : ∀ l ∈ pre, ¬ p <+: l) {l : Str} (hl : p <+: l) (rest : List Str) :
    restFrom p (pre ++ l :: rest) = l :: rest := by
  induction pre with
  | nil => rw [List.nil_append, restFrom, if_pos (startsWith_true hl)]
  | cons x pre ih =>
    rw [List.cons_append, restFrom, if_neg (by simp [startsWith_false (h x (by simp))]), if_neg (by simp)]
    exact ih fun y hy => h y (by simp [hy])

theorem regionsText_notStart {rs : List Region} {ls : List Str} (h : RegionsText rs ls) : ∀ l ∈ ls, ¬ linkerScript <+: l := by
  induction h with
  | nil => intro l hl; cases hl
  | blank hw _ ih =>
    intro l hl
    rcases List.mem_cons.mp hl with rfl | hl
    · exact blank_notStart hw
    · exact ih l hl
  | line hr _ ih =>
    intro l hl
    rcases List.mem_cons.mp hl with rfl | hl
    · exact regionText_notStart hr
    · exact ih l hl

theorem configHead_notStart {hd : List Str} (h : ConfigHead hd) : ∀ l ∈ hd, ¬ linkerScript <+: l := by
  obtain ⟨pre, title, mid, header, rfl, h1, h2, h3, h4⟩ := h
  intro l hl
  simp only [List.mem_append, List.mem_cons, List.not_mem_nil, or_false] at hl
  rcases hl with hl | rfl | hl | rfl
  · exact h1 l hl _ (by simp)
  · exact prefix_ne h2 (by decide)
  · exact h3 l hl _ (by simp)
  · exact prefix_ne h4 (by decide)

/-- C27: the regions the linker printed are read back exactly, and the parser continues with the line
`Linker script and memory map`. -/
theorem C27_round_trip {rs : List Region} {hd ls rest : List Str} {l : Str} (hh : ConfigHead hd) (hb : RegionsText rs ls)
    (hl : linkerScript <+: l) : getMemoryRegions (hd ++ (ls ++ l :: rest)) = .ok (rs, l :: rest) := by
  unfold getMemoryRegions
  rw [regionsLoop_head hh, regionsLoop_body hb, regionsLoop, if_pos (startsWith_true hl)]
  show Except.ok (_, restFrom linkerScript _) = _
  rw [← List.append_assoc, restFrom_eq (fun x hx => ?_) hl]
  · rfl
  · rcases List.mem_append.mp hx with hx | hx
    · exact configHead_notStart hh x hx
    · exact regionsText_notStart hb x hx

/-- C27: a line with another number of fields is rejected with `MapFileException`. -/
theorem C27_rejected {rs : List Region} {hd ls rest : List Str} {l : Str} {ws : List Str} (hh : ConfigHead hd)
    (hb : RegionsText rs ls) (hl : ¬ linkerScript <+: l) (hw : Words l ws) (hn : ws.length ≠ 0 ∧ ws.length ≠ 3 ∧ ws.length ≠ 4) :
    getMemoryRegions (hd ++ (ls ++ l :: rest)) = .error .mapFile := by
  unfold getMemoryRegions
  rw [regionsLoop_head hh, regionsLoop_body hb, regionsLoop, if_neg (by simp [startsWith_false hl])]
  simp only [Bool.not_true, Bool.false_eq_true, if_false]
  have : regionLine l = .error .mapFile := by
    unfold regionLine
    rw [split_words hw]
    match ws, hn with
    | [], hn => exact absurd rfl hn.1
    | [_], _ => rfl
    | [_, _], _ => rfl
    | [_, _, _], hn => exact absurd rfl hn.2.1
    | [_, _, _, _], hn => exact absurd rfl hn.2.2
    | _ :: _ :: _ :: _ :: _ :: _, _ => rfl
  rw [this]
  rfl

/-- C27: without the title or the header the file is rejected with `MapFileException`. -/
theorem C27_no_header {ls : List Str} (h : (∀ l ∈ ls, ¬ memConfig <+: l) ∨ ∀ l ∈ ls, ¬ str "Name" <+: l) :
    getMemoryRegions ls = .error .mapFile := by
  have key : ∀ (ls : List Str) (found : Bool),
      (((∀ l ∈ ls, ¬ memConfig <+: l) ∧ found = false) ∨ ∀ l ∈ ls, ¬ str "Name" <+: l) →
      regionsLoop ls found false [] = .ok ([], false) := by
    intro ls
    induction ls with
    | nil => intro found _; cases found <;> rfl
    | cons l ls ih =>
      intro found h
      rw [regionsLoop]
      by_cases hs : startsWith l linkerScript = true
      · rw [if_pos hs]; cases found <;> rfl
      · rw [if_neg hs]
        cases found with
        | false =>
          simp only [Bool.not_false, if_true]
          refine ih _ ?_
          rcases h with ⟨h, _⟩ | h
          · exact .inl ⟨fun x hx => h x (by simp [hx]), startsWith_false (h l (by simp))⟩
          · exact .inr fun x hx => h x (by simp [hx])
        | true =>
          simp only [Bool.not_true, Bool.false_eq_true, if_false, Bool.not_false, if_true]
          rcases h with ⟨_, h⟩ | h
          · cases h
          · rw [startsWith_false (h l (by simp))]
            exact ih _ (.inr fun x hx => h x (by simp [hx]))
  unfold getMemoryRegions
  rw [key ls false (by rcases h with h | h; exact .inl ⟨h, rfl⟩; exact .inr h)]
  rfl

/-- Every region has a line, so the theorem is not vacuous. -/
theorem regionText_exists (name attrs : Str) (o n : Nat) (hn : Word name) (ha : Word attrs) :
    ∃ l, RegionText ⟨name, o, n, attrs⟩ l := by
  obtain ⟨a, ha'⟩ := hexOf_exists o
  obtain ⟨b, hb'⟩ := hexOf_exists n
  have hg : Gap (str " ") := ⟨by decide, by decide⟩
  have hnil : Blank [] := fun _ h => by cases h
  have h1 := Words.cons hg.2 ha (.inl rfl) (.nil hnil)
  have h2 := Words.cons hg.2 hb'.word (gap_head hg _) h1
  have h3 := Words.cons hg.2 ha'.word (gap_head hg _) h2
  have h4 := Words.cons hnil hn (gap_head hg _) h3
  exact ⟨_, a, b, hn, ha', hb', .inr ⟨ha, h4⟩⟩

example : (getMemoryRegions [str "Memory Configuration", str "", str "Name             Origin             Length             Attributes",
    str "iram0_0_seg      0x40080000  0x00020000  xr", str "*default*        0x00000000  0xffffffff", str "",
    str "Linker script and memory map"]).map (·.1) =
    .ok [⟨str "iram0_0_seg", 0x40080000, 0x20000, str "xr"⟩, ⟨str "*default*", 0, 0xffffffff, []⟩] := by decide

/-- C28: an archive path without `(` is separated from the member; a path without parenthesis belongs to
`(exe)`. -/
theorem C28_split_partial {a m p : Str} (h : RefText a m p) : archiveObject p = (a, m) := archiveObject_ref h

/-- C28 fails for directories with parentheses: the first one is taken. -/
theorem C28_parenthesis :
    archiveObject (str "C:/Program Files (x86)/lib.a(x.o)") = (str "C:/Program Files ", str "x86)/lib.a(x.o") := by decide

/-- C28: nothing but the last character and the first parenthesis is lost. -/
theorem C28_no_paren {p : Str} (h : '(' ∉ p) : archiveObject p = (str "(exe)", p) := archiveObject_ref (.inr ⟨rfl, rfl, h⟩)

/-! ### C33 -/

theorem dset_dset (d : Dict Str (List (Str × Str))) (k : Str) (a b : List (Str × Str)) :
    dset (dset d k a) k b = dset d k b := by
  induction d with
  | nil => simp [dset]
  | cons p t ih =>
    unfold dset
    by_cases h : p.1 = k
    · simp [h, dset]
    · simp [h, dset, ih]

theorem crtLoop_refs {refs : List (Str × Str)} {ls : List Str} (h : RefsText refs ls) (rest : List Str) (s : Str) (crt : Crt)
    (d : List (Str × Str)) :
    crtLoop (ls ++ rest) true true (some s) (dset crt s d) = crtLoop rest true true (some s) (dset crt s (d ++ refs)) := by
  induction h generalizing d with
  | nil => simp
  | @cons a m p g w refs ls hr hp hg hw hgh _ ih =>
    have hne : g ++ p ++ w ≠ [] := by have := hg.1; simp [this]
    have hst : startsWithAny (g ++ p ++ w) [str " ", str "\t"] = true := by
      cases g with
      | nil => exact absurd rfl hg.1
      | cons c g =>
        unfold startsWithAny startsWith
        rcases hgh with hgh | hgh
        · have : c = ' ' := by simpa using hgh
          subst this; simp [str, List.isPrefixOf]
        · have : c = '\t' := by simpa using hgh
          subst this; simp [str, List.isPrefixOf]
    rw [List.cons_append, crtLoop]
    simp only [Bool.not_true, Bool.false_and, Bool.false_eq_true, if_false]
    rw [if_neg hne, hst]
    simp only [Bool.not_true, Bool.false_eq_true, if_false]
    rw [strip_trimmed hg.2 hw hp, archiveObject_ref hr, dget_dset_self]
    have : dset (dset crt s d) s (d ++ [(a, m)]) = dset crt s (d ++ [(a, m)]) := dset_dset crt s d _
    simp only [Option.getD_some]
    rw [this, ih]
    simp

theorem crtLoop_end {ls : List Str} (h : CrtEnd ls) (s : Option Str) (crt : Crt) : crtLoop ls true true s crt = .ok crt := by
  rcases h with rfl | ⟨t, rfl⟩
  · rfl
  · unfold crtLoop
    simp only [Bool.not_true, Bool.false_and, Bool.false_eq_true, if_false, if_true]

theorem crtLoop_body {t : List (Str × List (Str × Str))} {ls : List Str} (h : CrtText t ls) {rest : List Str} (he : CrtEnd rest)
    (s : Option Str) (crt : Crt) (hk : (dkeys crt ++ t.map (·.1)).Nodup) :
    crtLoop (ls ++ rest) true true s crt = .ok (crt ++ t) := by
  induction h generalizing s crt with
  | nil => rw [List.nil_append, crtLoop_end he, List.append_nil]
  | @cons sym a m p g refs ls t rest' hs hg hr hp hrs _ ih =>
    have hne : sym ++ (g ++ p) ≠ [] := by have := hs.1; simp [this]
    have hst : startsWithAny (sym ++ (g ++ p)) [str " ", str "\t"] = false := by
      cases sym with
      | nil => exact absurd rfl hs.1
      | cons c sym =>
        have hc := hs.2 c (by simp)
        have h1 : ' ' ≠ c := by rintro rfl; exact absurd hc (by decide)
        have h2 : '\t' ≠ c := by rintro rfl; exact absurd hc (by decide)
        simp [startsWithAny, startsWith, str, List.isPrefixOf, h1, h2]
    have hnk : sym ∉ dkeys crt := by
      intro hm
      rw [List.map_cons, List.nodup_append] at hk
      exact hk.2.2 sym hm sym (by simp) rfl
    rw [List.cons_append, crtLoop.eq_def]
    simp only [Bool.not_true, Bool.false_and, Bool.false_eq_true, if_false]
    rw [if_neg hne, hst]
    simp only [Bool.not_false, if_true]
    have hsp : splitN 1 (sym ++ (g ++ p)) = [sym, p] := by
      have := splitN_word 0 (w := []) (fun _ h => by cases h) hs (gap_head hg p)
      rw [List.nil_append] at this
      rw [this, splitN_rest hg.2 hp]
    rw [hsp]
    simp only []
    rw [archiveObject_ref hr, List.append_assoc, crtLoop_refs hrs]
    rw [dset_of_not_mem hnk]
    rw [ih]
    · simp
    · rw [show dkeys (crt ++ [(sym, [(a, m)] ++ refs)]) = dkeys crt ++ [sym] by simp [dkeys]]
      simpa using hk

theorem crtLoop_pre {pre : List Str} (h : ∀ l ∈ pre, NotStart [str "Symbol"] l) (rest : List Str) :
    crtLoop (pre ++ rest) true false none [] = crtLoop rest true false none [] := by
  induction pre with
  | nil => rfl
  | cons l pre ih =>
    rw [List.cons_append, crtLoop]
    simp only [Bool.not_true, Bool.false_and, Bool.false_eq_true, if_false, Bool.not_false, if_true]
    rw [startsWith_false (h l (by simp) _ (by simp))]
    exact ih fun x hx => h x (by simp [hx])

/-- C33: the cross reference table the linker printed is read back exactly: symbols in order, the definition
first, then the references in order. -/
theorem C33_round_trip {t : List (Str × List (Str × Str))} {title header : Str} {mid ls rest : List Str}
    (h1 : crossRef <+: title) (h2 : ∀ l ∈ mid, NotStart [str "Symbol"] l) (h3 : str "Symbol" <+: header)
    (h : CrtText t ls) (he : CrtEnd rest) (hk : (t.map (·.1)).Nodup) (hne : t ≠ []) :
    getCrt (title :: (mid ++ header :: (ls ++ rest))) = .ok (some t) := by
  unfold getCrt
  rw [crtLoop, if_pos (by simp [startsWith_true h1]), crtLoop_pre h2, crtLoop]
  simp only [Bool.not_true, Bool.false_and, Bool.false_eq_true, if_false, Bool.not_false, if_true]
  rw [startsWith_true h3, crtLoop_body h he none [] (by simpa [dkeys] using hk)]
  show Except.ok _ = _
  rw [List.nil_append, if_neg (by simp [hne])]

/-- C33: without a table there is none. -/
theorem C33_no_table (l : Str) (h : NotStart [crossRef, str "Symbol"] l) : getCrt [l] = .ok none := by
  unfold getCrt
  rw [crtLoop, if_neg (by simp [startsWith_false (h crossRef (by simp))])]
  simp only [Bool.not_false, if_true]
  rw [startsWith_false (h _ (by simp : str "Symbol" ∈ _))]
  rfl

example : getCrt [str "Cross Reference Table", str "", str "Symbol                                            File",
    str "abort     esp-idf/a/liba.a(x.c.obj)", str "          esp-idf/b/libb.a(y.c.obj)", str "          m.o",
    str "main      esp-idf/b/libb.a(y.c.obj)"] =
    .ok (some [(str "abort", [(str "esp-idf/a/liba.a", str "x.c.obj"), (str "esp-idf/b/libb.a", str "y.c.obj"), (str "(exe)", str "m.o")]),
      (str "main", [(str "esp-idf/b/libb.a", str "y.c.obj")])]) := by decide

/-- A symbol printed twice loses its first block. -/
theorem C33_duplicate_lost : getCrt [str "Cross Reference Table", str "Symbol File", str "f a.a(x.o)", str "  b.a(y.o)", str "f c.a(z.o)"] =
    .ok (some [(str "f", [(str "c.a", str "z.o")])]) := by decide

end EspSize
