import Verif.Spec.MapPrint
import Verif.Props.EndToEnd
/-! # C70: a map file that is printed is read back -/
namespace EspSize

theorem hexDigits_lt (n : Nat) : ∀ d ∈ hexDigits n, d < 16 := by
  induction n using Nat.strongRecOn with
  | ind n ih =>
    rw [hexDigits]
    split
    · intro d hd; simp at hd; omega
    · intro d hd
      rcases List.mem_append.mp hd with hd | hd
      · exact ih _ (by omega) d hd
      · simp at hd; omega

theorem hexDigits_value (n : Nat) : (hexDigits n).foldl (fun a d => a * 16 + d) 0 = n := by
  induction n using Nat.strongRecOn with
  | ind n ih =>
    rw [hexDigits]
    split
    · simp
    · rw [List.foldl_append, ih _ (by omega)]
      simp; omega

theorem hexDigits_ne (n : Nat) : hexDigits n ≠ [] := by
  rw [hexDigits]; split <;> simp

theorem hexOf_printHex {n : Int} (h : 0 ≤ n) : HexOf n (printHex n) :=
  ⟨hexDigits n.toNat, hexDigits_ne _, hexDigits_lt _, rfl, by rw [hexDigits_value]; omega⟩

theorem word_printHex (n : Int) : Word (printHex n) := by
  refine ⟨by simp [printHex], ?_⟩
  intro c hc
  simp only [printHex, List.mem_cons, List.mem_map] at hc
  rcases hc with rfl | rfl | ⟨d, hd, rfl⟩
  · decide
  · decide
  · have h := hexDigits_lt _ d hd
    have key : ∀ d : Fin 16, isSpace (hexDigit d) = false := by decide
    exact key ⟨d, h⟩

theorem words_spaced {ws : List Str} (h : ∀ w ∈ ws, Word w) : Words (spaced ws) ws := by
  have key : ∀ ws : List Str, (∀ w ∈ ws, Word w) → ∀ b, Blank b → Words (b ++ spaced ws) ws := by
    intro ws
    induction ws with
    | nil => intro _ b hb; simpa [spaced] using Words.nil hb
    | cons w ws ih =>
      intro h b hb
      cases ws with
      | nil =>
        have := Words.cons (t := w) (r := []) (ts := []) hb (h w (by simp)) (Or.inl rfl) (Words.nil (by intro c hc; cases hc))
        simpa [spaced] using this
      | cons v vs =>
        have h2 := ih (fun x hx => h x (by simp [hx])) [' '] (by unfold Blank; decide)
        have := Words.cons (t := w) (r := ' ' :: spaced (v :: vs)) (ts := v :: vs) hb (h w (by simp))
          (Or.inr ⟨' ', rfl, by decide⟩) h2
        simpa [spaced] using this
  have := key ws h [] (by intro c hc; cases hc)
  simpa using this

theorem refText_printRef {a m : Str} (h : RefPrints a m) : RefText a m (printRef a m) := by
  unfold RefText printRef
  have h2 := h.2
  split at h2
  · rename_i e; right; simp [e]; exact h2
  · rename_i e; left; simp [e]; exact h2

theorem regionText_print {r : Region} (h : RegionPrints r) : RegionText r (printRegion r) := by
  refine ⟨printHex r.origin, printHex r.length, h.name, hexOf_printHex h.origin, hexOf_printHex h.length, ?_⟩
  unfold printRegion
  by_cases e : r.attrs = []
  · left
    rw [if_pos e]
    refine ⟨e, words_spaced ?_⟩
    intro w hw
    simp only [List.mem_cons, List.not_mem_nil, or_false] at hw
    rcases hw with rfl | rfl | rfl
    · exact h.name
    · exact word_printHex _
    · exact word_printHex _
  · right
    have ha := h.attrs.resolve_left e
    rw [if_neg e]
    refine ⟨ha, words_spaced ?_⟩
    intro w hw
    simp only [List.mem_cons, List.not_mem_nil, or_false] at hw
    rcases hw with rfl | rfl | rfl | rfl
    · exact h.name
    · exact word_printHex _
    · exact word_printHex _
    · exact ha

theorem regionsText_print {rs : List Region} (h : ∀ r ∈ rs, RegionPrints r) : RegionsText rs (rs.map printRegion) := by
  induction rs with
  | nil => exact .nil
  | cons r rs ih => exact .line (regionText_print (h r (by simp))) (ih fun x hx => h x (by simp [hx]))

theorem padText_print {p : Pad} (h : 0 ≤ p.address ∧ 0 ≤ p.size) : PadText p (printPad p) := by
  refine ⟨printHex p.address, printHex p.size, hexOf_printHex h.1, hexOf_printHex h.2, ?_⟩
  unfold printPad
  split
  · apply words_spaced
    intro w hw
    simp only [List.mem_cons, List.not_mem_nil, or_false] at hw
    rcases hw with rfl | rfl | rfl
    · decide
    · exact word_printHex _
    · exact word_printHex _
  · refine ⟨str "BYTE", str "0x0", by decide, words_spaced ?_⟩
    intro w hw
    simp only [List.mem_cons, List.not_mem_nil, or_false] at hw
    rcases hw with rfl | rfl | rfl | rfl
    · exact word_printHex _
    · exact word_printHex _
    · decide
    · decide

theorem padsText_print {ps : List Pad} (h : ∀ p ∈ ps, 0 ≤ p.address ∧ 0 ≤ p.size) : PadsText ps (ps.map printPad) := by
  induction ps with
  | nil => exact .nil
  | cons p ps ih => exact .pad (padText_print (h p (by simp))) (ih fun x hx => h x (by simp [hx]))

theorem inputText_print {i : Listed} (h : ListedPrints i) : InputText i (printInput i) := by
  have := InputText.one (i := i) (w := [' ']) (g1 := [' ']) (g2 := [' ']) (g3 := [' ']) (w' := [])
    h.name gap_space.2 gap_space (hexOf_printHex h.address) gap_space (hexOf_printHex h.size) gap_space
    (refText_printRef h.ref) h.ref.1 (by decide) (padsText_print h.pads)
  simpa [printInput] using this

theorem inputsText_print {is : List Listed} (h : ∀ i ∈ is, ListedPrints i) : InputsText is (is.flatMap printInput) := by
  induction is with
  | nil => exact .nil
  | cons i is ih => exact .cons (inputText_print (h i (by simp))) (ih fun x hx => h x (by simp [hx]))

theorem outText_print {o : ListedOut} (h : OutPrints o) : OutText o (printOut o) := by
  have hh : HeadText o [spaced [o.name, printHex o.address, printHex o.size]] := by
    refine .one ?_ (hexOf_printHex h.address) (hexOf_printHex h.size) (words_spaced ?_)
    · obtain ⟨x, hx⟩ := h.dot
      exact ⟨x ++ ' ' :: spaced [printHex o.address, printHex o.size], by simp [spaced, ← hx]⟩
    · intro w hw
      simp only [List.mem_cons, List.not_mem_nil, or_false] at hw
      rcases hw with rfl | rfl | rfl
      · exact h.name
      · exact word_printHex _
      · exact word_printHex _
  have := OutText.mk (m := []) (w := []) hh (by simp) (inputsText_print h.inputs) (by decide)
  simpa [printOut] using this

theorem outsText_print {os : List ListedOut} (h : ∀ o ∈ os, OutPrints o) : OutsText os (os.flatMap printOut) := by
  induction os with
  | nil => exact .nil
  | cons o os ih => exact .cons (outText_print (h o (by simp))) (ih fun x hx => h x (by simp [hx]))

theorem refsText_print {rs : List (Str × Str)} (h : ∀ r ∈ rs, RefPrints r.1 r.2) :
    RefsText rs (rs.map fun r => ' ' :: printRef r.1 r.2) := by
  induction rs with
  | nil => exact .nil
  | cons r rs ih =>
    have hr := h r (by simp)
    have := RefsText.cons (a := r.1) (m := r.2) (g := [' ']) (w := []) (refText_printRef hr) hr.1 gap_space (by decide) (Or.inl rfl)
      (ih fun x hx => h x (by simp [hx]))
    simpa using this

theorem crtText_print {t : List (Str × List (Str × Str))} (h : ∀ e ∈ t, Word e.1 ∧ e.2 ≠ [] ∧ ∀ r ∈ e.2, RefPrints r.1 r.2) :
    CrtText t (t.flatMap printCrtEntry) := by
  induction t with
  | nil => exact .nil
  | cons e t ih =>
    obtain ⟨h1, h2, h3⟩ := h e (by simp)
    obtain ⟨s, rs⟩ := e
    cases rs with
    | nil => exact absurd rfl h2
    | cons d rs =>
      have hd := h3 d (by simp)
      have := CrtText.cons (s := s) (a := d.1) (m := d.2) (g := [' ']) h1 gap_space (refText_printRef hd) hd.1
        (refsText_print (rs := rs) fun r hr => h3 r (by simp [hr])) (ih fun x hx => h x (by simp [hx]))
      simpa [printCrtEntry] using this

/-- The printed file is a link map file of the data. -/
theorem mapFileText_print {regs : List Region} {target : Str} {os : List ListedOut} {t : List (Str × List (Str × Str))}
    (hr : ∀ r ∈ regs, RegionPrints r) (ht : NoBlank target) (hl : lower target = target) (ho : ∀ o ∈ os, OutPrints o) (hc : CrtPrints t) :
    MapFileText regs target os t (printMap regs target os t) := by
  unfold printMap
  refine .mk ?_ (regionsText_print hr) (List.prefix_refl _) (OutsText.other ?_ (outsText_print ho)) ?_ ?_
  · exact ⟨[], memConfig, [], str "Name Origin Length Attributes", rfl, by simp, List.prefix_refl _, by simp, by decide⟩
  · intro p hp
    simp only [List.mem_cons, List.not_mem_nil, or_false] at hp
    rcases hp with rfl | rfl
    · rintro ⟨x, hx⟩; simp [str] at hx
    · rintro ⟨x, hx⟩; simp [str, crossRef] at hx
  · exact ⟨crossRef, [], str "Symbol File", t.flatMap printCrtEntry, [], by simp, List.prefix_refl _, by simp, by decide,
      crtText_print hc.entry, Or.inl rfl, hc.nodup, hc.some⟩
  · have := TargetText.named (pre := [linkerScript]) (a := []) (x := target) (b := str " 0x0") (post := os.flatMap printOut ++
      crossRef :: (str "Symbol File" :: t.flatMap printCrtEntry)) ?_ ?_ ht ?_
    · rw [hl] at this
      have e : str " = 0x0" = str " =" ++ str " 0x0" := by decide
      rw [e]
      simpa using this
    · intro l hl
      simp at hl
      subst hl
      have h : '_' ∉ linkerScript := by decide
      refine ⟨fun hi => h (hi.subset (by decide)), fun hi => h (hi.subset (by decide)), by decide, by decide⟩
    · constructor <;> rintro ⟨x, hx⟩ <;> simp [str] at hx
    · intro a' b' _; simp

/-- **C70** what is printed is read back. -/
theorem C70_print_parse_partial {regs : List Region} {target : Str} {os : List ListedOut} {t : List (Str × List (Str × Str))}
    (hr : ∀ r ∈ regs, RegionPrints r) (ht : NoBlank target) (hl : lower target = target) (ho : ∀ o ∈ os, OutPrints o) (hc : CrtPrints t)
    (hs : ∀ o ∈ os, ∀ i ∈ o.inputs, SimplePads o.address o.size i) :
    parseMap (printMap regs target os t) =
      .ok { regions := regs, target := target, sections := os.map ListedOut.toPOut, crt := some t } :=
  C70_map_file_partial (mapFileText_print hr ht hl ho hc) hs

/-- The conditions are satisfiable: two regions, an output section with padding, a bare object, two symbols. -/
example : (∀ r ∈ [(⟨str "iram0_0_seg", 0x40080000, 0x20000, str "xr"⟩ : Region), ⟨str "*default*", 0, 0xffffffff, []⟩], RegionPrints r) ∧
    NoBlank (str "esp32") ∧ lower (str "esp32") = str "esp32" ∧
    (∀ o ∈ [(⟨str ".text", 0x100, 0x20, [⟨str ".text.f", 0x100, 0x1c, str "libx.a", str "f.o", [⟨true, 0x11c, 4⟩]⟩,
      ⟨str "COMMON", 0x120, 0, str "(exe)", str "a.o", []⟩]⟩ : ListedOut)],
      OutPrints o ∧ ∀ i ∈ o.inputs, SimplePads o.address o.size i) ∧
    CrtPrints [(str "f", [(str "libx.a", str "f.o"), (str "(exe)", str "a.o")]), (str "g", [(str "(exe)", str "a.o")])] := by
  have hx : RefPrints (str "libx.a") (str "f.o") := ⟨⟨'l', ')', by decide, by decide, by decide, by decide⟩, by decide⟩
  have he : RefPrints (str "(exe)") (str "a.o") := ⟨⟨'a', 'o', by decide, by decide, by decide, by decide⟩, by decide⟩
  refine ⟨?_, by unfold NoBlank; decide, by decide, ?_, by simp, by decide, ?_⟩
  · intro r hr
    simp only [List.mem_cons, List.not_mem_nil, or_false] at hr
    rcases hr with rfl | rfl
    · exact ⟨by decide, by decide, by decide, Or.inr (by decide)⟩
    · exact ⟨by decide, by decide, by decide, Or.inl rfl⟩
  · intro o ho
    simp only [List.mem_cons, List.not_mem_nil, or_false] at ho
    subst ho
    refine ⟨⟨by decide, by decide, by decide, by decide, ?_⟩, ?_⟩ <;> intro i hi <;>
      simp only [List.mem_cons, List.not_mem_nil, or_false] at hi <;> rcases hi with rfl | rfl
    · exact ⟨⟨by decide, by decide⟩, by decide, by decide, hx, by decide⟩
    · exact ⟨⟨by decide, by decide⟩, by decide, by decide, he, by decide⟩
    · exact Or.inr (Or.inl ⟨_, rfl, rfl⟩)
    · exact Or.inl rfl
  · intro e hm
    simp only [List.mem_cons, List.not_mem_nil, or_false] at hm
    rcases hm with rfl | rfl
    · refine ⟨by decide, by simp, ?_⟩
      intro r hr
      simp only [List.mem_cons, List.not_mem_nil, or_false] at hr
      rcases hr with rfl | rfl
      · exact hx
      · exact he
    · refine ⟨by decide, by simp, ?_⟩
      intro r hr
      simp only [List.mem_cons, List.not_mem_nil, or_false] at hr
      subst hr
      exact he

end EspSize
