import Verif.Proofs.Files
import Verif.Props.CsvRun
import Verif.Props.Run
/-!
# A project is read from the bytes of its files

`/repo/esp_idf_size/mapfile.py:29-36`, `/repo/esp_idf_size/memorymap.py:1081-1089`.
-/
namespace EspSize

/-! ## Link map files -/

theorem readText_utf8 {fs : Files} {fn t : Str} (h : fs fn = some (utf8 t)) : readText fs fn = .ok (newlines t) := by
  unfold readText
  rw [h]
  simp only [decodeUtf8_utf8]

/-- **C87** the lines of a link map file are the lines of the text whose UTF-8 it is, whatever the ends of its lines. -/
theorem C87_lines (long : Nat) (fs : Files) (fn t : Str) (ls : List Str) (h : fs fn = some (utf8 t)) (ht : LinesOf ls t)
    (hl : ∀ l ∈ ls, OneLine l) : (worldOf long fs).lines fn = .ok ls := by
  show mapLines fs fn = _
  unfold mapLines
  rw [readText_utf8 h]
  show Except.ok (splitlines (newlines t)) = _
  rw [splitlines_text ht hl]

/-- **C87** (not so for a line with one of the other characters at which Python ends lines): the file of an archive whose name has a line
separator is read as two lines. -/
theorem C87_line_separator : (worldOf 8 fun _ => some (utf8 [' ', Char.ofNat 0x2028, 'a', '\n'])).lines (str "x.map") = .ok [[' '], ['a']] := by
  decide +kernel

theorem readText_bad {fs : Files} {fn : Str} (h : ∀ t, fs fn ≠ some (utf8 t)) :
    readText fs fn = .error .osError ∨ readText fs fn = .error .valueError := by
  unfold readText
  cases hf : fs fn with
  | none => exact .inl rfl
  | some b =>
    obtain ⟨e, he⟩ := decodeUtf8_bad (b := b) fun s hs => h s (by rw [hf, hs])
    right
    simp only [he]

/-- **C87** a link map file that is missing or is no UTF-8 text ends the run with a message; no file is changed. -/
theorem C87_not_text (R : RunIn) (long : Nat) (fs : Files) (input : Str) (args : Args) (draw : Report → List UInt8) (wr : Writing)
    (hw : R.w = worldOf long fs) (h : ∀ t, fs input ≠ some (utf8 t)) :
    makeReport R input args = some (.error .mapFile) ∧ finishRun (.error .mapFile) none draw wr fs args = (fs, .error .exit) := by
  refine ⟨?_, C43_handled _ _ _ _ _ _ _ (.inr (.inl rfl)) (.inr ⟨rfl, rfl⟩)⟩
  have hm : loadMap R.w input = .error .mapFile := by
    unfold loadMap
    rw [hw]
    show (match mapLines fs input with
      | .ok lines => parseMap lines
      | .error .osError => .error .mapFile
      | .error .valueError => .error .mapFile
      | .error x => .error x) = _
    unfold mapLines
    rcases readText_bad h with h | h <;> rw [h] <;> rfl
  unfold makeReport
  simp only [hm]

theorem elfView_magic {long : Nat} {b : Bytes} (h : ¬ [0x7F, 0x45, 0x4C, 0x46] <+: b) : elfView long b = .error .elf := by
  unfold elfView openElf readAt
  split
  · rename_i hlen
    have hs : slice b 0 16 = b.take 16 := by simp [slice]
    have hm : (slice b 0 16).take 4 ≠ [0x7F, 0x45, 0x4C, 0x46] := by
      rw [hs, List.take_take]
      intro e
      exact h ⟨b.drop 4, by rw [← e]; simp⟩
    show (if (slice b 0 16).take 4 ≠ [0x7F, 0x45, 0x4C, 0x46] then Except.error Err.elf else _).bind _ = _
    rw [if_pos hm]
    rfl
  · rfl

/-- **C87** the ends of lines of text files have no influence on anything a run sees. -/
theorem C87_line_ends (long : Nat) (fs fs' : Files)
    (h : ∀ p, fs p = fs' p ∨ ∃ ls rest t t', fs p = some (utf8 t) ∧ fs' p = some (utf8 t') ∧ TextOf ls rest t ∧ TextOf ls rest t' ∧
      (∀ l ∈ rest :: ls, '\n' ∉ l ∧ '\r' ∉ l) ∧ ¬ [0x7F, 0x45, 0x4C, 0x46] <+: utf8 t ∧ ¬ [0x7F, 0x45, 0x4C, 0x46] <+: utf8 t') :
    worldOf long fs = worldOf long fs' := by
  have hr : ∀ p, readText fs p = readText fs' p := by
    intro p
    rcases h p with h | ⟨ls, rest, t, t', h1, h2, h3, h4, h5, _⟩
    · unfold readText; rw [h]
    · have hl : ∀ l ∈ ls, NoEnd l := fun l hl => h5 l (by simp [hl])
      rw [readText_utf8 h1, readText_utf8 h2, newlines_ended h3 hl (h5 _ (by simp)), newlines_ended h4 hl (h5 _ (by simp))]
  have hj : ∀ p, loadJson fs p = loadJson fs' p := fun p => by unfold loadJson; rw [hr p]
  have he : ∀ p, (fs p).map (elfView long) = (fs' p).map (elfView long) := by
    intro p
    rcases h p with h | ⟨_, _, _, _, h1, h2, _, _, _, h6, h7⟩
    · rw [h]
    · rw [h1, h2, Option.map_some, Option.map_some, elfView_magic h6, elfView_magic h7]
  unfold worldOf
  congr 1
  · funext p; rw [hj]
  · funext p; rw [hj]
  · funext p; unfold mapLines; rw [hr]
  · funext p; exact he p

/-! ## Descriptions and configurations -/

theorem loadJson_text {fs : Files} {fn t : Str} {v : JVal} (h : fs fn = some (utf8 t)) (ht : JsonText v t) :
    loadJson fs fn = match v with
      | .null => none
      | v => some v := by
  unfold loadJson
  rw [readText_utf8 h]
  simp only [jsonLoads_text (jsonText_newlines ht)]
  cases v <;> rfl

/-- What a description says, in terms of the members of the object. -/
structure DescribedBy (d : Dict Str JVal) (p : ProjDesc) : Prop where
  appElf : dget d (str "app_elf") = p.appElf.map JVal.str
  target : dget d (str "target") = p.target.map JVal.str
  build : dget d (str "build_dir") = p.build.map JVal.str
  comps : (dget d (str "build_component_info") = none ∧ p.comps = none) ∨ ∃ l cs, dget d (str "build_component_info") = some (.obj l) ∧
    p.comps = some cs ∧ All2 (fun m c => ∃ e, m.2 = JVal.obj e ∧ dget e (str "dir") = some (.str c.dir) ∧ dget e (str "file") = some (.str c.file)) l cs
  other : p.other = true ↔ ∃ m ∈ d, m.1 ∉ [str "app_elf", str "target", str "build_dir", str "build_component_info"]

theorem optStr_map (x : Option Str) : optStr (x.map JVal.str) = some x := by cases x <;> rfl

theorem comps_mapM : ∀ {l : List (Str × JVal)} {cs : List Comp},
    All2 (fun m c => ∃ e, m.2 = JVal.obj e ∧ dget e (str "dir") = some (.str c.dir) ∧ dget e (str "file") = some (.str c.file)) l cs →
    (l.mapM fun p => compOf p.2) = some cs
  | [], [], _ => rfl
  | m :: l, c :: cs, h => by
    obtain ⟨⟨e, h1, h2, h3⟩, h⟩ := h
    have hc : compOf m.2 = some c := by
      rw [h1]
      simp only [compOf, h2, h3]
    rw [List.mapM_cons, hc]
    show (l.mapM fun p => compOf p.2).bind (fun x => some (c :: x)) = _
    rw [comps_mapM h]
    rfl
  | [], _ :: _, h => h.elim
  | _ :: _, [], h => h.elim

/-- **C87** the description of a project is what the JSON text in its file says. -/
theorem C87_description (long : Nat) (fs : Files) (fn t : Str) (d : Dict Str JVal) (p : ProjDesc) (h : fs fn = some (utf8 t))
    (ht : JsonText (.obj d) t) (hp : DescribedBy d p) : (worldOf long fs).json fn = some p := by
  show (loadJson fs fn).bind descOf = _
  rw [loadJson_text h ht]
  show descOf (.obj d) = some p
  have ho : (d.any fun m => !descKeys.contains m.1) = p.other := by
    rw [Bool.eq_iff_iff, List.any_eq_true, hp.other]
    constructor
    · rintro ⟨m, hm, hk⟩
      exact ⟨m, hm, by simpa [descKeys] using hk⟩
    · rintro ⟨m, hm, hk⟩
      exact ⟨m, hm, by simpa [descKeys] using hk⟩
  have hc : compsOf (dget d (str "build_component_info")) = some p.comps := by
    rcases hp.comps with ⟨h1, h2⟩ | ⟨l, cs, h1, h2, h3⟩
    · rw [h1, h2]; rfl
    · rw [h1, h2]
      show (l.mapM fun p => compOf p.2).map some = _
      rw [comps_mapM h3]
      rfl
  unfold descOf
  simp only [hp.appElf, hp.target, hp.build, optStr_map, hc, ho]
  rfl

/-- **C87** link-time optimisation is on exactly if the JSON text of the configuration says so. -/
theorem C87_sdkconfig (long : Nat) (fs : Files) (fn t : Str) (d : Dict Str JVal) (b : Bool) (h : fs fn = some (utf8 t))
    (ht : JsonText (.obj d) t)
    (hb : dget d (str "COMPILER_LTO_LINKTIME") = some (.bool b) ∨ (dget d (str "COMPILER_LTO_LINKTIME") = none ∧ b = false)) :
    (worldOf long fs).sdkconfig fn = some b := by
  show (loadJson fs fn).bind ltoOf = _
  rw [loadJson_text h ht]
  show ltoOf (.obj d) = some b
  unfold ltoOf
  rcases hb with hb | ⟨hb, rfl⟩ <;> simp only [hb]

/-- **C87** a JSON file is read exactly if it is the UTF-8 of a text of the grammar of JSON, and as the value of that text, unless it is `null`. -/
theorem C87_json (fs : Files) (fn : Str) (v : JVal) : loadJson fs fn = some v ↔ v ≠ .null ∧ ∃ t, fs fn = some (utf8 t) ∧ JsonText v t := by
  constructor
  · intro h
    unfold loadJson readText at h
    split at h
    · cases h
    · rename_i s hs
      split at hs
      · cases hs
      · rename_i b hb
        split at hs
        · rename_i u hu
          cases hs
          split at h
          · cases h
          · rename_i hn
            refine ⟨fun e => hn (by rw [h, e]), u, by rw [hb, decodeUtf8_ok hu], jsonText_newlines_iff.mp (jsonLoads_iff.mp h)⟩
        · cases hs
  · rintro ⟨hv, t, h, ht⟩
    rw [loadJson_text h ht]
    cases v <;> first | rfl | exact absurd rfl hv

/-- **C87** a JSON file that is missing, is no UTF-8 text or is no JSON text, or has the value `null`, counts as not there. -/
theorem C87_no_json (long : Nat) (fs : Files) (fn : Str) (h : ∀ v t, v ≠ .null → JsonText v t → fs fn ≠ some (utf8 t)) :
    (worldOf long fs).json fn = none ∧ (worldOf long fs).sdkconfig fn = none := by
  have hn : loadJson fs fn = none := by
    cases hl : loadJson fs fn with
    | none => rfl
    | some v =>
      obtain ⟨h1, t, h2, h3⟩ := (C87_json fs fn v).mp hl
      exact absurd h2 (h v t h1 h3)
  constructor
  · show (loadJson fs fn).bind descOf = none
    rw [hn]; rfl
  · show (loadJson fs fn).bind ltoOf = none
    rw [hn]; rfl

/-! ## From the bytes of a file to the rows of a report -/

/-- **C87** the run with `--archives --format csv` on the bytes of a link map file. -/
theorem C87_csv_partial (R : RunIn) (long : Nat) (fs : Files) (input text : Str) (args : Args) (rep : Report) {lines : List Str}
    {regs : List Region} {target : Str} {os : List ListedOut} {t : List (Str × List (Str × Str))}
    (hw : R.w = worldOf long fs) (hbytes : fs input = some (utf8 text)) (htext : LinesOf lines text) (hone : ∀ l ∈ lines, OneLine l)
    (hfile : MapFileText regs target os t lines)
    (hpads : ∀ o ∈ os, ∀ i ∈ o.inputs, SimplePads o.address o.size i)
    (hform : args.format = str "csv") (harch : args.archives = true) (hdiff : truthy args.diff = false)
    (huni : args.unify = false) (hfilt : args.filter = none) (hdwarf : wantDwarf R.w input (useDwarfOf args) = false)
    (hsec : ∀ o ∈ os, PlainName o.name ∧ ∀ g ∈ o.counted, PlainName g.archive)
    (h : makeReport R input args = some (.ok rep)) :
    ∃ l regions parts goes ls, load R.w input (useDwarfOf args) none = .ok l ∧
      PartsOf R.n (loadSymbolsOf args) l regions parts ∧ (∀ s, Goes l.types regions s (goes s)) ∧ rep = .csv ls ∧
      (¬ Collision goes parts → (∀ s ∈ parts, goes s ≠ none) → (∀ k, IsAlias l.types k → PlainName k) →
        ∃ more archs rows, csvRead (printed ls) = (str "Archive File" :: str "Total Size" :: more) :: rows ∧ archs.Nodup ∧
          (∀ a, listedTotal (l.elf.map ElfData.shdrs) os a ≠ 0 → a ∈ archs) ∧
          All2 (fun a row => ∃ cells, row = strip (if args.noAbbrev then a else basename a) ::
            intStr (listedTotal (l.elf.map ElfData.shdrs) os a) :: cells) archs rows) :=
  C71_csv_archives_partial R input args rep (by rw [hw]; exact C87_lines long fs input text lines hbytes htext hone) hfile hpads hform harch hdiff
    huni hfilt hdwarf hsec h

/-! ## Non-vacuity -/

def exFileRegs : List Region := [⟨str "iram0_0_seg", 0x40080000, 0x20000, str "xr"⟩]

def exFileOuts : List ListedOut :=
  [⟨str ".iram0.text", 0x40080000, 0x20, [⟨str ".text.a", 0x40080000, 0x18, str "lib/liba.a", str "a.o", []⟩,
      ⟨str ".text.b", 0x40080018, 8, str "lib/libb.a", str "b.o", []⟩]⟩]

def exFileLines : List Str := printMap exFileRegs (str "esp32") exFileOuts exCsvCrt

/-- A project on disk: the map file has Windows ends of lines. -/
def exFiles : Files := fun p =>
  if p = str "/b/x.map" then some (utf8 (exFileLines.flatMap fun l => l ++ ['\r', '\n']))
  else if p = str "/b/project_description.json" then
    some (utf8 (str "{\n \"app_elf\": \"x.elf\",\r\n \"target\" : \"esp32\", \"build_dir\": \"/b\", \"\\u0076\": [1, null]}\r\n"))
  else if p = str "/b/config/sdkconfig.json" then some (utf8 (str "{\"COMPILER_LTO_LINKTIME\": false}"))
  else if p = str "/b/bad.map" then some [0xC3, 0x28]
  else none

example : (worldOf 8 exFiles).lines (str "/b/x.map") = .ok exFileLines := by decide +kernel

example : (worldOf 8 exFiles).json (str "/b/project_description.json") =
    some ⟨some (str "x.elf"), some (str "esp32"), some (str "/b"), none, true⟩ := by decide +kernel

example : (worldOf 8 exFiles).sdkconfig (str "/b/config/sdkconfig.json") = some false := by decide +kernel

/-- A text of the grammar, with an escape and two ends of lines. -/
example : JsonText (.obj [(str "ab", .int (-(1 * 10 + 2 : Nat)))]) (str "{\r\"a\\u0062\" : -12}\n") := by
  have digit : ∀ k < 10, HexDigit k (Char.ofNat (48 + k)) := fun k hk => .dec hk
  have u : CharText 'b' (str "\\u0062") := .unit (.mk (digit 0 (by decide)) (digit 0 (by decide)) (digit 6 (by decide)) (digit 2 (by decide)))
  have a : CharText 'a' ['a'] := .plain (by decide) (by decide) (by decide)
  have n : IntText (1 * 10 + 2) (str "12") :=
    ⟨.snoc (s := ['1']) (.one (k := 1) (by decide)) (k := 2) (by decide), .inr (by decide)⟩
  have k : StringText (str "ab") (str "\"a\\u0062\"") := .mk (.cons a (.cons u .nil))
  have m := JText.member (w1 := ['\r']) (w2 := [' ']) (w3 := [' ']) (w4 := []) (by simp [JsonBlank]) k (by simp [JsonBlank]) (by simp [JsonBlank])
    (.neg n) (by simp [JsonBlank])
  exact ⟨[], _, ['\n'], by simp [JsonBlank], .obj m, by simp [JsonBlank], rfl⟩

/-- Three texts that are none. -/
example (v : JVal) : ¬ JsonText v (str "{\"a\": 1,}") ∧ ¬ JsonText v (str "01") ∧ ¬ JsonText v (str "\"a\nb\"") := by
  have key : ∀ s, (jsonLoads s).isSome = false → ¬ JsonText v s := fun s hs h => by rw [jsonLoads_text h] at hs; cases hs
  exact ⟨key _ (by decide +kernel), key _ (by decide +kernel), key _ (by decide +kernel)⟩

example : (worldOf 8 exFiles).lines (str "/b/bad.map") = .error .valueError := by decide +kernel

example : exCsvRead (makeReport (exRun (worldOf 8 exFiles)) (str "/b/x.map") { format := str "csv", archives := true }) =
    some [[str "Archive File", str "Total Size", str "IRAM", str ".text"],
      [str "liba.a", str "24", str "24", str "24"], [str "libb.a", str "8", str "8", str "8"]] := by
  decide +kernel

end EspSize
