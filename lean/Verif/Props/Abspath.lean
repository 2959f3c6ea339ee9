import Verif.Spec.Abspath
import Verif.Model.RunAt
import Verif.Proofs.Path
import Verif.Proofs.Parts
import Verif.Props.MapErrors
/-! # C94: paths of the projects -/
namespace EspSize

theorem leads_fun {d cs e e' : List Str} (h : LeadsTo d cs e) (h' : LeadsTo d cs e') : e = e' := by
  induction h with
  | here => cases h'; rfl
  | stay hc _ ih =>
    cases h' with
    | stay _ h' => exact ih h'
    | up h' => rcases hc with hc | hc <;> exact absurd hc (by decide)
    | down hn _ => rcases hc with rfl | rfl; exact absurd rfl hn.1; exact absurd rfl hn.2.1
  | up _ ih =>
    cases h' with
    | stay hc _ => rcases hc with hc | hc <;> exact absurd hc (by decide)
    | up h' => exact ih h'
    | down hn _ => exact absurd rfl hn.2.2.1
  | down hn _ ih =>
    cases h' with
    | stay hc _ => rcases hc with rfl | rfl; exact absurd rfl hn.1; exact absurd rfl hn.2.1
    | up h' => exact absurd rfl hn.2.2.1
    | down _ h' => exact ih h'

theorem leads_append {d m e as bs : List Str} (h : LeadsTo d as m) (h' : LeadsTo m bs e) : LeadsTo d (as ++ bs) e := by
  induction h with
  | here => exact h'
  | stay hc _ ih => exact .stay hc (ih h')
  | up _ ih => exact .up (ih h')
  | down hn _ ih => exact .down hn (ih h')

theorem leads_total {cs : List Str} (hc : ∀ c ∈ cs, '/' ∉ c) (d : List Str) : ∃ e, LeadsTo d cs e := by
  induction cs generalizing d with
  | nil => exact ⟨d, .here⟩
  | cons c cs ih =>
    have hr := fun d => ih (fun x hx => hc x (by simp [hx])) d
    by_cases h1 : c = [] ∨ c = str "."
    · obtain ⟨e, he⟩ := hr d
      exact ⟨e, .stay h1 he⟩
    · by_cases h2 : c = str ".."
      · obtain ⟨e, he⟩ := hr d.dropLast
        exact ⟨e, h2 ▸ .up he⟩
      · obtain ⟨e, he⟩ := hr (d ++ [c])
        exact ⟨e, .down ⟨fun h => h1 (.inl h), fun h => h1 (.inr h), h2, hc c (by simp)⟩ he⟩

/-- The loop of `normpath` follows the parts. -/
theorem normStep_leads {d cs e : List Str} (h : LeadsTo d cs e) (hd : ∀ n ∈ d, FileName n) :
    (cs.foldl (normStep true) d.reverse).reverse = e ∧ ∀ n ∈ e, FileName n := by
  induction h with
  | here => exact ⟨by simp, hd⟩
  | @stay d e cs c hc _ ih =>
    have hs : normStep true d.reverse c = d.reverse := by unfold normStep; rw [if_pos hc]
    rw [List.foldl_cons, hs]
    exact ih hd
  | @up d e cs _ ih =>
    have hs : normStep true d.reverse (str "..") = d.dropLast.reverse := by
      unfold normStep
      rw [if_neg (by decide), if_neg]
      · rw [List.drop_one, List.tail_reverse]
      · rintro (h | h | h)
        · exact h rfl
        · exact absurd h.1 (by decide)
        · rw [List.head?_reverse] at h
          exact (hd _ (List.mem_of_getLast? h)).2.2.1 rfl
    rw [List.foldl_cons, hs]
    exact ih fun n hn => hd n (List.dropLast_subset d hn)
  | @down d e cs c hn _ ih =>
    have hs : normStep true d.reverse c = (d ++ [c]).reverse := by
      unfold normStep
      rw [if_neg (by rintro (h | h); exact hn.1 h; exact hn.2.1 h), if_pos (.inl hn.2.2.1)]
      simp
    rw [List.foldl_cons, hs]
    apply ih
    intro n hm
    rcases List.mem_append.mp hm with h | h
    · exact hd n h
    · rw [List.mem_singleton.mp h]; exact hn

theorem straight_eq (ns : List Str) : straight ns = '/' :: join ['/'] ns := by
  cases ns with
  | nil => rfl
  | cons n ns =>
    show (n :: ns).flatMap ('/' :: ·) = _
    induction ns generalizing n with
    | nil => simp [join]
    | cons m ns ih =>
      rw [List.flatMap_cons, ih m]
      simp [join]

theorem leads_names {d ns : List Str} (h : ∀ n ∈ ns, FileName n) : LeadsTo d ns (d ++ ns) := by
  induction ns generalizing d with
  | nil => simpa using LeadsTo.here
  | cons n ns ih =>
    have := ih (d := d ++ [n]) fun m hm => h m (by simp [hm])
    exact .down (h n (by simp)) (by simpa using this)

theorem parts_names {ns : List Str} {n : Str} (h : ∀ m ∈ n :: ns, FileName m) : Parts (straight (n :: ns)) ([] :: n :: ns) := by
  have hn : ∀ m ∈ ns, FileName m := fun m hm => h m (by simp [hm])
  suffices Parts (join ['/'] (n :: ns)) (n :: ns) by
    rw [straight_eq]
    exact .more (c := []) (by simp) this
  clear hn
  induction ns generalizing n with
  | nil => exact .last (h n (by simp)).2.2.2
  | cons m ns ih =>
    have := ih (n := m) fun x hx => h x (by simp only [List.mem_cons] at hx ⊢; exact .inr hx)
    have he : join ['/'] (n :: m :: ns) = n ++ '/' :: join ['/'] (m :: ns) := by simp [join]
    rw [he]
    exact .more (h n (by simp)).2.2.2 this

theorem slashes_one {q : Str} (h : ['/'] <+: q) (hd : ¬ (['/', '/'] <+: q ∧ ¬ ['/', '/', '/'] <+: q)) : slashes q = 1 := by
  unfold slashes
  rw [if_pos (startsWith_iff.mpr h), if_neg]
  intro hh
  simp only [Bool.and_eq_true, Bool.not_eq_true'] at hh
  refine hd ⟨startsWith_iff.mp hh.1, fun h3 => ?_⟩
  rw [startsWith_iff.mpr h3] at hh
  exact absurd hh.2 (by decide)

theorem normpath_leads {q : Str} {cs e : List Str} (h : ['/'] <+: q) (hd : ¬ (['/', '/'] <+: q ∧ ¬ ['/', '/', '/'] <+: q))
    (hp : Parts q cs) (he : LeadsTo [] cs e) : normpath q = straight e ∧ ∀ n ∈ e, FileName n := by
  have hne : q ≠ [] := by rintro rfl; exact absurd h (by decide)
  obtain ⟨h1, h2⟩ := normStep_leads he (by simp)
  refine ⟨?_, h2⟩
  unfold normpath
  rw [if_neg hne, slashes_one h hd, parts_unique (splitSlash_parts q) hp]
  simp only [List.reverse_nil] at h1
  simp only [ne_eq, Nat.one_ne_zero, not_false_eq_true, decide_true, h1]
  rw [straight_eq]
  simp [List.replicate]

theorem pathJoin_straight {ns : List Str} {p : Str} (hns : ∀ n ∈ ns, FileName n) (hp : ¬ ['/'] <+: p) :
    pathJoin (straight ns) p = (match ns with | [] => [] | n :: t => straight (n :: t)) ++ '/' :: p := by
  cases ns with
  | nil =>
    unfold pathJoin
    rw [if_neg (by rw [startsWith_iff]; exact hp), if_pos (.inr (by decide))]
    rfl
  | cons n t =>
    refine join_of ⟨by simp [straight], ?_⟩ hp
    obtain ⟨i, l, hl⟩ : ∃ i l, n :: t = i ++ [l] := ⟨_, _, (List.dropLast_concat_getLast (List.cons_ne_nil n t)).symm⟩
    have hlast := hns l (by rw [hl]; simp)
    have : straight (n :: t) = i.flatMap ('/' :: ·) ++ '/' :: l := by
      show (n :: t).flatMap ('/' :: ·) = _
      rw [hl, List.flatMap_append]
      simp
    rw [this]
    intro hs
    have h1 : (i.flatMap ('/' :: ·) ++ '/' :: l).getLast? = some '/' := by
      obtain ⟨u, hu⟩ := hs
      rw [← hu]; simp
    obtain ⟨l', c, rfl⟩ : ∃ l' c, l = l' ++ [c] := ⟨_, _, (List.dropLast_concat_getLast hlast.1).symm⟩
    rw [← List.cons_append, ← List.append_assoc, List.getLast?_append] at h1
    simp at h1
    exact hlast.2.2.2 (by simp [h1])

/-- `abspath` gives the straight path of the place. -/
theorem abspath_place {ns e : List Str} {p : Str} (hns : ∀ n ∈ ns, FileName n) (h : Place ns p e) :
    abspath (straight ns) p = straight e ∧ ∀ n ∈ e, FileName n := by
  obtain ⟨hd, cs, hp, ⟨ha, hr⟩ | ⟨ha, hr⟩⟩ := h
  · unfold abspath
    rw [if_pos (startsWith_iff.mpr ha)]
    exact normpath_leads ha hd hp hr
  · unfold abspath
    rw [if_neg (by rw [startsWith_iff]; exact ha), pathJoin_straight hns ha]
    cases ns with
    | nil =>
      refine normpath_leads (by simp) ?_ (.more (c := []) (by simp) hp) (.stay (.inl rfl) hr)
      rintro ⟨h2, _⟩
      apply ha
      obtain ⟨t, ht⟩ := h2
      simp only [List.cons_append, List.nil_append, List.cons.injEq, true_and] at ht
      exact ⟨t, by simpa using ht⟩
    | cons n ns =>
      refine normpath_leads ?_ ?_ (parts_append (parts_names hns) hp)
        (.stay (.inl rfl) (leads_append (leads_names hns) (by simpa using hr)))
      · simp [straight]
      · rintro ⟨⟨t, ht⟩, _⟩
        have hn := hns n (by simp)
        cases n with
        | nil => exact hn.1 rfl
        | cons c n =>
          simp only [straight, List.flatMap_cons, List.cons_append, List.nil_append, List.cons.injEq, true_and] at ht
          exact hn.2.2.2 (by rw [ht.1]; simp)

/-- A path to a place exists for every path without two slashes at the beginning. -/
theorem place_total (cwd : List Str) {p : Str} (hd : ¬ (['/', '/'] <+: p ∧ ¬ ['/', '/', '/'] <+: p)) : ∃ e, Place cwd p e := by
  have hp := splitSlash_parts p
  by_cases ha : ['/'] <+: p
  · obtain ⟨e, he⟩ := leads_total (parts_noSlash hp) []
    exact ⟨e, hd, _, hp, .inl ⟨ha, he⟩⟩
  · obtain ⟨e, he⟩ := leads_total (parts_noSlash hp) cwd
    exact ⟨e, hd, _, hp, .inr ⟨ha, he⟩⟩

theorem dropSlashes (l : Str) : ∃ k, l = List.replicate k '/' ++ l.dropWhile (· = '/') := by
  induction l with
  | nil => exact ⟨0, rfl⟩
  | cons c l ih =>
    by_cases hc : c = '/'
    · obtain ⟨k, hk⟩ := ih
      refine ⟨k + 1, ?_⟩
      rw [List.dropWhile_cons, if_pos (by simpa using hc), List.replicate_succ, List.cons_append, ← hk, hc]
    · refine ⟨0, ?_⟩
      rw [List.dropWhile_cons, if_neg (by simpa using hc)]
      rfl

/-- The path of a file next to a file. -/
theorem dirname_join (D : Str) {n : Str} (hn : '/' ∉ n) :
    ∃ S k, D = S ++ List.replicate k '/' ∧ (k = 0 ∨ ∃ t c, S = t ++ [c] ∧ c ≠ '/') ∧
      ∀ x, ¬ ['/'] <+: x → pathJoin (dirname (D ++ '/' :: n)) x = S ++ '/' :: x := by
  have hh : ((D ++ '/' :: n).reverse.dropWhile (· ≠ '/')).reverse = D ++ ['/'] := by
    rcases rev_cut '/' (D ++ '/' :: n) with ⟨h1, _⟩ | ⟨a, b, h1, h2, _, h4⟩
    · exact absurd (by simp) h1
    · obtain ⟨rfl, rfl⟩ := last_cut h1 hn h2
      rw [h4]; simp
  unfold dirname
  rw [hh]
  by_cases hall : (D ++ ['/']).all (· = '/')
  · refine ⟨D, 0, by simp, .inl rfl, fun x hx => ?_⟩
    simp only [hall, if_true]
    unfold pathJoin
    rw [if_neg (by rw [startsWith_iff]; exact hx), if_pos (.inr (endsWith_iff.mpr (List.suffix_append _ _)))]
    simp
  · simp only [hall]
    obtain ⟨k, hk⟩ := dropSlashes (D ++ ['/']).reverse
    generalize hS : ((D ++ ['/']).reverse.dropWhile (· = '/')) = S at hk
    have hSne : S ≠ [] := by
      rintro rfl
      apply hall
      rw [List.all_eq_true]
      intro c hc
      have : c ∈ (D ++ ['/']).reverse := List.mem_reverse.mpr hc
      rw [hk] at this
      simp at this
      simp [this.2]
    have hhead : ∃ c t, S = c :: t ∧ c ≠ '/' := by
      cases hc : S with
      | nil => exact absurd hc hSne
      | cons c t =>
        refine ⟨c, t, rfl, ?_⟩
        have := List.head?_dropWhile_not (· = '/') (D ++ ['/']).reverse
        rw [hS, hc] at this
        simpa using this
    obtain ⟨c, t, rfl, hc⟩ := hhead
    have hD : D ++ ['/'] = (c :: t).reverse ++ List.replicate k '/' := by
      have := congrArg List.reverse hk
      simpa using this
    refine ⟨(c :: t).reverse, k - 1, ?_, .inr ⟨t.reverse, c, by simp, hc⟩, fun x hx => ?_⟩
    · cases k with
      | zero =>
        simp only [List.replicate_zero, List.append_nil, List.reverse_cons] at hD
        have := congrArg List.getLast? hD
        simp at this
        exact absurd this.symm hc
      | succ k =>
        rw [List.replicate_succ', ← List.append_assoc] at hD
        simpa using List.append_cancel_right hD
    · simp only [Bool.false_eq_true, if_false]
      refine join_of ⟨by simp, ?_⟩ hx
      rintro ⟨u, hu⟩
      have := congrArg List.getLast? hu
      simp at this
      exact hc this.symm

theorem parts_slashes {S : Str} {cs : List Str} (h : Parts S cs) (k : Nat) :
    Parts (S ++ List.replicate k '/') (cs ++ List.replicate k []) := by
  induction k with
  | zero => simpa using h
  | succ k ih =>
    have := parts_append ih (.last (c := []) (by simp))
    rw [List.replicate_succ', List.replicate_succ', ← List.append_assoc, ← List.append_assoc]
    exact this

theorem leads_empty (d : List Str) (k : Nat) : LeadsTo d (List.replicate k []) d := by
  induction k with
  | zero => exact .here
  | succ k ih => exact .stay (.inl rfl) ih

/-- Files next to the file of a path. -/
theorem place_next {ns e : List Str} {p n : Str} (h : Place ns p e) (hl : LastPart p n) (hn : FileName n) :
    ∃ d, e = d ++ [n] ∧ ∀ x e', ¬ ['/'] <+: x → (∃ xs, Parts x xs ∧ LeadsTo d xs e') →
      Place ns (pathJoin (dirname p) x) e' := by
  obtain ⟨hd, cs, hp, hr⟩ := h
  obtain ⟨hs, rfl | ⟨D, rfl⟩⟩ := hl
  · obtain rfl := parts_unique hp (.last hs)
    obtain ⟨ha, _⟩ | ⟨_, hr⟩ := hr
    · obtain ⟨t, rfl⟩ := ha
      exact absurd (by simp) hs
    · refine ⟨ns, leads_fun hr (leads_names (by simpa using hn)), ?_⟩
      rintro x e' hx ⟨xs, hxs, hxe⟩
      have hdir : dirname p = [] := by
        unfold dirname
        rcases rev_cut '/' p with ⟨_, _, h3⟩ | ⟨a, b, h1, _⟩
        · rw [h3]; rfl
        · exact absurd (by rw [h1]; simp) hs
      have hj : pathJoin (dirname p) x = x := by
        rw [hdir]
        unfold pathJoin
        rw [if_neg (by rw [startsWith_iff]; exact hx), if_pos (.inl rfl)]
        rfl
      rw [hj]
      refine ⟨?_, xs, hxs, .inr ⟨hx, hxe⟩⟩
      rintro ⟨⟨t, ht⟩, _⟩
      exact hx ⟨'/' :: t, by simpa using ht⟩
  · obtain ⟨S, k, rfl, hk, hj⟩ := dirname_join D hs
    have hS := splitSlash_parts S
    generalize splitSlash S = ss at hS
    have hcs : cs = ss ++ List.replicate k [] ++ [n] := parts_unique hp (parts_append (parts_slashes hS k) (.last hs))
    have hstart : ∀ x : Str, ['/'] <+: S ++ '/' :: x ↔ ['/'] <+: S ++ List.replicate k '/' ++ '/' :: n := by
      intro x
      cases S with
      | nil => cases k <;> simp [List.replicate_succ]
      | cons c S => simp
    have hdouble : ∀ x : Str, ¬ ['/'] <+: x → ¬ (['/', '/'] <+: S ++ '/' :: x ∧ ¬ ['/', '/', '/'] <+: S ++ '/' :: x) := by
      rintro x hx ⟨h2, h3⟩
      apply hd
      rcases S with _ | ⟨a, _ | ⟨b, _ | ⟨c, S⟩⟩⟩
      · simp at h2
        exact absurd (by simpa using h2) hx
      · simp at h2
        subst h2
        rcases hk with rfl | ⟨t, c, e, hc⟩
        · cases n with
          | nil => exact absurd rfl hn.1
          | cons y n => 
            simp at hs
            simp [hs]
        · cases t <;> simp at e
          exact absurd e.symm hc
      · simp at h2
        obtain ⟨rfl, rfl⟩ := h2
        simp at h3
      · simp at h2 h3 ⊢
        exact ⟨h2, h3⟩
    obtain ⟨st, hst, hr'⟩ : ∃ st, ((['/'] <+: S ++ List.replicate k '/' ++ '/' :: n ∧ st = []) ∨
        (¬ ['/'] <+: S ++ List.replicate k '/' ++ '/' :: n ∧ st = ns)) ∧ LeadsTo st cs e := by
      rcases hr with ⟨h1, h2⟩ | ⟨h1, h2⟩
      · exact ⟨[], .inl ⟨h1, rfl⟩, h2⟩
      · exact ⟨ns, .inr ⟨h1, rfl⟩, h2⟩
    obtain ⟨d, hd'⟩ := leads_total (parts_noSlash hS) st
    refine ⟨d, leads_fun hr' (hcs ▸ leads_append (leads_append hd' (leads_empty d k)) (leads_names (by simpa using hn))), ?_⟩
    rintro x e' hx ⟨xs, hxs, hxe⟩
    rw [hj x hx]
    refine ⟨hdouble x hx, ss ++ xs, parts_append hS hxs, ?_⟩
    rw [hstart]
    rcases hst with ⟨h1, rfl⟩ | ⟨h1, rfl⟩
    · exact .inl ⟨h1, leads_append hd' hxe⟩
    · exact .inr ⟨h1, leads_append hd' hxe⟩

/-! ### The same file, spelled in two ways -/

theorem getProjDesc_place {w : World} {ns e : List Str} {p q : Str} (hw : ByPlace w ns) (hp : Place ns p e) (hq : Place ns q e)
    (fp : NamesFile p) (fq : NamesFile q) : getProjDesc w p = getProjDesc w q := by
  obtain ⟨n, hl, hn⟩ := fp
  obtain ⟨n', hl', hn'⟩ := fq
  obtain ⟨d, rfl, h1⟩ := place_next hp hl hn
  obtain ⟨d', he, h2⟩ := place_next hq hl' hn'
  obtain ⟨rfl, he⟩ := List.append_inj' he rfl
  obtain rfl : n = n' := by simpa using he
  have hx : FileName (str "project_description.json") := by
    refine ⟨by decide, by decide, by decide, by decide⟩
  have hx0 : ¬ ['/'] <+: str "project_description.json" := by decide
  have hr := leads_names (d := d) (ns := [str "project_description.json"]) (by simpa using hx)
  have hj := hw.json _ _ _ (h1 _ _ hx0 ⟨_, .last hx.2.2.2, hr⟩) (h2 _ _ hx0 ⟨_, .last hx.2.2.2, hr⟩)
  unfold getProjDesc
  rw [hj, lastPart_unique (basename_lastPart p) hl, lastPart_unique (basename_lastPart q) hl']

theorem getElf_place {w : World} {ns e : List Str} {p q : Str} (hw : ByPlace w ns) (hp : Place ns p e) (hq : Place ns q e)
    (fp : NamesFile p) (fq : NamesFile q) (desc : Option ProjDesc) : getElf w p desc = getElf w q desc := by
  have hdesc := getProjDesc_place hw hp hq fp fq
  obtain ⟨n, hl, hn⟩ := fp
  obtain ⟨n', hl', hn'⟩ := fq
  obtain ⟨d, rfl, h1⟩ := place_next hp hl hn
  obtain ⟨d', he, h2⟩ := place_next hq hl' hn'
  obtain ⟨rfl, he⟩ := List.append_inj' he rfl
  have helf : ∀ app, w.elf (pathJoin (dirname p) app) = w.elf (pathJoin (dirname q) app) := by
    intro app
    by_cases ha : ['/'] <+: app
    · unfold pathJoin
      rw [if_pos (startsWith_iff.mpr ha), if_pos (startsWith_iff.mpr ha)]
    · have hx := splitSlash_parts app
      obtain ⟨e', he'⟩ := leads_total (parts_noSlash hx) d
      exact hw.elf _ _ _ (h1 _ _ ha ⟨_, hx, he'⟩) (h2 _ _ ha ⟨_, hx, he'⟩)
  unfold getElf
  simp only [hdesc, helf]

/-- `abspath` is the straight path to the place of the path: it begins with a slash, has no empty part, no `.` and no `..`. -/
theorem C94_abspath {ns : List Str} (hns : ∀ n ∈ ns, FileName n) (p : Str)
    (hd : ¬ (['/', '/'] <+: p ∧ ¬ ['/', '/', '/'] <+: p)) :
    ∃ e, Place ns p e ∧ (∀ n ∈ e, FileName n) ∧ abspath (straight ns) p = straight e := by
  obtain ⟨e, he⟩ := place_total ns hd
  exact ⟨e, he, (abspath_place hns he).2, (abspath_place hns he).1⟩

/-- The memory map has the straight path of the link map file, however the file was named. -/
theorem C94_projectPath {ns e : List Str} (hns : ∀ n ∈ ns, FileName n) {p : Str} (hp : Place ns p e) {n : Nat} {w : World}
    {ls : Bool} {ud : Option Bool} {mf : Option MapFile} {elf : Option ElfData} {m : MemMap}
    (h : getMapAt (straight ns) n w p ls ud mf elf = some (.ok m)) : m.projectPath = straight e := by
  unfold getMapAt getMap at h
  rw [(abspath_place hns hp).1] at h
  split at h
  · cases h
  · unfold build at h
    simp only [] at h
    split at h
    · cases h
    · obtain h := Option.some.inj h
      obtain ⟨_, _, h⟩ := bind_ok h
      obtain ⟨_, _, h⟩ := bind_ok h
      cases h
      rfl

theorem depRows_diff (a : Args) (dd dd' : Option Str) (name : Str) (size : Int) (l : List (Str × DepInfo)) (b : Bool) :
    depRows { a with diff := dd } name size b l = depRows { a with diff := dd' } name size b l := by
  induction l generalizing b with
  | nil => rfl
  | cons p l ih => unfold depRows; rw [ih]

theorem selectTable_diff (R : RunIn) (crt : Option Crt) (elf : Option (List ElfSym)) (a : Args) (m : MemMap) (c c' : Char)
    (s s' : Str) : selectTable R crt elf { a with diff := some (c :: s) } m =
      selectTable R crt elf { a with diff := some (c' :: s') } m := by
  have hdeps : ∀ d, depsTable { a with diff := some (c :: s) } d = depsTable { a with diff := some (c' :: s') } d := by
    intro d
    unfold depsTable
    simp only [depRows_diff a (some (c :: s)) (some (c' :: s'))]
    rfl
  unfold selectTable
  simp only [hdeps]
  rfl

theorem showReport_diff (R : RunIn) (crt : Option Crt) (elf : Option (List ElfSym)) (a : Args) (m : MemMap) (c c' : Char)
    (s s' : Str) : showReport R crt elf { a with diff := some (c :: s) } m =
      showReport R crt elf { a with diff := some (c' :: s') } m := by
  unfold showReport
  simp only [selectTable_diff R crt elf a m c c' s s']
  rfl

theorem referenceMap_congr {args : Args} {m : MemMap} {f g : Str → Option (Except Err MemMap)}
    (h : ∀ c s, args.diff = some (c :: s) → f (c :: s) = g (c :: s)) : referenceMap args m f = referenceMap args m g := by
  unfold referenceMap
  split
  · rename_i c s hd; exact h c s hd
  · rfl

/-- Two paths of one link map file give the same report. -/
theorem C94_spelling {ns e : List Str} (hns : ∀ n ∈ ns, FileName n) {R : RunIn} (hw : ByPlace R.w ns) {p q : Str}
    (hp : Place ns p e) (hq : Place ns q e) (fp : NamesFile p) (fq : NamesFile q) (args : Args) :
    makeReportAt (straight ns) R p args = makeReportAt (straight ns) R q args := by
  have hl : loadMap R.w p = loadMap R.w q := by
    unfold loadMap
    rw [hw.lines _ _ _ hp hq]
  unfold makeReportAt getMapAt
  simp only [hl, getElf_place hw hp hq fp fq, (abspath_place hns hp).1, (abspath_place hns hq).1]

/-- The option `--diff` with two paths of one link map file gives the same report. -/
theorem C94_reference {ns e : List Str} (hns : ∀ n ∈ ns, FileName n) {R : RunIn} {p : Str} {c c' : Char} {s s' : Str}
    (hs : Place ns (c :: s) e) (hs' : Place ns (c' :: s') e) (args : Args) :
    makeReportAt (straight ns) R p { args with diff := some (c :: s) } =
      makeReportAt (straight ns) R p { args with diff := some (c' :: s') } := by
  by_cases hdep : args.archiveDependencies = true
  · have : effectiveArgs { args with diff := some (c :: s) } = effectiveArgs { args with diff := some (c' :: s') } := by
      unfold effectiveArgs
      by_cases hn : (args.noAbbrev && args.unify) = true <;> simp [hn, hdep, truthy]
    unfold makeReportAt
    simp only [this]
  · obtain ⟨a, ha, ha'⟩ : ∃ a : Args, effectiveArgs { args with diff := some (c :: s) } = { a with diff := some (c :: s) } ∧
        effectiveArgs { args with diff := some (c' :: s') } = { a with diff := some (c' :: s') } := by
      refine ⟨effectiveArgs { args with diff := none }, ?_, ?_⟩ <;>
      · unfold effectiveArgs
        by_cases hn : (args.noAbbrev && args.unify) = true <;> simp [hn, hdep]
    unfold makeReportAt getMapAt
    simp only [ha, ha']
    have h1 : ∀ x : Str, loadSymbolsOf { a with diff := some x } = loadSymbolsOf a := fun _ => rfl
    have h2 : ∀ x : Str, useDwarfOf { a with diff := some x } = useDwarfOf a := fun _ => rfl
    have h3 : ∀ m r, prepare { a with diff := some (c :: s) } m r = prepare { a with diff := some (c' :: s') } m r :=
      fun _ _ => rfl
    simp only [h1, h2, h3, referenceMap, (abspath_place hns hs).1, (abspath_place hns hs').1,
      showReport_diff R _ _ a _ c c' s s']

theorem place_straight (ns : List Str) {e : List Str} (he : ∀ n ∈ e, FileName n) : Place ns (straight e) e := by
  cases e with
  | nil => exact ⟨by decide, [[], []], .more (c := []) (by simp) (.last (by simp)), .inl ⟨by decide, .stay (.inl rfl) (.stay (.inl rfl) .here)⟩⟩
  | cons n e =>
    refine ⟨?_, _, parts_names he, .inl ⟨by simp [straight], .stay (.inl rfl) (by simpa using leads_names (d := []) he)⟩⟩
    rintro ⟨⟨t, ht⟩, _⟩
    have hn := he n (by simp)
    cases n with
    | nil => exact hn.1 rfl
    | cons c n =>
      simp only [straight, List.flatMap_cons, List.cons_append, List.nil_append, List.cons.injEq, true_and] at ht
      exact hn.2.2.2 (by rw [ht.1]; simp)

theorem straight_cons (e : List Str) : ∃ s, straight e = '/' :: s := ⟨_, straight_eq e⟩

theorem namesFile_straight {ns e : List Str} {p : Str} (hp : Place ns p e) (fp : NamesFile p) :
    NamesFile (straight e) := by
  obtain ⟨n, hl, hn⟩ := fp
  obtain ⟨d, rfl, _⟩ := place_next hp hl hn
  refine ⟨n, ⟨hn.2.2.2, .inr ⟨d.flatMap ('/' :: ·), ?_⟩⟩, hn⟩
  have : straight (d ++ [n]) = (d ++ [n]).flatMap ('/' :: ·) := by cases d <;> rfl
  rw [this, List.flatMap_append]
  simp

/-- The report of a run with any paths is the report with the straight paths, for which the other theorems are stated. -/
theorem C94_run {ns e f : List Str} (hns : ∀ n ∈ ns, FileName n) {R : RunIn} (hw : ByPlace R.w ns) {p : Str}
    (hp : Place ns p e) (fp : NamesFile p) {args : Args}
    (hdiff : args.diff = none ∨ ∃ c s, args.diff = some (c :: s) ∧ Place ns (c :: s) f) :
    makeReportAt (straight ns) R p args = makeReport R (straight e) { args with diff := args.diff.map fun _ => straight f } := by
  have key : ∀ a : Args, (∀ c s, a.diff = some (c :: s) → c :: s = straight f ∧ ∀ n ∈ f, FileName n) →
      makeReportAt (straight ns) R p a = makeReport R (straight e) a := by
    intro a ha
    have hps := place_straight ns (abspath_place hns hp).2
    rw [C94_spelling hns hw hp hps fp (namesFile_straight hp fp)]
    unfold makeReportAt makeReport getMapAt
    simp only [(abspath_place hns hps).1]
    have hr : ∀ m, referenceMap (effectiveArgs a) m (fun fn => getMap R.n R.w (abspath (straight ns) fn)
        (loadSymbolsOf (effectiveArgs a)) (useDwarfOf (effectiveArgs a)) none none) =
        referenceMap (effectiveArgs a) m (fun fn => getMap R.n R.w fn
        (loadSymbolsOf (effectiveArgs a)) (useDwarfOf (effectiveArgs a)) none none) := by
      intro m
      apply referenceMap_congr
      intro c s hd
      have had : a.diff = some (c :: s) := by
        unfold effectiveArgs at hd
        by_cases h1 : (a.noAbbrev && a.unify) = true <;> by_cases h2 : (a.archiveDependencies && truthy a.diff) = true <;>
          simp [h1, h2] at hd <;> exact hd
      obtain ⟨h1, h2⟩ := ha c s had
      rw [h1, (abspath_place hns (place_straight ns h2)).1]
    simp only [hr]
    rfl
  rcases hdiff with h | ⟨c, s, h, hf⟩
  · rw [key args (by rw [h]; intro c s hc; cases hc)]
    congr 1
    rw [h]
    cases args
    cases h
    rfl
  · obtain ⟨t, ht⟩ := straight_cons f
    have hf' := (abspath_place hns hf).2
    have hsp := place_straight ns hf'
    rw [ht] at hsp
    have hargs : args = { args with diff := some (c :: s) } := by cases args; cases h; rfl
    rw [hargs, C94_reference hns hf hsp]
    simp only [Option.map_some]
    rw [ht]
    apply key
    intro c' s' hc
    cases hc
    exact ⟨ht.symm, hf'⟩

/-- Looking files up by their straight path is such a file system, whatever the files are. -/
theorem C94_worlds (w : World) {ns : List Str} (hns : ∀ n ∈ ns, FileName n) :
    ByPlace { w with json := fun p => w.json (abspath (straight ns) p), lines := fun p => w.lines (abspath (straight ns) p),
                     elf := fun p => w.elf (abspath (straight ns) p) } ns := by
  refine ⟨?_, ?_, ?_⟩ <;> intro p q e hp hq <;> simp only [(abspath_place hns hp).1, (abspath_place hns hq).1]

/-- A relative path, one with `..`, and the straight path name the same place. -/
theorem C94_example : Place [str "work", str "app"] (str "build/app.map") [str "work", str "app", str "build", str "app.map"] ∧
    Place [str "work", str "app"] (str "./../app//build/app.map") [str "work", str "app", str "build", str "app.map"] ∧
    abspath (str "/work/app") (str "./../app//build/app.map") = str "/work/app/build/app.map" := by
  refine ⟨⟨by decide, _, splitSlash_parts _, .inr ⟨by decide, ?_⟩⟩, ⟨by decide, _, splitSlash_parts _, .inr ⟨by decide, ?_⟩⟩, by decide⟩
  · exact .down (by refine ⟨?_, ?_, ?_, ?_⟩ <;> decide) (.down (by refine ⟨?_, ?_, ?_, ?_⟩ <;> decide) .here)
  · exact .stay (.inr rfl) (.up (.down (by refine ⟨?_, ?_, ?_, ?_⟩ <;> decide) (.stay (.inl rfl)
      (.down (by refine ⟨?_, ?_, ?_, ?_⟩ <;> decide) (.down (by refine ⟨?_, ?_, ?_, ?_⟩ <;> decide) .here)))))

end EspSize
