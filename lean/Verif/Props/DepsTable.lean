import Verif.Props.Csv
import Verif.Props.Deps
/-! # C65: the dependency table lists the dependencies -/
namespace EspSize

/-- Complete rows: a row without archive and size belongs to the archive of the row before it. -/
def carryDown : Str × Str → List (List Str) → List (List Str)
  | _, [] => []
  | (n, z), (a :: b :: r) :: t =>
    if b = [] then (n :: z :: r) :: carryDown (n, z) t else (a :: b :: r) :: carryDown (a, b) t
  | p, r :: t => r :: carryDown p t

/-- The complete row of a dependency. -/
def depRow (args : Args) (a : Str × DepArch) (d : Str × DepInfo) : List Str :=
  [if args.abbrev_ then a.2.abb else a.1, intStr a.2.size, if args.abbrev_ then d.2.abb else d.1, intStr d.2.size] ++
    (if args.depSymbols then [joinWith ['\n'] d.2.symbols] else [])

theorem carryDown_depRows (args : Args) (a : Str × DepArch) (l : List (Str × DepInfo)) (first : Bool) (p : Str × Str)
    (t : List (List Str)) (hp : first = false → p = (if args.abbrev_ then a.2.abb else a.1, intStr a.2.size)) :
    ∃ p', carryDown p (depRows args (if args.abbrev_ then a.2.abb else a.1) a.2.size first l ++ t) =
      l.map (depRow args a) ++ carryDown p' t := by
  induction l generalizing first p with
  | nil => exact ⟨p, by simp [depRows]⟩
  | cons d l ih =>
    obtain ⟨dn, di⟩ := d
    obtain ⟨p', hp'⟩ := ih false (if args.abbrev_ then a.2.abb else a.1, intStr a.2.size) fun _ => rfl
    refine ⟨p', ?_⟩
    cases first with
    | true =>
      simp only [depRows, if_true, List.cons_append, List.nil_append, carryDown, intStr_ne_nil, if_false, hp']
      rfl
    | false =>
      obtain ⟨n, z⟩ := p
      have := hp rfl
      injection this with h1 h2
      subst h1 h2
      simp only [depRows, Bool.false_eq_true, if_false, List.cons_append, List.nil_append, carryDown, if_true, hp']
      rfl

theorem depRows_len (args : Args) (name : Str) (z : Int) (first : Bool) (l : List (Str × DepInfo)) :
    ∀ r ∈ depRows args name z first l, r.length = if args.depSymbols then 5 else 4 := by
  induction l generalizing first with
  | nil => intro r hr; cases hr
  | cons d l ih =>
    intro r hr
    unfold depRows at hr
    rcases List.mem_cons.mp hr with rfl | hr
    · cases first <;> cases args.depSymbols <;> rfl
    · exact ih false r hr

/-- **C65** the dependency table has one row for every dependency of every archive that passes the filter, in
order, each belonging to its archive; every row has a cell for each column. -/
theorem C65_dependency_table (args : Args) (deps : Deps) (p : Str × Str) :
    (∀ r ∈ (depsTable args deps).rows, r.length = (depsTable args deps).headers.length) ∧
    carryDown p (depsTable args deps).rows =
      (getSummaryFiltered DepArch.abb deps args).flatMap fun a => a.2.archives.map (depRow args a) := by
  have hlen : ∀ r ∈ ((getSummaryFiltered DepArch.abb deps args).flatMap fun a =>
      depRows args (if args.abbrev_ then a.2.abb else a.1) a.2.size true a.2.archives),
      r.length = if args.depSymbols then 5 else 4 := by
    intro r hr
    obtain ⟨a, _, hr⟩ := List.mem_flatMap.mp hr
    exact depRows_len args _ _ _ _ r hr
  have ht := foldl_addRow (n := if args.depSymbols then 5 else 4) _ hlen
    ⟨[str "Archive", str "Archive Size", if args.depReverse then str "Dependents" else str "Dependencies",
      (if args.depReverse then str "Dependents" else str "Dependencies") ++ str " Sizes"] ++
        (if args.depSymbols then [str "Symbols"] else []), []⟩ (by cases args.depSymbols <;> rfl) (by simp)
  have hdt : depsTable args deps = _ := ht
  rw [hdt]
  constructor
  · intro r hr
    rw [hlen r (by simpa using hr)]
    cases args.depSymbols <;> rfl
  · simp only [List.nil_append]
    generalize getSummaryFiltered DepArch.abb deps args = F
    induction F generalizing p with
    | nil => rfl
    | cons a F ih =>
      rw [List.flatMap_cons, List.flatMap_cons]
      obtain ⟨p', hp'⟩ := carryDown_depRows args a a.2.archives true p
        (F.flatMap fun a => depRows args (if args.abbrev_ then a.2.abb else a.1) a.2.size true a.2.archives)
        (fun h => by cases h)
      rw [hp', ih p']

/-- Which archives pass: all of them without a filter, else those whose shown name matches a pattern. -/
theorem C65_filter (args : Args) (deps : Deps) (a : Str × DepArch) :
    a ∈ getSummaryFiltered DepArch.abb deps args ↔ a ∈ deps ∧
      (∀ ps, args.filter = some ps → ∃ p ∈ ps, MatchesPart p (if args.abbrev_ then a.2.abb else a.1)) := by
  rw [C38_filter, List.mem_filter]
  cases h : args.filter with
  | none => simp
  | some ps => simp

example : carryDown ([], []) (depsTable {}
    [(str "x/liba.a", { abb := str "liba.a", size := 10, archives :=
      [(str "libb.a", ⟨str "libb.a", 7, [str "f"]⟩), (str "libc.a", ⟨str "libc.a", 5, [str "g"]⟩)] })]).rows =
    [[str "liba.a", str "10", str "libb.a", str "7"], [str "liba.a", str "10", str "libc.a", str "5"]] := by
  decide +kernel

end EspSize
