import Verif.Spec.TableRun
import Verif.Py.Dict
/-! # Comparisons between several versions of a project -/
namespace EspSize

/-- The lists of the reports: archives, object files, symbols of an archive. -/
inductive ListKind
  | archives
  | files
  | symbols

/-- The list asked for by the options. -/
def ListKind.Asked (args : Args) : ListKind → Prop
  | .archives => args.archives = true
  | .files => args.archives = false ∧ truthy args.archiveDetails = false ∧ args.files = true
  | .symbols => args.archives = false ∧ truthy args.archiveDetails = true

/-- The columns in which nothing is lost in the list: all of them for archives; for files and symbols, those of sections
only if the parts do not hold two under one name. -/
def ListKind.Exact (args : Args) (parts : List MSec) : ListKind → Col → Prop
  | .archives, _ => True
  | .files, c => ExactIf (FilesApart args.unify parts) c
  | .symbols, c => ExactIf (SymsApart args.unify args.archiveDetails parts) c

/-- Size in a column of an entry, none without a cell. -/
def sizeCell (e : Entry) (c : Col) : Int := ((cellOf e c).map Prod.fst).getD 0

/-- Difference in a column of an entry, none without a cell. -/
def diffCell (e : Entry) (c : Col) : Int := ((cellOf e c).map Prod.snd).getD 0

/-- Total size of an entry of a list, none if it is not listed. -/
def totalIn (E : Dict Str Entry) (k : Str) : Int := ((dget E k).map Entry.size).getD 0

/-- Total difference of an entry of a list, none if it is not listed. -/
def diffIn (E : Dict Str Entry) (k : Str) : Int := ((dget E k).map Entry.sizeDiff).getD 0

/-- `E` compares a project with another one, and `E'` is the comparison in the other direction; `exact` are the columns
in which nothing is lost. -/
structure Opposite (showUnchanged : Bool) (exact : Col → Prop) (E E' : Dict Str Entry) : Prop where
  diffs : ∀ k, diffIn E k = - diffIn E' k
  names : showUnchanged = false → ∀ k, k ∈ E.map Prod.fst ↔ k ∈ E'.map Prod.fst
  sizes : showUnchanged = true → ∀ k, totalIn E k - diffIn E k = totalIn E' k
  cells : ∀ k e e', (k, e) ∈ E → (k, e') ∈ E' → ∀ c, exact c →
    diffCell e c = - diffCell e' c ∧ sizeCell e c - diffCell e c = sizeCell e' c

/-- `E` compares a project with a second one, `E'` the second one with a third one, and `E''` the first one with the
third one. -/
structure Chain (exact : Col → Prop) (E E' E'' : Dict Str Entry) : Prop where
  diffs : ∀ k, diffIn E k + diffIn E' k = diffIn E'' k
  cells : ∀ k e e' e'', (k, e) ∈ E → (k, e') ∈ E' → (k, e'') ∈ E'' → ∀ c, exact c →
    diffCell e c + diffCell e' c = diffCell e'' c

/-- `E` compares the project listed in `P` with that listed in `Q`. -/
structure Compares (showUnchanged : Bool) (exact : Col → Prop) (E P Q : Dict Str Entry) : Prop where
  diffs : ∀ k, diffIn E k = totalIn P k - totalIn Q k
  sizes : ∀ k, k ∈ E.map Prod.fst → totalIn E k = totalIn P k
  names : ∀ k, k ∈ E.map Prod.fst → showUnchanged = false → totalIn P k ≠ totalIn Q k
  all : ∀ k, totalIn P k ≠ 0 ∨ totalIn Q k ≠ 0 → totalIn P k ≠ totalIn Q k ∨ showUnchanged = true → k ∈ E.map Prod.fst
  cells : ∀ k e p q, (k, e) ∈ E → (k, p) ∈ P → (k, q) ∈ Q → ∀ c, exact c →
    sizeCell e c = sizeCell p c ∧ diffCell e c = sizeCell p c - sizeCell q c
  sum : sumBy (fun e => e.2.sizeDiff) E = sumBy (fun e => e.2.size) P - sumBy (fun e => e.2.size) Q

end EspSize
