import Verif.Proofs.Unify
import Verif.Proofs.List
/-! # Grouping loops: `d[key] = upd(d.get(key, init), x)` -/
namespace EspSize
variable {α β : Type}

/-- One step of a grouping loop. -/
def gstep (key : β → Str) (init : Str → α) (upd : α → β → α) (d : Dict Str α) (x : β) : Dict Str α :=
  dset d (key x) (upd ((dget d (key x)).getD (init (key x))) x)

theorem dget_gstep (key : β → Str) (init : Str → α) (upd : α → β → α) (l : List β) (k : Str) :
    dget (l.foldl (gstep key init upd) []) k =
      if l.filter (fun x => key x = k) = [] then none
      else some ((l.filter fun x => key x = k).foldl upd (init k)) := by
  induction l using snocInd with
  | nil => simp
  | snoc l x ih =>
    rw [List.foldl_append, List.foldl_cons, List.foldl_nil, gstep, dget_dset]
    rw [List.filter_append]
    by_cases h : key x = k
    · subst h
      rw [if_pos rfl, ih]
      simp only [List.filter_cons_of_pos, decide_true, List.filter_nil, List.append_eq_nil_iff,
        List.cons_ne_self, and_false, if_false, List.foldl_append, List.foldl_cons, List.foldl_nil]
      split
      · rename_i he; rw [he]; rfl
      · rfl
    · rw [if_neg h, ih]
      simp [h]

theorem keysNodup_gstep (key : β → Str) (init : Str → α) (upd : α → β → α) (l : List β) (d : Dict Str α)
    (hd : KeysNodup d) : KeysNodup (l.foldl (gstep key init upd) d) := by
  induction l generalizing d with
  | nil => exact hd
  | cons x t ih => exact ih _ (hd.dset _ _)

theorem sumBy_gstep (key : β → Str) (init : Str → α) (upd : α → β → α) (f : α → Int) (w : β → Int)
    (h0 : ∀ k, f (init k) = 0) (hu : ∀ a x, f (upd a x) = f a + w x) (l : List β) (d : Dict Str α) :
    sumBy (fun p => f p.2) (l.foldl (gstep key init upd) d) = sumBy (fun p => f p.2) d + sumBy w l := by
  induction l generalizing d with
  | nil => simp
  | cons x t ih =>
    rw [List.foldl_cons, ih, gstep, sumBy_dset, hu]
    cases hg : dget d (key x) with
    | none => simp [h0, orZero]; omega
    | some a => simp [orZero]; omega

end EspSize
