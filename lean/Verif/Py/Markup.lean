import Verif.Py.Basic
/-!
# Console markup of `rich`

The text that `rich.markup.render` keeps of a markup string.  The library is not part of the repository; this
follows its regular expression for tags, `((\\*)\[([a-z#/@][^[]*?)])`, and its treatment of backslashes.  Styles
are dropped, the error for a closing tag without an opening one, emoji codes, the removal of the control characters 7, 8, 11, 12
and 13 and the expansion of tabulators are not modelled.
-/
namespace EspSize

/-- `[a-z#/@]`. -/
def tagStart (c : Char) : Bool := (decide ('a' ≤ c) && decide (c ≤ 'z')) || c = '#' || c = '/' || c = '@'

/-- The characters up to the first `]`, if there is no `[` before it, and what follows. -/
def tagBody : Str → Option (Str × Str)
  | [] => none
  | ']' :: t => some ([], t)
  | '[' :: _ => none
  | c :: t => (tagBody t).map fun (b, r) => (c :: b, r)

/-- A tag after its `[`: text between the brackets, what follows `]`. -/
def tagText : Str → Option (Str × Str)
  | c :: t => if tagStart c then (tagBody t).map fun (b, r) => (c :: b, r) else none
  | [] => none

/-- A match of the regular expression at the start of the text: number of backslashes, tag, rest. -/
def tagAt : Str → Option (Nat × Str × Str)
  | '\\' :: t => (tagAt t).map fun (n, x) => (n + 1, x)
  | '[' :: t => (tagText t).map fun x => (0, x)
  | _ => none

/-- `render`, with at most `n` steps. -/
def renderN : Nat → Str → Str
  | 0, s => s
  | n + 1, s =>
    match tagAt s with
    | some (k, tag, rest) =>
      List.replicate (k / 2) '\\' ++ (if k % 2 = 1 then '[' :: tag ++ [']'] else []) ++ renderN n rest
    | none =>
      match s with
      | [] => []
      | '\\' :: '[' :: t => '[' :: renderN n t
      | c :: t => c :: renderN n t

/-- The text shown for a markup string. -/
def render (s : Str) : Str := renderN s.length s

end EspSize
