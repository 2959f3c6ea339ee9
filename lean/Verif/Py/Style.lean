import Verif.Py.Markup
/-!
# Styles of `rich` markup

What `rich.markup.render` makes of tags: a tag opens a style, `[/name]` closes the style of that name opened last,
`[/]` the style opened last; styles that are not closed last to the end.  The style of a character is the one opened last.
As in `Py/Markup`, the error for a closing tag without an opening one is not modelled, such a tag has no effect.
-/
namespace EspSize

/-- The open styles after a tag, last one first. -/
def applyTag (open_ : List Str) (tag : Str) : List Str :=
  match tag with
  | '/' :: name => if name = [] then open_.tail else open_.erase name
  | _ => tag :: open_

/-- Text with the same style everywhere. -/
def inStyle (style : Option Str) (s : Str) : List (Char × Option Str) := s.map fun c => (c, style)

/-- `render` with styles, with at most `n` steps. -/
def styleN : Nat → List Str → Str → List (Char × Option Str)
  | 0, open_, s => inStyle open_.head? s
  | n + 1, open_, s =>
    match tagAt s with
    | some (k, tag, rest) =>
      inStyle open_.head? (List.replicate (k / 2) '\\' ++ (if k % 2 = 1 then '[' :: tag ++ [']'] else [])) ++
        styleN n (if k % 2 = 1 then open_ else applyTag open_ tag) rest
    | none =>
      match s with
      | [] => []
      | '\\' :: '[' :: t => ('[', open_.head?) :: styleN n open_ t
      | c :: t => (c, open_.head?) :: styleN n open_ t

/-- The characters shown for a markup string, with their styles, where the styles `open_` are open. -/
def styledIn (open_ : List Str) (s : Str) : List (Char × Option Str) := styleN s.length open_ s

/-- The characters shown for a markup string, with their styles. -/
def styled (s : Str) : List (Char × Option Str) := styledIn [] s

end EspSize
