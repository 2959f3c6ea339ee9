import Verif.Py.Markup
import Verif.Py.Split
/-!
# Markup that cannot be rendered

`rich.markup.render` raises `MarkupError` for a closing tag without an opening one.  The stack of open styles is that of the
library; `norm` is `Style.normalize`, which gives a style its canonical name (`b` is `bold`), and is a parameter.  The parameters of
`@` tags, whose evaluation may also raise, are not modelled.
-/
namespace EspSize

/-- `tag_text.partition("=")[0]`. -/
def tagName (tag : Str) : Str := tag.takeWhile (· ≠ '=')

/-- The open styles after a tag, last one first; `none` if `MarkupError` is raised. -/
def stackTag (norm : Str → Str) (stack : List Str) (tag : Str) : Option (List Str) :=
  match tagName tag with
  | '/' :: n =>
    if strip n = [] then
      match stack with
      | [] => none
      | _ :: t => some t
    else if norm (strip n) ∈ stack then some (stack.erase (norm (strip n)))
    else none
  | n => some (norm n :: stack)

/-- The open styles after a text, with at most `n` steps. -/
def tagsN (norm : Str → Str) : Nat → List Str → Str → Option (List Str)
  | 0, stack, _ => some stack
  | n + 1, stack, s =>
    match tagAt s with
    | some (k, tag, rest) =>
      if k % 2 = 1 then tagsN norm n stack rest
      else match stackTag norm stack tag with
        | none => none
        | some st => tagsN norm n st rest
    | none =>
      match s with
      | [] => some stack
      | _ :: t => tagsN norm n stack t

/-- The open styles after a text, where the styles `stack` are open before it. -/
def tags (norm : Str → Str) (stack : List Str) (s : Str) : Option (List Str) := tagsN norm s.length stack s

/-- The text shown for a markup string, if no `MarkupError` is raised. -/
def renderE (norm : Str → Str) (s : Str) : Option Str := (tags norm [] s).map fun _ => render s

end EspSize
