import Verif.Py.Basic
/-!
# Names that look like markup

In terms of the documentation of `rich`: a tag is text in brackets that begins with a lower case letter, `#`, `/` or `@`; a
backslash before a bracket escapes it.
-/
namespace EspSize

/-- A text with a tag, as `[b]`, `[/]`, `[i=1]` or `[]x[y]`: brackets with no bracket opened in between, behind the opening one a
lower case letter, `#`, `/` or `@`. -/
def HasTag (s : Str) : Prop :=
  ∃ (before : Str) (c : Char) (b after : Str), s = before ++ '[' :: c :: (b ++ ']' :: after) ∧ '[' ∉ b ∧
    (('a'.toNat ≤ c.toNat ∧ c.toNat ≤ 'z'.toNat) ∨ c ∈ ['#', '/', '@'])

/-- A text that ends within what may become a tag: `a[b`. -/
def OpensTag (s : Str) : Prop :=
  ∃ (before : Str) (c : Char) (b : Str), s = before ++ '[' :: c :: b ∧ '[' ∉ b ∧
    (('a'.toNat ≤ c.toNat ∧ c.toNat ≤ 'z'.toNat) ∨ c ∈ ['#', '/', '@'])

/-- A text with an escaped bracket. -/
def HasEscape (s : Str) : Prop := ∃ before after : Str, s = before ++ '\\' :: '[' :: after

/-- A text without markup, also together with more text: `operator[]` and `a[1]`, but neither `a[b]` nor `a[b`. -/
structure NoMarkup (s : Str) : Prop where
  tag : ¬ HasTag s
  opens : ¬ OpensTag s
  escape : ¬ HasEscape s

end EspSize
