import Verif.Model.Frame
/-! # What is shown around a table -/
namespace EspSize

/-- The lines that introduce a comparison of two projects. -/
def comparisonLines (current reference : Str) : List OnScreen :=
  [.err (str "CURRENT   project file: \"" ++ current ++ str "\""),
   .err (str "REFERENCE project file: \"" ++ reference ++ str "\""),
   .err (str "Difference is counted as CURRENT - REFERENCE, i.e. a positive number means that CURRENT is larger.")]

/-- The line with the size of the image; in a comparison with its change, signed, in a field of six characters. -/
def imageLine (compare : Bool) (size change : Int) : OnScreen :=
  .err (str "Total image size: " ++ intStr size ++
    (if compare then ' ' :: (if change = 0 then int6 change else plus6 change) else []) ++ str " bytes (.bin may be padded larger)")

/-- The note about sizes. -/
def noteLine : OnScreen :=
  .err (str "Note: The reported total sizes may be smaller than those in the technical reference manual due to reserved memory and application configuration. The total flash size available for the application is not included by default, as it cannot be reliably determined due to the presence of other data like the bootloader, partition table, and application partition size.")

/-- The lines shown after the table: those of the summary. -/
def linesAfter (summary compare : Bool) (size change : Int) : List OnScreen :=
  if summary then [imageLine compare size change, noteLine] else []

/-- A text with a closing tag as its first tag. -/
def StrayClose (s : Str) : Prop := ∃ a b c : Str, s = a ++ '[' :: '/' :: b ++ ']' :: c ∧ '[' ∉ a ∧ a.getLast? ≠ some '\\' ∧ '[' ∉ b ∧ ']' ∉ b

end EspSize
