import Verif.Model.TreeFmt
import Verif.Py.MarkupErr
/-!
# Printing a tree

`log.print(tree)`, `/repo/esp_idf_size/format_tree.py:47,77`: every label is rendered as markup, and nothing is printed if this raises `MarkupError`.
The guides that `rich` draws are not modelled.
-/
namespace EspSize

mutual
/-- The labels, each before those below it. -/
def RTree.labels : RTree → List Str
  | .node l kids => l :: labelsOf kids
def labelsOf : List RTree → List Str
  | [] => []
  | t :: ts => t.labels ++ labelsOf ts
end

/-- The labels as shown; `none` if `MarkupError` is raised. -/
def treePrint (norm : Str → Str) (t : RTree) : Option (List Str) := t.labels.mapM (renderE norm)

end EspSize
