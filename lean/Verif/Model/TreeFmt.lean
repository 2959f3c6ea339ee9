import Verif.Model.Table
/-!
# The tree reports

`/repo/esp_idf_size/format_tree.py:13-77`.  A label is the markup text given to `rich`; styles are not modelled.
-/
namespace EspSize

/-- `rich.tree.Tree`. -/
inductive RTree where
  | node (label : Str) (kids : List RTree)

def RTree.label : RTree → Str
  | .node l _ => l

def RTree.kids : RTree → List RTree
  | .node _ k => k

/-- `f'{name} {size}'` with `color_diff`, `format_tree.py:28-30,33-35,38-40,43-45`. -/
def treeLabel (args : Args) (name : Str) (size diff : Int) : Str :=
  name ++ str " " ++ colorDiff size diff (truthy args.diff)

/-- `format_tree.py:42-45`. -/
def symTrees (args : Args) (o : Obj) : List RTree :=
  o.kids.map fun p => .node (treeLabel args p.1 p.2.size p.2.sizeDiff) []

/-- The nodes for the children of an entry, `format_tree.py:32-40`. -/
def nodeTrees {α : Type} (args : Args) (kids : Node α → List RTree) (x : Node (Node α)) : List RTree :=
  x.kids.map fun p => .node (treeLabel args (if args.abbrev_ then p.2.abb else p.1) p.2.size p.2.sizeDiff) (kids p.2)

/-- `format_tree.py:20-25`. -/
def typeLabel (args : Args) (p : Str × MType) : Str :=
  let used := colorDiff p.2.used p.2.usedDiff (truthy args.diff)
  if p.2.size ≠ 0 then p.1 ++ str " " ++ used ++ str " / " ++ colorSize p.2.size p.2.sizeDiff (truthy args.diff)
  else p.1 ++ str " " ++ used

/-- `show_memmap` after trimming and sorting, `format_tree.py:18-45`. -/
def mapTree (args : Args) (m : MemMap) : RTree :=
  .node (str "Memory Types") (m.memoryTypes.map fun p => .node (typeLabel args p) (p.2.sections.map fun s =>
    .node (treeLabel args (if args.abbrev_ then s.2.abb else s.1) s.2.size s.2.sizeDiff)
      (nodeTrees args (nodeTrees args (symTrees args)) s.2)))

/-- `show_archives_dependencies`, `format_tree.py:54-75`. -/
def depsTree (args : Args) (d : Deps) : RTree :=
  .node (if args.depReverse then str "Archive reverse dependencies" else str "Archive dependencies")
    (d.map fun p => .node ((if args.abbrev_ then p.2.abb else p.1) ++ str " " ++ intStr p.2.size)
      (p.2.archives.map fun q => .node ((if args.abbrev_ then q.2.abb else q.1) ++ str " " ++ intStr q.2.size)
        (if args.depSymbols then q.2.symbols.map fun s => .node s [] else [])))

end EspSize
