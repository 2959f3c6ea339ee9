import Verif.Model.Tree
/-!
# `memorymap.unify`

`/repo/esp_idf_size/memorymap.py:426-488`.
-/
namespace EspSize

/-- `unify_items` at the leaf level (`memorymap.py:455-473` with `sublevel = None`). -/
def unifySyms (orig unified : Dict Str Sym) : Dict Str Sym :=
  orig.foldl (fun u p =>
    match dget u p.2.abb with
    | none => dset u p.2.abb
        { abb := p.2.abb, size := p.2.size, sizeDiff := p.2.sizeDiff, nullKid := true }
    | some x => dset u p.2.abb
        { x with size := x.size + p.2.size, sizeDiff := x.sizeDiff + p.2.sizeDiff }) unified

/-- `unify_items` at an inner level (`memorymap.py:453-475`); `unifyKids` is the recursive call. -/
def unifyNodes {α : Type} (unifyKids : Dict Str α → Dict Str α → Dict Str α)
    (orig unified : Dict Str (Node α)) : Dict Str (Node α) :=
  orig.foldl (fun u p =>
    match dget u p.2.abb with
    | none => dset u p.2.abb
        { abb := p.2.abb, size := p.2.size, sizeDiff := p.2.sizeDiff,
          kids := unifyKids p.2.kids [] }
    | some x => dset u p.2.abb
        { x with size := x.size + p.2.size, sizeDiff := x.sizeDiff + p.2.sizeDiff,
                 kids := unifyKids p.2.kids x.kids }) unified

def unifyObjs : Dict Str Obj → Dict Str Obj → Dict Str Obj := unifyNodes unifySyms
def unifyArchs : Dict Str Arch → Dict Str Arch → Dict Str Arch := unifyNodes unifyObjs
def unifySecs : Dict Str Sec → Dict Str Sec → Dict Str Sec := unifyNodes unifyArchs

/-- `memorymap.unify`, `memorymap.py:477-488`. -/
def unify (m : MemMap) : MemMap :=
  { m with memoryTypes := dmap (fun _ t => { t with sections := unifySecs t.sections [] }) m.memoryTypes }

end EspSize
