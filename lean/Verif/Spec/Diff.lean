import Verif.Spec.Tree
/-! # Specification of `diff` and of "same numbers everywhere" -/
namespace EspSize

/-- What the difference must look like at one path: `c`, `r`, `d` are the entries of the current
map, the reference map and the result. -/
structure DiffAt {α : Type} (size sizeDiff : α → Int) (c r d : Option α) : Prop where
  present : d.isSome = true ↔ c.isSome = true ∨ r.isSome = true
  sizeEq : ∀ x, d = some x → size x = orZero size c
  diffEq : ∀ x, d = some x → sizeDiff x = orZero size c - orZero size r

/-- A symbol, node, memory type or map with all differences zero and everything else kept. -/
def Sym.zeroDiff (s : Sym) : Sym := { s with sizeDiff := 0 }
def Node.zeroDiff {α : Type} (f : α → α) (n : Node α) : Node α :=
  { n with sizeDiff := 0, kids := dmap (fun _ => f) n.kids }
def Obj.zeroDiff : Obj → Obj := Node.zeroDiff Sym.zeroDiff
def Arch.zeroDiff : Arch → Arch := Node.zeroDiff Obj.zeroDiff
def Sec.zeroDiff : Sec → Sec := Node.zeroDiff Arch.zeroDiff
def MType.zeroDiff (t : MType) : MType :=
  { t with sizeDiff := 0, usedDiff := 0, sections := dmap (fun _ => Sec.zeroDiff) t.sections }
def MemMap.zeroDiff (m : MemMap) : MemMap :=
  { m with imageSizeDiff := 0, memoryTypes := dmap (fun _ => MType.zeroDiff) m.memoryTypes }

end EspSize
