import Verif.Model.Tree
/-!
# Specification vocabulary for memory maps

Access to an entry by its path, and what it means for a tree to be made of Python dictionaries.
-/
namespace EspSize

/-- The memory type named `t`. -/
def getType (m : MemMap) (t : Str) : Option MType := dget m.memoryTypes t
/-- The section `s` of memory type `t`. -/
def getSec (m : MemMap) (t s : Str) : Option Sec := (getType m t).bind fun x => dget x.sections s
/-- The archive `a` of section `s` of memory type `t`. -/
def getArch (m : MemMap) (t s a : Str) : Option Arch := (getSec m t s).bind fun x => dget x.kids a
/-- The object file `o` of archive `a` ... -/
def getObj (m : MemMap) (t s a o : Str) : Option Obj := (getArch m t s a).bind fun x => dget x.kids o
/-- The symbol `y` of object file `o` ... -/
def getSym (m : MemMap) (t s a o y : Str) : Option Sym :=
  (getObj m t s a o).bind fun x => dget x.kids y

/-- Value of a field of a possibly absent entry; absent counts as 0. -/
def orZero {α : Type} (f : α → Int) : Option α → Int
  | some x => f x
  | none => 0

/-- All dictionaries of a node have distinct keys. -/
def Node.WF {α : Type} (W : α → Prop) (n : Node α) : Prop :=
  KeysNodup n.kids ∧ ∀ p ∈ n.kids, W p.2

def Sym.WF (_ : Sym) : Prop := True
def Obj.WF : Obj → Prop := Node.WF Sym.WF
def Arch.WF : Arch → Prop := Node.WF Obj.WF
def Sec.WF : Sec → Prop := Node.WF Arch.WF
def MType.WF (t : MType) : Prop := KeysNodup t.sections ∧ ∀ p ∈ t.sections, Sec.WF p.2

/-- All dictionaries of the map have distinct keys (true of every Python dictionary). -/
def MemMap.WF (m : MemMap) : Prop := KeysNodup m.memoryTypes ∧ ∀ p ∈ m.memoryTypes, MType.WF p.2

instance {α : Type} (W : α → Prop) [DecidablePred W] : DecidablePred (Node.WF W) :=
  fun _ => inferInstanceAs (Decidable (_ ∧ _))
instance : DecidablePred Sym.WF := fun _ => inferInstanceAs (Decidable True)
instance : DecidablePred Obj.WF := inferInstanceAs (DecidablePred (Node.WF _))
instance : DecidablePred Arch.WF := inferInstanceAs (DecidablePred (Node.WF _))
instance : DecidablePred Sec.WF := inferInstanceAs (DecidablePred (Node.WF _))
instance : DecidablePred MType.WF := fun _ => inferInstanceAs (Decidable (_ ∧ _))
instance : DecidablePred MemMap.WF := fun _ => inferInstanceAs (Decidable (_ ∧ _))

end EspSize
