import Verif.Model.ElfObj
/-!
# Entries an exception leaves behind

`/repo/esp_idf_size/elf.py:1844-1924`: `self._die` is the dictionary that is being filled, and an entry is put there as soon
as its tag is known; attributes and the size come later.  Here every step gives what was put in the dictionary, whether it
raises or not.
-/
namespace EspSize

/-- An entry of `self._die`: the size is `None` as long as the entry is being read, `elf.py:1867-1875`. -/
structure KeptDie where
  offset : Nat
  parent : Option Nat
  level : Nat
  code : Nat
  tag : Nat
  size : Option Nat
  attrs : Dict Nat DAttr
deriving DecidableEq, Repr

/-- The loop over the attributes, `elf.py:1898-1904`: those put in the entry, and the offset. -/
def walkAttrs (E : FormEnv) (d : Bytes) : List AbbrevAttr → Nat → Dict Nat DAttr → Dict Nat DAttr × Except Err Nat
  | [], off, acc => (acc, .ok off)
  | a :: t, off, acc =>
    if a.attr = 0 then (acc, .ok off)
    else match dattrAt E a d off with
      | .error x => (acc, .error x)
      | .ok x => walkAttrs E d t (off + x.size) (dset acc x.attr x)

theorem walkAttrs_eq (E : FormEnv) (d : Bytes) (l : List AbbrevAttr) (off : Nat) (acc : Dict Nat DAttr) :
    dieAttrs E d l off acc = (walkAttrs E d l off acc).2.map fun o => ((walkAttrs E d l off acc).1, o) := by
  induction l generalizing off acc with
  | nil => rfl
  | cons a t ih =>
    unfold dieAttrs walkAttrs
    split
    · rfl
    · cases dattrAt E a d off with
      | error x => rfl
      | ok x => exact ih _ _

theorem walkAttrs_bound {E : FormEnv} {d : Bytes} {l : List AbbrevAttr} {off : Nat} {acc : Dict Nat DAttr} {o : Nat}
    (h : (walkAttrs E d l off acc).2 = .ok o) : off ≤ o :=
  dieAttrs_bound (r := ((walkAttrs E d l off acc).1, o)) (by rw [walkAttrs_eq, h]; rfl)

mutual
/-- `get_DIE`, `elf.py:1866-1921`: the entries put in `dies`, and the code and the offset after the entry. -/
def walkDie (V : DieEnv) (off : Nat) (parent : Option Nat) (level : Nat) : List KeptDie × Except Err (Nat × Nat) :=
  match _hu : getUleb128 V.d off with
  | .error x => ([], .error x)
  | .ok (code, o1) =>
    if code = 0 then
      (if wanted V.filter 0 then [⟨off, parent, level, 0, 0, some (o1 - off), []⟩] else [], .ok (0, o1))
    else
      match V.tab with
      | .error x => ([], .error x)
      | .ok t =>
        match t[code - 1]? with
        | none => ([], .error .indexError)
        | some e =>
          let entry (size : Option Nat) (attrs : Dict Nat DAttr) : List KeptDie :=
            if wanted V.filter e.tag then [⟨off, parent, level, code, e.tag, size, attrs⟩] else []
          if code ≠ e.code then (entry none [], .error .assertion)
          else
            let r := walkAttrs V.E V.d e.attrs o1 []
            match _ha : r.2 with
            | .error x => (entry none r.1, .error x)
            | .ok o2 =>
              if e.children = 0 then (entry (some (o2 - off)) r.1, .ok (code, o2))
              else
                let k := walkKids V o2 off (level + 1)
                match k.2 with
                | .error x => (entry none r.1 ++ k.1, .error x)
                | .ok o3 => (entry (some (o3 - off)) r.1 ++ k.1, .ok (code, o3))
termination_by (V.d.length - off, 0)
decreasing_by
  have h1 := getUleb128_bound _hu
  have h2 := walkAttrs_bound _ha
  simp only at h1 h2
  exact Prod.Lex.left _ _ (by omega)

/-- The loop over the children, `elf.py:1910-1917`; the last branch is never reached (see `getKids`). -/
def walkKids (V : DieEnv) (off parent level : Nat) : List KeptDie × Except Err Nat :=
  let r := walkDie V off (some parent) level
  match r.2 with
  | .error x => (r.1, .error x)
  | .ok (code, next) =>
    if code = 0 then (r.1, .ok next)
    else if _h : off < next ∧ off < V.d.length then
      let k := walkKids V next parent level
      (r.1 ++ k.1, k.2)
    else (r.1, .error .typeError)
termination_by (V.d.length - off, 1)
decreasing_by
  · exact Prod.Lex.right _ (by omega)
  · exact Prod.Lex.left _ _ (by omega)
end

/-- The dictionary of entries after `get_DIEs` on a unit without entries, and whether it raised, `elf.py:1848-1849,1920-1921`. -/
def walkDIEs (V : DieEnv) (cu : CU) : Dict Nat KeptDie × Except Err Unit :=
  let r := walkDie V cu.dieOff none 0
  (r.1.foldl (fun acc x => dset acc x.offset x) [], r.2.map fun _ => ())

/-- An entry of the dictionary in the model of the object (`Model/ElfObj.lean`), where a size that is `None` is 0. -/
def KeptDie.die (k : KeptDie) : Die := ⟨k.offset, k.parent, k.level, k.code, k.tag, k.size.getD 0, k.attrs⟩

/-- What a `get_DIEs` that raises leaves behind. -/
def keptLeft (e : ElfFile) : Left := fun cu filter tab =>
  (walkDIEs ⟨formEnv e cu, e.unitData, .ok tab, filter⟩ cu).1.map fun p => (p.1, p.2.die)

end EspSize
