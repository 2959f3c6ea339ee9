import Verif.Model.KeptDies
/-! # Entries an exception leaves behind -/
namespace EspSize

/-- An entry that was read to its end. -/
def finished (x : Die) : KeptDie := ⟨x.offset, x.parent, x.level, x.code, x.tag, some x.size, x.attrs⟩

/-- An entry that is being read, if its tag is wanted. -/
def opened (filter : Option (List Nat)) (x : KeptDie) : List KeptDie := if wanted filter x.tag then [x] else []

/-- Siblings from one offset to another, each read to its end, none of them null; their entries. -/
inductive Siblings (V : DieEnv) (parent level : Nat) : Nat → Nat → List Die → Prop
  | nil {off : Nat} : Siblings V parent level off off []
  | cons {off o : Nat} {r : DieRes} {ds : List Die} : getDie V off (some parent) level = .ok r → r.code ≠ 0 →
      Siblings V parent level r.next o ds → Siblings V parent level off o (r.dies ++ ds)

/-- Reading the entry at an offset raises, and this is what was put in the dictionary: nothing before the tag is known;
the entry without a size if its abbreviation has another code, with the attributes before the one that raises, or with all of
them if one of its children raises; then also the siblings before that child, and what that child put there. -/
inductive Stopped (V : DieEnv) : Nat → Option Nat → Nat → List KeptDie → Err → Prop
  | code {off level : Nat} {parent : Option Nat} {x : Err} : getUleb128 V.d off = .error x → Stopped V off parent level [] x
  | table {off level code o1 : Nat} {parent : Option Nat} {x : Err} : getUleb128 V.d off = .ok (code, o1) → code ≠ 0 → V.tab = .error x →
      Stopped V off parent level [] x
  | missing {off level code o1 : Nat} {parent : Option Nat} {t : List AbbrevEntry} : getUleb128 V.d off = .ok (code, o1) → code ≠ 0 →
      V.tab = .ok t → t.length < code → Stopped V off parent level [] .indexError
  | other {off level code o1 : Nat} {parent : Option Nat} {t : List AbbrevEntry} {e : AbbrevEntry} : getUleb128 V.d off = .ok (code, o1) →
      code ≠ 0 → V.tab = .ok t → t[code - 1]? = some e → e.code ≠ code →
      Stopped V off parent level (opened V.filter ⟨off, parent, level, code, e.tag, none, []⟩) .assertion
  | attr {off level code o1 o2 : Nat} {parent : Option Nat} {e : AbbrevEntry} {as rest : List AbbrevAttr} {a : AbbrevAttr}
      {attrs : Dict Nat DAttr} {x : Err} : getUleb128 V.d off = .ok (code, o1) → code ≠ 0 → abbrevOf V code = .ok e →
      e.attrs = as ++ a :: rest → (∀ b ∈ as, b.attr ≠ 0) → a.attr ≠ 0 → dieAttrs V.E V.d as o1 [] = .ok (attrs, o2) →
      dattrAt V.E a V.d o2 = .error x → Stopped V off parent level (opened V.filter ⟨off, parent, level, code, e.tag, none, attrs⟩) x
  | child {off level code o1 o2 o3 : Nat} {parent : Option Nat} {e : AbbrevEntry} {attrs : Dict Nat DAttr} {ds : List Die}
      {ks : List KeptDie} {x : Err} : getUleb128 V.d off = .ok (code, o1) → code ≠ 0 → abbrevOf V code = .ok e →
      dieAttrs V.E V.d e.attrs o1 [] = .ok (attrs, o2) → e.children ≠ 0 → Siblings V off (level + 1) o2 o3 ds →
      Stopped V o3 (some off) (level + 1) ks x →
      Stopped V off parent level (opened V.filter ⟨off, parent, level, code, e.tag, none, attrs⟩ ++ (ds.map finished ++ ks)) x

/-- Each entry is the parent of the next one. -/
def Nested : List KeptDie → Prop
  | x :: y :: t => y.parent = some x.offset ∧ y.level = x.level + 1 ∧ Nested (y :: t)
  | _ => True

end EspSize
