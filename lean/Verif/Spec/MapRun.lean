import Verif.Spec.TableRun
import Verif.Spec.MemTypes
import Verif.Spec.Cells
import Verif.Spec.Ops
/-! # The memory map of a whole run, and the reports that show it -/
namespace EspSize

/-- A build: the memory types of the target, its regions, the parts of the output sections and where they go. -/
structure Build where
  types : Dict Str MemTypeInfo
  regions : List SReg
  parts : List MSec
  goes : MSec → Option (Str × Str)

namespace Build

/-- The part goes to memory type `t`, under a name selected by `w`. -/
def sends (b : Build) (t : Str) (w : Str → Bool) (p : MSec) : Bool := (b.goes p).any fun x => decide (x.1 = t) && w x.2

/-- The memory type is shown: it is one of the target and something goes to it, or unused ones are shown. -/
def Lists (b : Build) (unused : Bool) (t : Str) : Prop :=
  IsAlias b.types t ∧ (unused = true ∨ ∃ p ∈ b.parts, b.sends t (fun _ => true) p = true)

/-- The parts shown as sections; those without archives only if unused ones are shown. -/
def sections (b : Build) (unused : Bool) : List MSec := (shownParts b.goes b.parts).filter fun p => unused || !p.archives.isEmpty

/-- The section `s` of memory type `t` is shown. -/
def HasSection (b : Build) (unused unify : Bool) (t s : Str) : Prop :=
  ∃ p ∈ b.sections unused, b.sends t (fun x => decide (secKey unify x = s)) p = true

/-- Size of section `s` of memory type `t`. -/
def sectionSize (b : Build) (unused unify : Bool) (t s : Str) : Int :=
  sumBy (fun p => p.size) ((b.sections unused).filter (b.sends t fun x => decide (secKey unify x = s)))

/-- Bytes used of a memory type. -/
def used (b : Build) (unused : Bool) (t : Str) : Int :=
  sumBy (fun p => p.size) ((if unused then b.parts else b.sections false).filter (b.sends t fun _ => true))

/-- Size of a memory type: all its regions, each counted once. -/
def capacity (b : Build) (t : Str) : Int := sumBy (fun r => r.length) (firstViews t [] b.regions)

/-- The archive `a` is shown in section `s` of memory type `t`. -/
def HasArchive (b : Build) (unused unify : Bool) (t s a : Str) : Prop :=
  ∃ p ∈ b.sections unused, b.sends t (fun x => decide (secKey unify x = s)) p = true ∧ ∃ x ∈ dkeys p.archives, archKey unify x = a

/-- Size of archive `a` in section `s` of memory type `t`. -/
def archiveSize (b : Build) (unify : Bool) (t s a : Str) : Int :=
  filesIn unify b.goes b.parts (fun x _ => decide (archKey unify x = a)) (.sec t s)

end Build

/-- The name contains `flash`, in any case. -/
def NamesFlash (t : Str) : Prop := str "flash" <:+: lower t

/-- `z` is the size shown for memory type `t` of build `b`: 0 if it is not listed, or if it is flash memory and its size is
ignored. -/
def SizeShown (b : Build) (unused ignore : Bool) (t : Str) (z : Int) : Prop :=
  (b.Lists unused t → ¬ (ignore = true ∧ NamesFlash t) → z = b.capacity t) ∧
  (¬ b.Lists unused t ∨ (ignore = true ∧ NamesFlash t) → z = 0)

/-- The difference to the other build, if there is one. -/
def changeTo (ref : Option Build) (f : Build → Int) (cur : Build) : Int :=
  match ref with
  | none => 0
  | some r => f cur - f r

/-- The map that is shown for a build, compared with another one. -/
structure MapOf (args : Args) (cur : Build) (ref : Option Build) (d : MemMap) : Prop where
  wf : d.WF
  types : ∀ t, (getType d t).isSome = true ↔ cur.Lists args.showUnused t ∨ ∃ r, ref = some r ∧ r.Lists args.showUnused t
  used : ∀ t x, getType d t = some x → x.used = cur.used args.showUnused t ∧
    x.usedDiff = changeTo ref (fun b => b.used args.showUnused t) cur
  size : ∀ t x, getType d t = some x → SizeShown cur args.showUnused (!args.useFlashSize) t x.size ∧
    (ref = none → x.sizeDiff = 0) ∧ ∀ r, ref = some r → SizeShown r args.showUnused false t (x.size - x.sizeDiff)
  sections : ∀ t s, (getSec d t s).isSome = true ↔ cur.HasSection args.showUnused args.unify t s ∨
    ∃ r, ref = some r ∧ r.HasSection args.showUnused args.unify t s
  section_ : ∀ t s x, getSec d t s = some x → x.abb = (if args.unify then s else abbrevSec s) ∧
    x.size = cur.sectionSize args.showUnused args.unify t s ∧
    x.sizeDiff = changeTo ref (fun b => b.sectionSize args.showUnused args.unify t s) cur
  archive : ∀ t s a x, getArch d t s a = some x → x.abb = (if args.unify then a else basename a) ∧
    x.size = cur.archiveSize args.unify t s a ∧ x.sizeDiff = changeTo ref (fun b => b.archiveSize args.unify t s a) cur
  archives : ∀ t s a, (getArch d t s a).isSome = true ↔ cur.HasArchive args.showUnused args.unify t s a ∨
    ∃ r, ref = some r ∧ r.HasArchive args.showUnused args.unify t s a
  content : ref = none → args.unify = false → ∀ t s x, getSec d t s = some x ↔
    ∃ p ∈ cur.sections args.showUnused, cur.goes p = some (t, s) ∧ x = secEntry s p

/-- What the tree and the summary leave out. -/
structure TrimmedTo (args : Args) (m k : MemMap) : Prop where
  types : ∀ t, (getType k t).isSome = true ↔ KeptT args m t
  secs : ∀ t s, (getSec k t s).isSome = true ↔ KeptS args m t s
  archs : ∀ t s a, (getArch k t s a).isSome = true ↔ KeptA args m t s a
  objs : ∀ t s a o, (getObj k t s a o).isSome = true ↔ KeptO args m t s a o
  syms : ∀ t s a o y, (getSym k t s a o y).isSome = true ↔ KeptY args m t s a o y
  type_ : ∀ t x', getType k t = some x' → ∃ x, getType m t = some x ∧ x'.size = x.size ∧ x'.sizeDiff = x.sizeDiff ∧
    x'.used = x.used ∧ x'.usedDiff = x.usedDiff
  sec : ∀ t s x', getSec k t s = some x' → ∃ x, getSec m t s = some x ∧ x'.abb = x.abb ∧ x'.size = x.size ∧ x'.sizeDiff = x.sizeDiff
  arch : ∀ t s a x', getArch k t s a = some x' → ∃ x, getArch m t s a = some x ∧ x'.abb = x.abb ∧ x'.size = x.size ∧
    x'.sizeDiff = x.sizeDiff
  obj : ∀ t s a o x', getObj k t s a o = some x' → ∃ x, getObj m t s a o = some x ∧ x'.abb = x.abb ∧ x'.size = x.size ∧
    x'.sizeDiff = x.sizeDiff
  sym : ∀ t s a o y x, getSym k t s a o y = some x → getSym m t s a o y = some x
  order : (dkeys k.memoryTypes).Sublist (dkeys m.memoryTypes)
  secOrder : ∀ t x' x, getType k t = some x' → getType m t = some x → (dkeys x'.sections).Sublist (dkeys x.sections)

/-- The rows of the summary of the map `k`. -/
def SummaryRows (F : FloatOps) (args : Args) (k : MemMap) (tab : Table) : Prop :=
  ∃ i ts blocks, Selects (str "Memory Type/Section") sumColTitles args.sort i ∧
    tab = { headers := summaryHeaders, rows := List.flatten blocks } ∧
    StableSort (fun t : Str × MType => truncRat (typeValue F args.sortDiff i t.2)) args.sortReverse k.memoryTypes ts ∧
    All2 (fun t b => ∃ r rs ss, b = r :: rs ∧ RowShows t.1 (typeCells F (truthy args.diff) t.2) r ∧
      StableSort (fun s : Str × Sec => truncRat (secValue F args.sortDiff i t.2 s.2)) args.sortReverse t.2.sections ss ∧
      All2 (fun s row => RowShows (str "   " ++ if abbreviates args then s.2.abb else s.1)
        (sectionCells F (truthy args.diff) t.2 s.2) row) ss rs)
      ts blocks

/-- No listing is requested. -/
def NoListing (args : Args) : Prop :=
  args.archives = false ∧ truthy args.archiveDetails = false ∧ args.files = false ∧ args.archiveDependencies = false

/-- One memory type in the JSON summary; the names of its sections are distinct. -/
def LayoutOf (args : Args) (t : Str × MType) (l : Layout) : Prop :=
  l.name = t.1 ∧ l.total = t.2.size ∧ l.used = t.2.used ∧ l.free = (if t.2.size = 0 then 0 else t.2.size - t.2.used) ∧
  l.parts.Perm (t.2.sections.map fun s => (if abbreviates args then s.2.abb else s.1, s.2.size))

/-- The report shows the map `d`. -/
structure ReportsMap (F : FloatOps) (args : Args) (d : MemMap) (rep : Report) : Prop where
  raw : args.format = str "raw" → args.archiveDependencies = false → rep = .raw d
  tree : args.format = str "tree" → args.archiveDependencies = false →
    ∃ k e, TrimmedTo args d k ∧ MapSorted args.sortDiff args.sortReverse k e ∧ rep = .tree e
  table : args.format = str "table" ∨ args.format = str "text" → NoListing args →
    ∃ k tab, TrimmedTo args d k ∧ rep = .table tab ∧ SummaryRows F args k tab
  csv : args.format = str "csv" → NoListing args →
    ∃ k tab, TrimmedTo args d k ∧ rep = .csv (csvLines tab) ∧ SummaryRows F args k tab
  json : args.format = str "json2" → NoListing args → ∃ J, rep = .summary J ∧ J.totalSize = d.imageSize ∧
    ((∀ t ∈ d.memoryTypes, (t.2.sections.map fun s => if abbreviates args then s.2.abb else s.1).Nodup) →
      ∃ ts, StableSort (fun t : Str × MType => if args.sortDiff then t.2.usedDiff else t.2.used) args.sortReverse d.memoryTypes ts ∧
        All2 (LayoutOf args) ts J.layout)

end EspSize
