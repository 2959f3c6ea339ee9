import Verif.Model.Get
/-! # What `memorymap.get` does to the `MapFile` object it is given

`/repo/esp_idf_size/memorymap.py:222-278`.  The dictionaries of `map_file.sections` are changed in place: the input sections are
replaced by `_expand_input_sections` (`memorymap.py:1426`), and in the output sections that are kept those without size are
removed (`memorymap.py:971`).  The keys `symbols`, `abbrev_name` and `archives`, which each call writes before it reads them
(`memorymap.py:274-278,1110,1130,1275-1276`), are left out.  An input section without address or size is given 0 for it. -/
namespace EspSize

/-- The input section as an entry of `map_file.sections`. -/
def ofISec (i : ISec) : PSec :=
  { name := i.name, address := some i.address, size := some i.size, fill := i.fill, archive := i.archive,
    objectFile := i.objectFile }

/-- `map_file.sections` with new input sections. -/
def usedMap (mf : MapFile) (secs : List OSec) : MapFile :=
  { mf with sections := List.zipWith (fun p o => { p with inputs := o.inputs.map ofISec }) mf.sections secs }

/-- `section['input_sections'] = [...]` for a section that is kept, `memorymap.py:929-972`. -/
def dropEmpty (hdrs : Option (Dict Str Shdr)) (s : OSec) : OSec :=
  if keepSection hdrs s then { s with inputs := s.inputs.filter (·.size ≠ 0) } else s

/-- The sections after `_expand_input_sections`, `memorymap.py:200-240`, if the call gets there. -/
def expandedOf (w : World) (fn : Str) (ud : Option Bool) (mf : MapFile) : Except Err (Option ElfData × List OSec) := do
  let desc := getProjDesc w fn
  let _ ← descTarget desc
  warnInvalid mf
  let elf ← getElf w fn desc
  let secs ← dwarfSections (wantDwarf w fn ud) desc elf (mf.sections.map toOSec)
  .ok (elf, secs)

/-- The object after a call of `get` that ended, `memorymap.py:200-291`. -/
def afterGet (n : Nat) (w : World) (fn : Str) (ud : Option Bool) (mf : MapFile) : MapFile :=
  match expandedOf w fn ud mf with
  | .error _ => mf
  | .ok (elf, secs) =>
    match load w fn ud (some mf) with
    | .error _ => usedMap mf secs
    | .ok l =>
      match splitMemoryRegions n l.types (filterMemoryRegions l.regions) [] [] with
      | none => usedMap mf secs
      | some _ => usedMap mf (secs.map (dropEmpty (elfHeaders (elf.map (·.shdrs)))))

/-- The object after `k` calls. -/
def afterGets (n : Nat) (w : World) (fn : Str) (ud : Option Bool) (mf : MapFile) : Nat → MapFile
  | 0 => mf
  | k + 1 => afterGet n w fn ud (afterGets n w fn ud mf k)

end EspSize
