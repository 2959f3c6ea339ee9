import Verif.Py.Path
/-! # `os.path.abspath` (POSIX), used by `/repo/esp_idf_size/memorymap.py:200`

After `posixpath.normpath` and `posixpath.abspath` of the Python library, which are not in `/repo`. -/
namespace EspSize

/-- `s.split('/')`. -/
def splitSlash : Str → List Str
  | [] => [[]]
  | c :: s =>
    if c = '/' then [] :: splitSlash s
    else match splitSlash s with
      | [] => [[c]]
      | h :: t => (c :: h) :: t

/-- One component in the loop of `normpath`; `acc` is `new_comps`, last first. -/
def normStep (abs : Bool) (acc : List Str) (c : Str) : List Str :=
  if c = [] ∨ c = str "." then acc
  else if c ≠ str ".." ∨ (abs = false ∧ acc = []) ∨ acc.head? = some (str "..") then c :: acc
  else acc.drop 1

/-- `initial_slashes`: two slashes, but not three, are kept. -/
def slashes (p : Str) : Nat :=
  if startsWith p ['/'] then
    if startsWith p ['/', '/'] && !startsWith p ['/', '/', '/'] then 2 else 1
  else 0

/-- `os.path.normpath`. -/
def normpath (p : Str) : Str :=
  if p = [] then str "."
  else
    let comps := ((splitSlash p).foldl (normStep (slashes p ≠ 0)) []).reverse
    let r := List.replicate (slashes p) '/' ++ join ['/'] comps
    if r = [] then str "." else r

/-- `os.path.abspath`; `cwd` is `os.getcwd()`. -/
def abspath (cwd p : Str) : Str := normpath (if startsWith p ['/'] then p else pathJoin cwd p)

end EspSize
