import Verif.Py.Abspath
/-! # `pathlib.PurePosixPath`, used by `/repo/esp_idf_size/memorymap.py:1327-1337,1374,1406`

After the Python library, which is not in `/repo`. -/
namespace EspSize

/-- The names in a path: `PurePosixPath(p).parts` without the root.  Empty parts and `.` are dropped, `..` is kept. -/
def pathParts (p : Str) : List Str := (splitSlash p).filter fun c => decide (c ≠ [] ∧ c ≠ str ".")

/-- The text of the path with `r` slashes at the beginning and these names. -/
def pathText (r : Nat) (cs : List Str) : Str :=
  let t := List.replicate r '/' ++ join ['/'] cs
  if t = [] then str "." else t

/-- `Path(p).as_posix()`; the root is that of `posixpath`. -/
def asPosix (p : Str) : Str := pathText (slashes p) (pathParts p)

/-- `Path(p).name`. -/
def pathName (p : Str) : Str := (pathParts p).getLast?.getD []

/-- `Path(file).relative_to(build).as_posix()`. -/
def relativeTo (file build : Str) : Except Err Str :=
  if slashes file = slashes build ∧ (pathParts build).isPrefixOf (pathParts file) = true then
    .ok (pathText 0 ((pathParts file).drop (pathParts build).length))
  else .error .valueError

end EspSize
