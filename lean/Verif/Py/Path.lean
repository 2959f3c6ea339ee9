import Verif.Py.Basic
/-! # `os.path` (POSIX) -/
namespace EspSize

/-- `os.path.basename`: what follows the last `/`. -/
def basename (p : Str) : Str := (p.reverse.takeWhile (· ≠ '/')).reverse

/-- `os.path.dirname`: what precedes the last `/`, without trailing slashes unless there is nothing else. -/
def dirname (p : Str) : Str :=
  let head := (p.reverse.dropWhile (· ≠ '/')).reverse
  if head.all (· = '/') then head else (head.reverse.dropWhile (· = '/')).reverse

/-- `os.path.join(a, b)`. -/
def pathJoin (a b : Str) : Str :=
  if startsWith b ['/'] then b
  else if a = [] ∨ endsWith a ['/'] then a ++ b
  else a ++ '/' :: b

/-- `os.path.splitext(p)[0]` for a name without `/`: everything before the last dot, unless only dots
precede it. -/
def splitextRoot (p : Str) : Str :=
  let pre := ((p.reverse.dropWhile (· ≠ '.')).drop 1).reverse
  if pre.any (· ≠ '.') then pre else p

end EspSize
