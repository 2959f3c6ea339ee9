import Verif.Py.Fmt
/-!
# Floating point numbers

Division of integers, products and differences of floats are correctly rounded to 53 significant bits, ties to even (CPython
`long_true_divide`, IEEE 754 double).  The exponent is not bounded: overflow and subnormal numbers are not modelled.  `round(x, 2)` is
the nearest multiple of 1/100 of the exact value of `x`, ties to even (`double_round` with `_Py_dg_dtoa`, mode 3), turned into the
nearest float.  The shortest text that is read as this float, which `f'{..}'` prints, is the multiple of 1/100 itself, since texts of at
most 15 digits denote different floats; numbers of `1e13` and more are not modelled.
-/
namespace EspSize

/-- The nearest integer, ties to even. -/
def roundEven (q : Rat) : Int :=
  let r := q - (q.floor : Rat)
  if r < 1 / 2 then q.floor else if 1 / 2 < r then q.floor + 1 else if q.floor % 2 = 0 then q.floor else q.floor + 1

/-- The absolute value. -/
def mag (q : Rat) : Rat := if q < 0 then -q else q

/-- `2 ** e`. -/
def p2 (e : Int) : Rat := (2 : Rat) ^ e

/-- The exponent: `2 ** e <= |q| < 2 ** (e + 1)`. -/
def expo (q : Rat) : Int :=
  let k : Int := (q.num.natAbs.log2 : Int) - q.den.log2
  if p2 k ≤ mag q then k else k - 1

/-- The nearest number with 53 significant bits, ties to even. -/
def rnd53 (q : Rat) : Rat := if q = 0 then 0 else (roundEven (q * p2 (52 - expo q)) : Rat) * p2 (expo q - 52)

/-- The number of hundredths of `round(x, 2)`. -/
def centi (x : Rat) : Int := roundEven (x * 100)

/-- A number of hundredths, without trailing zeros, but with one digit behind the point. -/
def centiStr (n : Nat) : Str :=
  intStr (n / 100 : Nat) ++ '.' :: (if n % 10 = 0 then intStr (n / 10 % 10 : Nat) else intStr (n / 10 % 10 : Nat) ++ intStr (n % 10 : Nat))

/-- `f'{round(x, 2)}'`; numbers that are rounded to zero keep their sign. -/
def show2 (x : Rat) : Str := if x < 0 then '-' :: centiStr (centi x).natAbs else centiStr (centi x).natAbs

/-- `f'{round(x, 2):+6}'`. -/
def plus2 (x : Rat) : Str := padLeft 6 (if x < 0 then show2 x else '+' :: show2 x)

/-- `f'{round(x, 2):6}'`. -/
def pad2 (x : Rat) : Str := padLeft 6 (show2 x)

/-- `round(x, 2)`. -/
def round2 (x : Rat) : Rat := rnd53 ((centi x : Rat) / 100)

end EspSize
