import Verif.Stopwatch.Model
/-!
# Model of `double` and of `Stopwatch::elapsed_seconds` (stopwatch.hpp:54)

A finite `double` is a number `k * 2^j` with `|k| < 2^53`. The results of conversions from integers, of products and of quotients are rounded
to the nearest such number, and to the one with the even `k` if two are equally near (IEEE 754, the default mode). The precision is a parameter
`p` (53 for `double`). The bounds of the exponent are not modelled: the numbers of seconds that occur are zero or between
`2^-64` and `2^127` in size, far from the ends of the range.
-/
namespace Helper.Double

/-- The `e` with `2^e ≤ x < 2^(e+1)`, for `x > 0`. -/
def expo (x : Rat) : Int :=
  let e : Int := (x.num.toNat.log2 : Int) - (x.den.log2 : Int)
  if (2 : Rat) ^ e ≤ x then e else e - 1

/-- The nearest integer, the even one if there are two. -/
def nearestInt (x : Rat) : Int :=
  let f := x.floor
  if x - f < 1 / 2 then f else if 1 / 2 < x - f then f + 1 else if f % 2 = 0 then f else f + 1

/-- The distance of neighbours near `x > 0`. -/
def ulp (p : Nat) (x : Rat) : Rat := (2 : Rat) ^ (expo x + 1 - (p : Int))

/-- Rounding of a positive number: a multiple of `ulp`. -/
def roundPos (p : Nat) (x : Rat) : Rat := (nearestInt (x / ulp p x) : Rat) * ulp p x

/-- Rounding to nearest. -/
def round (p : Nat) (x : Rat) : Rat :=
  if x = 0 then 0 else if x < 0 then -roundPos p (-x) else roundPos p x

/-- `duration_cast<duration<double>>` of the count `q` of a duration with period `num/den` seconds ([time.duration.cast]): the factors that are 1 are left out. -/
def castSeconds (p num den : Nat) (q : Int) : Rat :=
  let c := round p q
  if num = 1 then
    if den = 1 then c else round p (c / round p den)
  else
    if den = 1 then round p (c * round p num) else round p (round p (c * round p num) / round p den)

open Stopwatch in
/-- stopwatch.hpp:54 `elapsed_seconds()` for a unit of `num/den` seconds, which is `u` nanoseconds. -/
def elapsed (p num den u : Nat) (s : St) : Res Rat := (duration u s).bind fun q => .ok (castSeconds p num den q)

end Helper.Double
