/-!
# The floating-point steps of `NodeDate.to_markdown` (nodes/node_date.py:43-48)

    sec = int(self.attrs.timestamp) / 1000
    return str(datetime.fromtimestamp(sec, tz=timezone.utc).date())

The division of two ints is correctly rounded to a double (CPython `long_true_divide`), and
`fromtimestamp` splits the double into whole seconds and microseconds (CPython Python/pytime.c
`_PyTime_DoubleToDenominator`, and the same steps in Lib/datetime.py `_fromtimestamp`):

    frac, t = math.modf(t)
    us = round(frac * 1e6)
    if us >= 1000000: t += 1; us -= 1000000
    elif us < 0:      t -= 1; us += 1000000

A double is modelled by the rational number it denotes.  Simplified: the exponent range is unbounded
(results beyond the largest double raise OverflowError in Python; such instants are far outside the
years 1..9999 and raise in the model as well; values in the subnormal range do not occur).
-/

namespace Verif
namespace Flt

/-- The exponent of `x ≠ 0`: `2 ^ e ≤ |x| < 2 ^ (e + 1)`. -/
def ilog2 (x : Rat) : Int :=
  let k : Int := (Nat.log2 x.num.natAbs : Int) - (Nat.log2 x.den : Int)
  if (2 : Rat) ^ k ≤ (if x < 0 then -x else x) then k else k - 1

/-- The nearest integer, ties to even (`round(x)`, nodes/node_date.py:48 inside `fromtimestamp`). -/
def roundEven (x : Rat) : Int :=
  let f := x.floor
  let r := x - f
  if r < 1 / 2 then f
  else if 1 / 2 < r then f + 1
  else if f % 2 = 0 then f else f + 1

/-- The nearest number with 53 significant bits, ties to even: IEEE 754 rounding of every double
operation (nodes/node_date.py:47 `/ 1000`). -/
def rnd (x : Rat) : Rat :=
  if x = 0 then 0
  else
    let e := ilog2 x - 52
    (roundEven (x / (2 : Rat) ^ e) : Rat) * (2 : Rat) ^ e

/-- The integer part, towards zero (`math.modf`). -/
def trunc (x : Rat) : Int := if x < 0 then -(-x).floor else x.floor

/-- The whole seconds `fromtimestamp(sec)` hands to `gmtime` (nodes/node_date.py:48). -/
def wholeSeconds (sec : Rat) : Int :=
  let t := trunc sec
  let us := roundEven (rnd ((sec - t) * 1000000))
  if 1000000 ≤ us then t + 1
  else if us < 0 then t - 1
  else t

end Flt
end Verif
