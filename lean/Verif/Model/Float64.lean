import Verif.Model.Py
/-!
# Model of floating point numbers: IEEE 754 binary64, as python and numpy compute with them

Not code of channelpack: the arithmetic of CPython floats and of numpy float64 that the code uses.  An
operation on finite floats gives the float nearest to the exact result, of two as near the one
with an even significand (IEEE 754, round to nearest).  `Lemmas/Float64.lean` shows that `f64` meets
`Spec/Float64.lean`, which says this without it.  Signs of zeros are not modelled.
-/

namespace CP

/-- `round(x)` of a float in Python 3: to the nearest integer, halves to even (xlrd/xldate.py:99, 156). -/
def roundHalfEven (q : Rat) : Int :=
  let r := q - q.floor
  if r < 1 / 2 then q.floor
  else if 1 / 2 < r then q.floor + 1
  else if q.floor % 2 = 0 then q.floor else q.floor + 1

/-- The exponent of the largest power of two that is at most `q`, for positive `q`. -/
def log2Rat (q : Rat) : Int :=
  let l : Int := (q.num.natAbs.log2 : Int) - (q.den.log2 : Int)
  if (2 : Rat) ^ l ≤ q then l else l - 1

/-- The exponent of the last of the 53 binary digits of `q`; the smallest float is 2 ^ -1074. -/
def ulpExp (q : Rat) : Int := max (log2Rat q.abs - 52) (-1074)

/-- The float nearest to `q`, if it is not too large. -/
def f64 (q : Rat) : Rat := if q = 0 then 0 else (roundHalfEven (q / 2 ^ ulpExp q) : Rat) * 2 ^ ulpExp q

/-- The float nearest to `q`, or an infinity. -/
def f64Val (q : Rat) : Val :=
  if (2 : Rat) ^ 1024 - 2 ^ 970 ≤ q.abs then .inf (decide (q < 0)) else .flt (f64 q)

end CP
