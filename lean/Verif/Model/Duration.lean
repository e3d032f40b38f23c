import Verif.Model.Pack
import Verif.Model.Float64
/-!
# Model of `duration * samplerate` in channelpack/pack.py
-/

namespace CP

/-- A number in python: an int, or a finite float. -/
inductive Number where
  | int (i : Int)
  | float (q : Rat)
  deriving DecidableEq, Repr

/-- `float(x)` -/
def Number.toFloat : Number → Rat
  | .int i => f64 i
  | .float q => q

/-- pack.py:345 `duration * samplerate`: exact for two ints, else a product of floats.  Results beyond
the largest float (`int(inf)` raises OverflowError) are not modelled. -/
def Number.times : Number → Number → Rat
  | .int a, .int b => (a * b : Int)
  | x, y => f64 (x.toFloat * y.toFloat)

/-- pack.py:324-358 `duration(duration, samplerate, mindur)` -/
def Pack.durationOf (p : Pack) (duration samplerate : Number) (mindur : Bool) : Pack :=
  p.duration (duration.times samplerate) mindur

end CP
