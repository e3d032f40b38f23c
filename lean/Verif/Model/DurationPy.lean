import Verif.Model.Duration
import Verif.Model.PyNum
/-!
# Model of `duration` in channelpack/pack.py with all numbers
-/

namespace CP

/-- Floats are rounded to the nearest, the other parameters as they are. -/
def doubleOps (P : PyOps) : PyOps := { P with rnd := f64Val }

/-- pack.py:345 `int(duration * samplerate)` for ints and floats, with infinities and NaN.  Other values (bools, numpy numbers,
text) are not modelled. -/
def requiredSamples (P : PyOps) (duration samplerate : Val) : Except Exc Int :=
  match pyArith (doubleOps P) 5 duration samplerate with
  | .error e => .error e
  | .ok v => pyInt v

/-- pack.py:324-358 `duration(duration, samplerate, mindur)`; the pack after it, and the exception if one is raised. -/
def Pack.durationPy (P : PyOps) (p : Pack) (duration samplerate : Val) (mindur : Bool) : Pack × Option Exc :=
  match requiredSamples P duration samplerate with
  | .error e => (p, some e)
  | .ok n => (p.duration n mindur, none)

end CP
