import Verif.Model.NpArray
/-!
# Model of `np.append` of arrays of different types, as channelpack/pack.py calls it (pack.py:297)

Not code of channelpack: numpy joins the arrays in one of their common type, for booleans, ints, floats, bytes, text and objects.
-/

namespace CP

/-- An item of an array put in one of another type.  Bytes that are not ASCII can not be made text, numpy raises UnicodeDecodeError then; here
None is found. -/
def npCast (ft : Rat → List Char) (k : Kind) (v : Val) : Val :=
  match npItem ft k v with
  | .ok w => w
  | .error _ => .none

/-- What numpy does in `np.append` (pack.py:297). -/
def numpyEnv (ft : Rat → List Char) : NpEnv where
  promote a b := some (npPromote a b)
  cast := npCast ft

end CP
