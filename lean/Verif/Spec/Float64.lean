/-!
# Specification: binary64 and rounding to nearest

Written from IEEE 754, not from the model.
-/

namespace CP.Spec

/-- `x` is a number of binary64, or would be if its exponents had no upper limit: a multiple of a power
of two, from 2 ^ -1074 on, with a factor of at most 53 bits. -/
def IsDouble (x : Rat) : Prop := ∃ m e : Int, m.natAbs < 2 ^ 53 ∧ -1074 ≤ e ∧ x = (m : Rat) * 2 ^ e

/-- `y` is the number of binary64 nearest to `q`; of two as near it is the one that is an even multiple of
their distance (the one with an even significand). -/
def NearestDouble (y q : Rat) : Prop :=
  IsDouble y ∧ ∀ z, IsDouble z → (y - q).abs ≤ (z - q).abs ∧
    (z ≠ y → (y - q).abs = (z - q).abs → ∃ k : Int, y = 2 * (k : Rat) * (z - y))

end CP.Spec
