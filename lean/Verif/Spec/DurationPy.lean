import Verif.Model.Py
import Verif.Spec.Float64
/-!
# Specification: numbers and durations longer than a mask
-/

namespace CP.Spec

/-- `x` is a number of python: an int or a float, that may be infinite or NaN. -/
inductive PyNumber : Val → Prop
  | int (i : Int) : PyNumber (.int i)
  | flt {q : Rat} : IsDouble q → q.abs < 2 ^ 1024 → PyNumber (.flt q)
  | inf (s : Bool) : PyNumber (.inf s)
  | nan : PyNumber .nan

/-- `x` is a number, and at least `n`. -/
inductive NumberFrom (n : Rat) : Val → Prop
  | int {i : Int} : n ≤ i → NumberFrom n (.int i)
  | flt {q : Rat} : IsDouble q → q < 2 ^ 1024 → n ≤ q → NumberFrom n (.flt q)
  | inf : NumberFrom n (.inf false)

/-- The float of the finite number `x` is `d`; there is none for ints too large for a float. -/
inductive FiniteFloat : Val → Rat → Prop
  | int {i : Int} {d : Rat} : (i : Rat).abs < 2 ^ 1024 - 2 ^ 970 → NearestDouble d i → FiniteFloat (.int i) d
  | flt (q : Rat) : FiniteFloat (.flt q) q

/-- The product of `x` and `y` is not a number: one is NaN, or it is of an infinity and zero; an int beside them is not too
large for a float. -/
def NoProduct (x y : Val) : Prop :=
  (x = .nan ∨ y = .nan ∨ (∃ s, x = .inf s ∧ FiniteFloat y 0) ∨ (∃ s, y = .inf s ∧ FiniteFloat x 0)) ∧
  (∀ i : Int, x = .int i ∨ y = .int i → (i : Rat).abs < 2 ^ 1024 - 2 ^ 970)

end CP.Spec
