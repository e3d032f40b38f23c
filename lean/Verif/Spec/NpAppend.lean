import Verif.Spec.PackHolds
/-!
# Specification: arrays that can be joined
-/

namespace CP.Spec

/-- The items of arrays by their type. -/
def HasKind : Kind → Val → Prop
  | .b, v => ∃ b, v = .bool b
  | .i, v => ∃ i : Int, v = .int i ∧ -2 ^ 63 ≤ i ∧ i < 2 ^ 63
  | .u, v => ∃ i : Int, v = .int i ∧ 0 ≤ i ∧ i < 2 ^ 64
  | .f, v => Numeric v
  | .U, v => PlainText v
  | .S, v => PlainBytes v
  | .O, _ => True
  | _, _ => False

/-- An array of booleans, ints, floats, text, bytes or objects. -/
def ArrayOf (a : Arr) : Prop := a.kind ∈ [Kind.b, .i, .u, .f, .U, .S, .O] ∧ ∀ v ∈ a.els, HasKind a.kind v

/-- A type of numbers. -/
def NumberKind (k : Kind) : Prop := k = .b ∨ k = .i ∨ k = .u ∨ k = .f

/-- Two types of numbers whose values go to an array of floats. -/
def JoinFloat (k l : Kind) : Prop := k = .f ∨ l = .f ∨ (k = .i ∧ l = .u) ∨ (k = .u ∧ l = .i)

/-- The values of `a` stay what they are in an array that has those of `b` as well: there are none, or they are text, or bytes and `b` is
not text, or both are numbers and the ints of `a` need not be rounded. -/
def Stays (a b : Arr) : Prop :=
  a.els = [] ∨ a.kind = .U ∨ (a.kind = .S ∧ b.kind ≠ .U) ∨
  (NumberKind a.kind ∧ NumberKind b.kind ∧ (JoinFloat a.kind b.kind → ∀ i : Int, .int i ∈ a.els → IsDouble i))

/-- Arrays that can be joined without a change of a value. -/
def Joinable (a b : Arr) : Prop := a.kind = b.kind ∨ a.kind = .O ∨ b.kind = .O ∨ (Stays a b ∧ Stays b a)

end CP.Spec
