import Verif.Spec.Float64
import Verif.Spec.Dbf
/-!
# Specification: values that an array holds
-/

namespace CP.Spec

/-- The finite number that a value is. -/
def valNumber : Val → Option Rat
  | .bool b => some (if b then 1 else 0)
  | .int i => some i
  | .flt q => some q
  | _ => none

/-- `w` is the value `v`: the same, or an equal number (as `==` has it, but NaN is NaN). -/
def EqualValue (v w : Val) : Prop := v = w ∨ ∃ q, valNumber v = some q ∧ valNumber w = some q

/-- A number of a type of numpy: a bool, an int of 64 bits, a float. -/
inductive NpNumber : Val → Prop
  | bool (b : Bool) : NpNumber (.bool b)
  | int {i : Int} : -2 ^ 63 ≤ i → i < 2 ^ 64 → NpNumber (.int i)
  | flt (q : Rat) : NpNumber (.flt q)
  | nan : NpNumber .nan
  | inf (s : Bool) : NpNumber (.inf s)

/-- Text that does not end with a NUL. -/
def PlainText (v : Val) : Prop := ∃ s, v = .str s ∧ s.getLast? ≠ some '\x00'

/-- Bytes that do not end with a NUL. -/
def PlainBytes (v : Val) : Prop := ∃ b, v = .bytes b ∧ b.getLast? ≠ some 0

/-- Neither a number of numpy nor text: an object. -/
def IsObject (v : Val) : Prop := ¬ NpNumber v ∧ (∀ s, v ≠ .str s) ∧ ∀ b, v ≠ .bytes b

/-- The numbers share no type of integers: there is a float among them, or an int from 2 ^ 63 on and another that is below. -/
def NeedFloat (vals : List Val) : Prop :=
  (∃ v ∈ vals, v = .nan ∨ (∃ s, v = .inf s) ∨ ∃ q, v = .flt q) ∨
  ∃ i j : Int, .int i ∈ vals ∧ .int j ∈ vals ∧ i < 2 ^ 63 ∧ 2 ^ 63 ≤ j

/-- Values that can share an array without a change. -/
def Compatible (vals : List Val) : Prop :=
  (∃ v ∈ vals, IsObject v) ∨ (∀ v ∈ vals, PlainText v) ∨ (∀ v ∈ vals, PlainBytes v) ∨
  ((∀ v ∈ vals, NpNumber v) ∧ (NeedFloat vals → ∀ i : Int, .int i ∈ vals → IsDouble i))

end CP.Spec
