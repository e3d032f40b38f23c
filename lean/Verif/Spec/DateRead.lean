import Verif.Spec.Calendar
import Verif.Model.Py
/-!
# Dates read from the number of a cell

What `datetime` a number in a cell of type date stands for, and which numbers stand for none.
-/

namespace CP.Spec

/-- `d` is the whole part of `x`, towards zero. -/
def WholePart (x : Rat) (d : Int) : Prop :=
  (0 ≤ x → (d : Rat) ≤ x ∧ x < d + 1) ∧ (x < 0 → x ≤ d ∧ (d : Rat) < x + 1)

/-- Days from 1899-12-30 to the day 0 of a number: in the system of 1904 day 0 is 1904-01-01; in the
system of 1900 it is 1899-12-31 for numbers below 60 and 1899-12-30 from there (the leap day 1900-02-29
that never was). -/
def dayShift (datemode : Int) (x : Rat) : Int := if datemode ≠ 0 then 1462 else if x < 60 then 1 else 0

/-- `T`: milliseconds from 1899-12-30 00:00 to the instant of the number `x`.  `mul` is the
multiplication of the fraction of the day by the milliseconds of a day. -/
def InstantOf (mul : Rat → Rat) (datemode : Int) (x : Rat) (T : Int) : Prop :=
  ∃ d n, WholePart x d ∧ NearestEven n (mul (x - d)) ∧ T = (dayShift datemode x + d) * 86400000 + n

/-- The instants from 0001-01-01 00:00 until 10000-01-01: 0001-01-01 is 693593 days before
1899-12-30, and 10000-01-01 is 2958466 days after. -/
def InYears (T : Int) : Prop := -693593 * 86400000 ≤ T ∧ T < 2958466 * 86400000

/-- The value as a number. -/
def CellNumber (v : Val) (x : Rat) : Prop := v = .flt x ∨ ∃ i : Int, v = .int i ∧ x = i

/-- The value of a cell stands for an instant of the years 1 to 9999. -/
def StandsForDate (mul : Rat → Rat) (datemode : Int) (v : Val) : Prop :=
  ∃ x T, CellNumber v x ∧ InstantOf mul datemode x T ∧ InYears T

/-- What is raised for the value of a cell that stands for no date. -/
inductive NoDate (mul : Rat → Rat) (datemode : Int) : Val → Exc → Prop
  | nan : NoDate mul datemode .nan .valueError
  | inf (neg : Bool) : NoDate mul datemode (.inf neg) .overflowError
  | years (v : Val) (x : Rat) (T : Int) : CellNumber v x → InstantOf mul datemode x T → ¬ InYears T →
      NoDate mul datemode v .overflowError

end CP.Spec
