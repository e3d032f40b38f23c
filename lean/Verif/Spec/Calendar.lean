/-!
# Specification: the Gregorian calendar, by counting days
-/

namespace CP.Spec

structure Date where
  y : Int
  m : Int
  d : Int
  deriving DecidableEq, Repr

def IsLeap (y : Int) : Prop := y % 4 = 0 ∧ (y % 100 = 0 → y % 400 = 0)

instance (y : Int) : Decidable (IsLeap y) := inferInstanceAs (Decidable (_ ∧ _))

def monthLength (y m : Int) : Int :=
  if m = 2 then (if IsLeap y then 29 else 28)
  else if m = 4 ∨ m = 6 ∨ m = 9 ∨ m = 11 then 30
  else 31

def Date.Valid (t : Date) : Prop := 1 ≤ t.m ∧ t.m ≤ 12 ∧ 1 ≤ t.d ∧ t.d ≤ monthLength t.y t.m

instance (t : Date) : Decidable t.Valid := inferInstanceAs (Decidable (_ ∧ _ ∧ _ ∧ _))

/-- The next day. -/
def Date.next (t : Date) : Date :=
  if t.d < monthLength t.y t.m then ⟨t.y, t.m, t.d + 1⟩
  else if t.m < 12 then ⟨t.y, t.m + 1, 1⟩
  else ⟨t.y + 1, 1, 1⟩

/-- `n` days later. -/
def Date.addDays (t : Date) : Nat → Date
  | 0 => t
  | n + 1 => (t.addDays n).next

/-- Day 0 of the date systems, such that day 61 is 1900-03-01 in the 1900 system (Excel
takes 1900 for a leap year) and day 1 is 1904-01-02 in the 1904 system. -/
def dayZero (datemode : Int) : Date := if datemode = 0 then ⟨1899, 12, 30⟩ else ⟨1904, 1, 1⟩

/-- `n` is an integer nearest to `q`, the even one of two. -/
def NearestEven (n : Int) (q : Rat) : Prop :=
  (n : Rat) - q ≤ 1 / 2 ∧ q - n ≤ 1 / 2 ∧ ((n : Rat) - q = 1 / 2 ∨ q - n = 1 / 2 → n % 2 = 0)

end CP.Spec
