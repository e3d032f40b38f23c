import Verif.Spec.Dbf
/-!
# Where the records of a DBF file are looked for when columns are selected

A record that is marked deleted is passed over only up to the end of the last selected column.
-/

namespace CP.Spec

/-- Column `j` is selected; it is `off` bytes from the start of the record. -/
def SelColumn (cols : List DbfColumn) (sel : List (List Char)) (j : Nat) (c : DbfColumn) (off : Nat) : Prop :=
  cols[j]? = some c ∧ c.name ∈ sel ∧ off = 1 + ((cols.take j).map (·.size)).sum

/-- The end of the last selected column in the record; 1 (after the flag) without any. -/
def IsStop (cols : List DbfColumn) (sel : List (List Char)) (stop : Nat) : Prop :=
  1 ≤ stop ∧ (∀ j c off, SelColumn cols sel j c off → off + c.size ≤ stop) ∧
    (stop = 1 ∨ ∃ j c off, SelColumn cols sel j c off ∧ stop = off + c.size)

/-- The bytes of a record: a flag and the cells. -/
def wholeRecord (cols : List DbfColumn) : Nat := 1 + (cols.map (·.size)).sum

/-- `n` records are looked for from place `a` on; `places` are those that have a live record there: from a
live one the next one is a whole record away, from any other the distance `stop`. -/
inductive Visits (file : List UInt8) (stop whole : Nat) : Nat → Nat → List Nat → Prop
  | done {a} : Visits file stop whole a 0 []
  | live {a n places} : a + stop ≤ file.length → file[a]? = some 32 → Visits file stop whole (a + whole) n places →
      Visits file stop whole a (n + 1) (a :: places)
  | deleted {a n places b} : a + stop ≤ file.length → file[a]? = some b → b ≠ 32 →
      Visits file stop whole (a + stop) n places → Visits file stop whole a (n + 1) places

/-- The `n` bytes at a place. -/
def BytesAt (file : List UInt8) (place n : Nat) (raw : List UInt8) : Prop :=
  ∃ x y, file = x ++ raw ++ y ∧ x.length = place ∧ raw.length = n

end CP.Spec
