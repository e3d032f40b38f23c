import Verif.Spec.Biff
/-!
# Shared string tables where records end anywhere in texts

As `SstIs` of Spec/Biff.lean, with limits only for the phonetic data.
-/

namespace CP.Spec

/-- One string of the table. -/
inductive AnyString : List UInt8 → List (List UInt8) → List Char → List UInt8 → List (List UInt8) → Prop
  | mk {t o rt sz head cur rest cur1 rest1 cur2 rest2 cur3 rest3} :
      StringHead 2 (textUnits t).length o rt sz head →
      SstUnits false (Wide o) (textUnits t).length cur rest (textUnits t) cur1 rest1 →
      SstRuns rt cur1 rest1 cur2 rest2 → SstSkip true sz cur2 rest2 cur3 rest3 →
      AnyString (head ++ cur) rest t cur3 rest3

/-- The strings from a place on. -/
inductive AnyStrings : List UInt8 → List (List UInt8) → List (List Char) → Prop
  | nil {cur rest} : AnyStrings cur rest []
  | cons {cur rest t cur' rest' ts} : AnyString cur rest t cur' rest' → AnyStrings cur' rest' ts → AnyStrings cur rest (t :: ts)
  | turn {next rest ts} : AnyStrings next rest ts → AnyStrings [] (next :: rest) ts

/-- The SST record and the CONTINUE records after it. -/
def AnySst (data : List UInt8) (conts : List (List UInt8)) (ts : List (List Char)) : Prop :=
  (∀ c ∈ conts, c ≠ []) ∧ ts.length < 2 ^ 31 ∧
    ∃ uses strings, data = leBytes 4 uses ++ leBytes 4 ts.length ++ strings ∧ (ts ≠ [] → strings ≠ []) ∧
      AnyStrings strings conts ts

end CP.Spec
