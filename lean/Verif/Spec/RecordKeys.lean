import Verif.Spec.Lookup
/-!
# Records by the keys of their channels
-/

namespace CP.Spec

/-- Rows and columns: the columns are the values for the keys, cut off at the shortest. -/
structure RowsOf (call : Int → List Val → Prop) (keys : List Int) (rows : List (List Val)) : Prop where
  cell : ∀ (i : Nat) row, rows[i]? = some row → row.length = keys.length ∧
    ∀ (j : Nat) k, keys[j]? = some k → ∃ vals, call k vals ∧ row[j]? = vals[i]?
  column : ∀ k ∈ keys, ∃ vals, call k vals ∧ rows.length ≤ vals.length
  shortest : keys ≠ [] → ∃ k ∈ keys, ∃ vals, call k vals ∧ rows.length = vals.length
  empty : keys = [] → rows = []

/-- The keys in ascending order with the fields of the records: the names, or the prefix and the key. -/
def RecordFields (isKey : Int → Prop) (field : Int → List Char → Prop) (keys : List Int) (fields : List (List Char)) : Prop :=
  keys.Pairwise (· < ·) ∧ (∀ k, k ∈ keys ↔ isKey k) ∧ fields.length = keys.length ∧
    ∀ (j : Nat) k s, keys[j]? = some k → fields[j]? = some s → field k s

end CP.Spec
