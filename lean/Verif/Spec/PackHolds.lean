import Verif.Spec.NpValues
import Verif.Spec.LazyNumber
/-!
# Specification: the values of the channels of a pack

Of the model only the types are used.
-/

namespace CP.Spec

/-- Text, or bytes, that ends with a NUL. -/
def EndsNul : Val → Prop
  | .str s => s.getLast? = some '\x00'
  | .bytes b => b.getLast? = some 0
  | _ => False

/-- The channels are `data` with the values of `vals`: the same keys in the same order, and for each key as many values, one by one
the same. -/
def ChannelsHold (vals : List (Int × List Val)) (data : List (Int × Arr)) : Prop :=
  data.map Prod.fst = vals.map Prod.fst ∧
    ∀ (i : Nat) (k : Int) (vs : List Val), vals[i]? = some (k, vs) → ∃ a, data[i]? = some (k, a) ∧ Each2 EqualValue vs a.els

/-- The value of a cell, by its type, as xlrd documents it: 0 and 6 nothing, 1 text, 2 a number, 3 a date as a number, 4 a boolean as an int,
5 an error as its code. -/
def CellTyped (t : Nat) (v : Val) : Prop :=
  match t with
  | 0 => v = .str []
  | 1 => ∃ s, v = .str s
  | 2 => Numeric v
  | 3 => Numeric v
  | 4 => ∃ i : Int, v = .int i
  | 5 => ∃ i : Int, v = .int i
  | 6 => v = .str []
  | _ => False

/-- Values of a column of cells that an array can hold: numbers and booleans, or text that does not end with a NUL, or with a date or nothing
among them. -/
def SheetColumn (vs : List Val) : Prop :=
  (∀ v ∈ vs, Numeric v ∨ ∃ b, v = .bool b) ∨ (∀ v ∈ vs, PlainText v) ∨ ∃ v ∈ vs, v = .none ∨ ∃ d ms, v = .datetime d ms

end CP.Spec
