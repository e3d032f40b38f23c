import Verif.Spec.PackHolds
import Verif.Spec.Float64
/-!
# Specification: what a value becomes in a channel
-/

namespace CP.Spec

/-- All integers and floats of numpy, and they share no type of integers: they are made floats. -/
def Rounds (vals : List Val) : Prop := (∀ v ∈ vals, NpNumber v) ∧ NeedFloat vals

/-- What the value `v` becomes in an array with the values `vals`: text loses the NULs at its end,
an integer may be rounded to the nearest float. -/
def Becomes (vals : List Val) (v w : Val) : Prop :=
  match v with
  | .str s => ∃ t n, s = t ++ List.replicate n '\x00' ∧ t.getLast? ≠ some '\x00' ∧ w = .str t
  | .bytes b => ∃ t n, b = t ++ List.replicate n 0 ∧ t.getLast? ≠ some 0 ∧ w = .bytes t
  | .int i => (Rounds vals → ∃ y, NearestDouble y i ∧ w = .flt y) ∧ (¬ Rounds vals → w = v)
  | _ => w = v

/-- The channels are `data`: the keys of `vals` in order, each with what its values become. -/
def ChannelsBecome (vals : List (Int × List Val)) (data : List (Int × Arr)) : Prop :=
  data.map Prod.fst = vals.map Prod.fst ∧
    ∀ (i : Nat) (k : Int) (vs : List Val), vals[i]? = some (k, vs) → ∃ a, data[i]? = some (k, a) ∧ Each2 (Becomes vs) vs a.els

end CP.Spec
