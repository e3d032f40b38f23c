import Verif.Model.Py
/-!
# Python iteration helpers
-/

namespace CP

/-- The length of the shortest of `l` and `ls`. -/
def minLength {α : Type} (l : List α) : List (List α) → Nat
  | [] => l.length
  | m :: ms => min l.length (minLength m ms)

/-- `list(zip(*ls))`: as many columns as the shortest row has elements; none without
rows. -/
def zipStar {α : Type} : List (List α) → List (List α)
  | [] => []
  | l :: ls => (List.range (minLength l ls)).map fun i => (l :: ls).filterMap (·[i]?)

/-- `{i: x for i, x in enumerate(l)}` (as pairs; the keys are different) -/
def enumDict {α : Type} (l : List α) : List (Int × α) :=
  l.zipIdx.map fun p => ((p.2 : Int), p.1)

end CP
