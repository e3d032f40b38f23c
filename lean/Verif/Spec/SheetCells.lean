import Verif.Model.SheetCells
/-!
# Specification: the cells of a sheet after a history of writes
-/

namespace CP.Spec

/-- What is done to a sheet while it is read. -/
inductive CellOp where
  | put (row col : Nat) (cell : PutCell)
  | merge (rlo rhi clo chi : Nat)
  | tidy

/-- The cell put last at a place. -/
def lastPut (row col : Nat) : List CellOp → Option PutCell
  | [] => none
  | op :: ops =>
    match lastPut row col ops with
    | some c => some c
    | none => match op with
      | .put r k c => if r = row ∧ k = col then some c else none
      | _ => none

/-- The cell where nothing has been put. -/
def emptyCell : PutCell := { typ := 0, value := .str [], xf := -1 }

/-- Rows that an operation asks for. -/
def CellOp.rows : CellOp → Nat
  | .put r _ _ => r + 1
  | .merge _ rhi _ _ => rhi
  | .tidy => 0

/-- Columns that an operation asks for. -/
def CellOp.cols : CellOp → Nat
  | .put _ k _ => k + 1
  | .merge _ _ _ chi => chi
  | .tidy => 0

/-- Columns that an operation asks for in a row. -/
def CellOp.colsIn (row : Nat) : CellOp → Nat
  | .put r k _ => if r = row then k + 1 else 0
  | _ => 0

/-- `n` is the largest of `f op`, 0 if there are none. -/
def Largest (f : CellOp → Nat) (ops : List CellOp) (n : Nat) : Prop :=
  (∀ op ∈ ops, f op ≤ n) ∧ ∀ m, (∀ op ∈ ops, f op ≤ m) → n ≤ m

/-- `x` is the item at a place of a table. -/
def HasAt {α : Type} (t : List (List α)) (row col : Nat) (x : α) : Prop :=
  ∃ l, t[row]? = some l ∧ l[col]? = some x

end CP.Spec
