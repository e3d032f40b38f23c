import Verif.Spec.FullFile
import Verif.Spec.PackHolds
/-!
# Specification: the columns of a sheet in a file and what a channel can hold
-/

namespace CP.Spec

/-- `n` cells of a column, from row `first` on. -/
def columnCells (ops : List CellOp) (first n col : Nat) : List PutCell := (List.range n).map fun i => cellOf ops (first + i) col

/-- Types of cells without a value: empty, error, blank. -/
def NoCell (t : Nat) : Prop := t = 0 ∨ t = 5 ∨ t = 6

/-- A column that can be held by a channel: there is no text in it, or a date is, or it is of text alone, that does not end with a NUL, or with
numbers or booleans in it some cell has no value. -/
def ColumnKept (cells : List PutCell) : Prop :=
  (∀ p ∈ cells, p.typ ≠ 1) ∨ (∃ p ∈ cells, p.typ = 3) ∨
  ((∀ p ∈ cells, p.typ = 1 ∨ NoCell p.typ) ∧ ∀ p ∈ cells, p.typ = 1 → ¬ EndsNul p.value) ∨
  ((∃ p ∈ cells, p.typ = 2 ∨ p.typ = 4) ∧ ∃ p ∈ cells, NoCell p.typ)

end CP.Spec
