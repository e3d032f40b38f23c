import Verif.Spec.XlsFile
import Verif.Spec.XlsxBook
import Verif.Model.ReadXl
/-!
# Specification: spread sheet files and the sheets in them
-/

namespace CP.Spec

/-- The largest of the numbers. -/
def largestOf (f : CellOp → Nat) (ops : List CellOp) : Nat := ops.foldr (fun op n => max (f op) n) 0

/-- The cell at a place. -/
def cellOf (ops : List CellOp) (row col : Nat) : PutCell := (lastPut row col ops).getD emptyCell

/-- A table of so many rows and columns. -/
def tableOf {α : Type} (rows cols : Nat) (f : Nat → Nat → α) : List (List α) :=
  (List.range rows).map fun r => (List.range cols).map fun c => f r c

/-- The sheet with these cells. -/
def sheetOf (mode : Nat) (ops : List CellOp) : Sheet where
  nrows := largestOf CellOp.rows ops
  ncols := largestOf CellOp.cols ops
  types := tableOf (largestOf CellOp.rows ops) (largestOf CellOp.cols ops) fun r c => (cellOf ops r c).typ
  values := tableOf (largestOf CellOp.rows ops) (largestOf CellOp.cols ops) fun r c => (cellOf ops r c).value
  datemode := mode

/-- A spread sheet file with its date mode and sheets: a zip file with an xlsx book (`zip` says
which parts are in a zip file), or an xls file. -/
def SheetFileIs (whole : Bool) (E : XlEnv) (zip : Bytes → Except Exc Zip) (c : BookCtx) (height : Nat) (file : Bytes) (mode : Nat)
    (sheets : List (List Char × List CellOp)) : Prop :=
  ([0x50, 0x4B, 0x03, 0x04] <+: file ∧ ∃ zf, zip file = .ok zf ∧ BookIs E zf mode sheets) ∨
    XlsFileIs whole c E.low height file mode sheets

/-- The sheet with a number, from the end if it is negative. -/
def SheetNumber (sheets : List (List Char × List CellOp)) (i : Int) (s : List Char × List CellOp) : Prop :=
  ∃ k : Nat, sheets[k]? = some s ∧ (i = k ∨ i < 0 ∧ i + sheets.length = k)

/-- The first sheet with this name. -/
def SheetNamed (sheets : List (List Char × List CellOp)) (name : List Char) (s : List Char × List CellOp) : Prop :=
  ∃ before after, sheets = before ++ s :: after ∧ s.1 = name ∧ ∀ t ∈ before, t.1 ≠ name

end CP.Spec
