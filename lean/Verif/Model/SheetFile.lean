import Verif.Model.XlsFile
import Verif.Model.ReadXl
import Verif.Model.Xlsx
/-!
# Model of `open_workbook` and of `sheetpack` from the content of a file

As in `XlsFile`, a result of none means that a loop is not done within the given number of
rounds.
-/

namespace CP

variable {σ τ : Type}

/-- What the reader of a file depends on: what readers of xlsx and xls files do, `zip` for the
modules `zipfile` and `xml` (the parts of a zip file), and the depth of calls that Python
allows. -/
structure FileEnv (σ τ : Type) where
  xlsx : XlEnv
  xls : BookEnv σ τ
  zip : Bytes → Except Exc Zip
  depth : Nat

/-- xlrd/__init__.py:113 -/
def zipSignature : Bytes := [0x50, 0x4B, 3, 4]

/-- xlrd/__init__.py:24-160 `open_workbook`, with the content of the file: the date mode and the
sheets.  In `openXlsx` a zip file without a workbook is an XLRDError, of whatever kind it is. -/
def openWorkbook (W : FileEnv σ τ) (fuel : Nat) (file : Bytes) : Option (Except Exc (Nat × List BookSheet)) :=
  if file.take 4 = zipSignature then
    match W.zip file with
    | .error e => some (.error e)
    | .ok zf => some (openXlsx W.xlsx false zf)
  else openXls W.xls W.xlsx.low W.depth fuel false file

/-- The argument `sheet`: an int (or bool), a str, or something else. -/
inductive SheetArg where
  | index (i : Int)
  | name (s : List Char)
  | other
  deriving DecidableEq

/-- readxl.py:128-131 with xlrd/book.py:463-468 `sheet_by_index` and 478-487 `sheet_by_name`. -/
def pickSheet (sheets : List BookSheet) : SheetArg → Except Exc BookSheet
  | .index i => pyIndex sheets i
  | .name s => match sheets.find? (fun b => b.name = s) with
    | some b => .ok b
    | none => .error .xlrdError
  | .other => .error .xlrdError

/-- The work sheet that `sheetpack` sees. -/
def BookSheet.sheet (mode : Nat) (b : BookSheet) : Sheet :=
  { nrows := b.grid.nrows, ncols := b.grid.ncols, types := b.grid.types, values := b.grid.values, datemode := mode }

/-- readxl.py:97-156 `sheetpack` with the content of the file: the cell references are made
first (lines 124-125), then the file is opened. -/
def packFile (W : FileEnv σ τ) (M : XlMul) (fuel : Nat) (file : Bytes) (sheet : SheetArg) (header : Header)
    (startcell stopcell : Option (List Char)) (usecols : Option Usecols) :
    Option (Except Exc (List (Int × List Val) × List (Int × Val))) :=
  match cellreference W.xlsx.up 0 0 startcell, cellreference W.xlsx.up 0 0 stopcell with
  | .error e, _ => some (.error e)
  | _, .error e => some (.error e)
  | .ok _, .ok _ =>
    match openWorkbook W fuel file with
    | none => none
    | some (.error e) => some (.error e)
    | some (.ok (mode, sheets)) =>
      match pickSheet sheets sheet with
      | .error e => some (.error e)
      | .ok b => some (sheetpack W.xlsx.up M (b.sheet mode) header startcell stopcell usecols)

end CP
