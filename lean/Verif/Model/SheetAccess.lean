import Verif.Model.SheetCells
import Verif.Model.CompDoc
/-!
# Model of the methods of `Sheet` that look at cells

xlrd/sheet.py, `cell` to `col_types`.  The counters `_xf_index_stats` are left out: they are
for statistics only and nothing reads them but a debugging print.
-/

namespace CP

/-- A sheet that has been read: the cells, and the `xf_index` of the items of `rowinfo_map` and
`colinfo_map`.  The keys of both are row and column numbers out of the file, never negative.  An
`xf_index` is an integer: sheet.py:915-919 and 1424 for rows, 2383 (the default), 1011-1012 and 1486 for
columns. -/
structure SheetView where
  grid : Grid
  rowXf : List (Nat × Int)
  colXf : List (Nat × Int)

/-- xlrd/sheet.py:2324-2327 `Cell.__init__` -/
structure CellObj where
  ctype : Nat
  value : Val
  xf : Option Int
  deriving DecidableEq

/-- `d[k]` of a dict whose keys are natural numbers, for any integer. -/
def natKey (d : List (Nat × Int)) (k : Int) : Option Int :=
  if k < 0 then none else dget d k.toNat

/-- xlrd/sheet.py:451-459 -/
def SheetView.columnXf (s : SheetView) (colx : Int) : Int :=
  match natKey s.colXf colx with
  | none => 15
  | some xfx => if xfx = -1 then 15 else xfx

/-- xlrd/sheet.py:430-459 `cell_xf_index`; 1702-1704 `req_fmt_info` -/
def SheetView.cellXfIndex (s : SheetView) (rowx colx : Int) : Except Exc Int :=
  if s.grid.fmt = false then .error .xlrdError
  else
    match cellAt s.grid.xfs rowx colx with
    | .error e => .error e
    | .ok xfx =>
      if xfx > -1 then .ok xfx
      else
        match natKey s.rowXf rowx with
        | some xfx => if xfx > -1 then .ok xfx else .ok (s.columnXf colx)
        | none => .ok (s.columnXf colx)

/-- xlrd/sheet.py:404-416 `cell` -/
def SheetView.cell (s : SheetView) (rowx colx : Int) : Except Exc CellObj :=
  match (if s.grid.fmt then (s.cellXfIndex rowx colx).map some else .ok none) with
  | .error e => .error e
  | .ok xfx =>
    match cellAt s.grid.types rowx colx with
    | .error e => .error e
    | .ok t =>
      match cellAt s.grid.values rowx colx with
      | .error e => .error e
      | .ok v => .ok { ctype := t, value := v, xf := xfx }

/-- xlrd/sheet.py:418-420 `cell_value` -/
def SheetView.cellValue (s : SheetView) (rowx colx : Int) : Except Exc Val := cellAt s.grid.values rowx colx

/-- xlrd/sheet.py:422-428 `cell_type` -/
def SheetView.cellType (s : SheetView) (rowx colx : Int) : Except Exc Nat := cellAt s.grid.types rowx colx

/-- xlrd/sheet.py:461-469 `row_len` -/
def SheetView.rowLen (s : SheetView) (rowx : Int) : Except Exc Nat :=
  (pyIndex s.grid.values rowx).map List.length

/-- xlrd/sheet.py:471-478 `row` -/
def SheetView.row (s : SheetView) (rowx : Int) : Except Exc (List CellObj) :=
  match pyIndex s.grid.values rowx with
  | .error e => .error e
  | .ok l => mapE (fun colx => s.cell rowx colx) (pyRange 0 l.length)

/-- xlrd/sheet.py:494-499 `get_rows`, `__iter__`: the list of what the generator gives. -/
def SheetView.getRows (s : SheetView) : Except Exc (List (List CellObj)) :=
  mapE (fun rowx => s.row rowx) (pyRange 0 s.grid.nrows)

/-- xlrd/sheet.py:501-515 `row_types`, `row_values`: the same code for two tables. -/
def rowItems {α : Type} (table : List (List α)) (rowx start : Int) (stop : Option Int) : Except Exc (List α) :=
  match pyIndex table rowx with
  | .error e => .error e
  | .ok l =>
    match stop with
    | none => .ok (pySliceI l start l.length)
    | some stop => .ok (pySliceI l start stop)

def SheetView.rowTypes (s : SheetView) := rowItems s.grid.types
def SheetView.rowValues (s : SheetView) := rowItems s.grid.values

/-- The bounds of xlrd/sheet.py:521-529, 539-547, 557-565, 575-583: the same code four times. -/
def sliceBounds (n : Int) (start : Int) (stop : Option Int) : Int × Int :=
  (if start < 0 then (if start + n < 0 then 0 else start + n) else start,
   match stop with
   | none => n
   | some stop => if stop > n then n else if stop < 0 then stop + n else stop)

/-- xlrd/sheet.py:517-533 `row_slice` -/
def SheetView.rowSlice (s : SheetView) (rowx start : Int) (stop : Option Int) : Except Exc (List CellObj) :=
  match pyIndex s.grid.values rowx with
  | .error e => .error e
  | .ok l =>
    let p := sliceBounds l.length start stop
    mapE (fun colx => s.cell rowx colx) (pyRange p.1 p.2)

/-- xlrd/sheet.py:535-551, 589 `col_slice`, `col` -/
def SheetView.colSlice (s : SheetView) (colx start : Int) (stop : Option Int) : Except Exc (List CellObj) :=
  let p := sliceBounds s.grid.nrows start stop
  mapE (fun rowx => s.cell rowx colx) (pyRange p.1 p.2)

/-- xlrd/sheet.py:553-569 `col_values` -/
def SheetView.colValues (s : SheetView) (colx start : Int) (stop : Option Int) : Except Exc (List Val) :=
  let p := sliceBounds s.grid.nrows start stop
  mapE (fun rowx => cellAt s.grid.values rowx colx) (pyRange p.1 p.2)

/-- xlrd/sheet.py:571-587 `col_types` -/
def SheetView.colTypes (s : SheetView) (colx start : Int) (stop : Option Int) : Except Exc (List Nat) :=
  let p := sliceBounds s.grid.nrows start stop
  mapE (fun rowx => cellAt s.grid.types rowx colx) (pyRange p.1 p.2)

/-- An index of `sheet[...]`: an integer or a pair of integers.  (Other indices are left out.) -/
inductive SheetItem where
  | row (rowx : Int)
  | cell (rowx colx : Int)

/-- What `sheet[...]` returns: a row or a cell. -/
inductive SheetGot where
  | row (l : List CellObj)
  | cell (c : CellObj)

/-- xlrd/sheet.py:480-492 `__getitem__` -/
def SheetView.getItem (s : SheetView) : SheetItem → Except Exc SheetGot
  | .row rowx => (s.row rowx).map .row
  | .cell rowx colx => (s.cell rowx colx).map .cell

end CP
