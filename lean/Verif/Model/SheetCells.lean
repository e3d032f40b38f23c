import Verif.Model.ReadXl
/-!
# Model of the cell store of channelpack/xlrd/sheet.py

`put_cell` in its two forms and `tidy_dimensions`.  Output to the log is left out.  Row and
column indices are natural numbers: the callers pass indices from unsigned fields of the
file or from cell names (never negative, see `Verif.Model.Xlsx`).
-/

namespace CP

/-- What `put_cell` and `tidy_dimensions` use of a `Sheet`: `_cell_types`, `_cell_values`,
`_cell_xf_indexes`, `_first_full_rowx` (`firstFull`), `utter_max_rows`, `utter_max_cols`,
`formatting_info` (`fmt`), `ragged_rows`, and `merged_cells` as (rlo, rhi, clo, chi).
xlrd/sheet.py:320-402 -/
structure Grid where
  nrows : Nat
  ncols : Nat
  firstFull : Int
  types : List (List Nat)
  values : List (List Val)
  xfs : List (List Int)
  fmt : Bool
  ragged : Bool
  maxRows : Nat
  maxCols : Nat
  merged : List (Nat × Nat × Nat × Nat)

/-- xlrd/sheet.py:320-402 `Sheet.__init__` (what is used here) -/
def Grid.init (fmt ragged : Bool) (maxRows maxCols : Nat) : Grid :=
  { nrows := 0, ncols := 0, firstFull := -1, types := [], values := [], xfs := [], fmt := fmt, ragged := ragged,
    maxRows := maxRows, maxCols := maxCols, merged := [] }

/-- `table[rowx][colx] = v`; none for an IndexError. -/
def setAt {α : Type} (table : List (List α)) (rowx colx : Nat) (v : α) : Option (List (List α)) :=
  match table[rowx]? with
  | none => none
  | some row => if colx < row.length then some (table.set rowx (row.set colx v)) else none

/-- A cell to put: its type, value and index of extended format. -/
structure PutCell where
  typ : Nat
  value : Val
  xf : Int
  deriving DecidableEq

/-- An item of `array('h')`. -/
def Int16 (i : Int) : Prop := -32768 ≤ i ∧ i ≤ 32767

instance (i : Int) : Decidable (Int16 i) := inferInstanceAs (Decidable (_ ∧ _))

/-- xlrd/sheet.py:721-724 and 775-778: the three assignments of `put_cell_unragged`.  A type
is one of those of biffh.py:67-75 and so fits in `array('B')`. -/
def Grid.assign (g : Grid) (rowx colx : Nat) (c : PutCell) : Grid × Option Exc :=
  match setAt g.types rowx colx c.typ with
  | none => (g, some .indexError)
  | some types =>
    let g := { g with types := types }
    match setAt g.values rowx colx c.value with
    | none => (g, some .indexError)
    | some values =>
      let g := { g with values := values }
      if g.fmt = false then (g, none)
      else if rowx < g.xfs.length ∧ ¬ Int16 c.xf then (g, some .overflowError)
      else match setAt g.xfs rowx colx c.xf with
        | none => (g, some .indexError)
        | some xfs => ({ g with xfs := xfs }, none)

/-- `row.extend([x] * n)` of the row `rowx` of a table.  (No row: an IndexError, which
`trow = self._cell_types[rowx]` has raised before.) -/
def extendRow {α : Type} (table : List (List α)) (rowx n : Nat) (x : α) : List (List α) :=
  match table[rowx]? with
  | none => table
  | some row => table.set rowx (row ++ List.replicate n x)

/-- xlrd/sheet.py:733-745: a new number of columns. -/
def Grid.widen (g : Grid) (rowx nc : Nat) : Grid :=
  if nc > g.ncols then
    { g with
      ncols := nc,
      firstFull :=
        if rowx + 1 < g.nrows then -2
        else if (rowx : Int) > g.firstFull ∧ g.firstFull > -2 then rowx
        else g.firstFull }
  else g

/-- xlrd/sheet.py:746-772: longer rows or more rows. -/
def Grid.lengthen (g : Grid) (rowx : Nat) : Grid × Option Exc :=
  if rowx + 1 ≤ g.nrows then
    match g.types[rowx]? with
    | none => (g, some .indexError)
    | some trow =>
      let nextra := g.ncols - trow.length
      ({ g with
         types := extendRow g.types rowx nextra xlEmpty,
         xfs := if g.fmt then extendRow g.xfs rowx nextra (-1) else g.xfs,
         values := extendRow g.values rowx nextra (.str []) }, none)
  else
    let more := rowx + 1 - g.nrows
    ({ g with
       types := g.types ++ List.replicate more (List.replicate g.ncols xlEmpty),
       values := g.values ++ List.replicate more (List.replicate g.ncols (.str [])),
       xfs := if g.fmt then g.xfs ++ List.replicate more (List.replicate g.ncols (-1)) else g.xfs,
       nrows := rowx + 1 }, none)

/-- xlrd/sheet.py:714-784 `put_cell_unragged`, with the type of the cell known. -/
def Grid.putUnragged (g : Grid) (rowx colx : Nat) (c : PutCell) : Grid × Option Exc :=
  match g.assign rowx colx c with
  | (g, none) => (g, none)
  | (g, some e) =>
    if e ≠ .indexError then (g, some e)
    else if ¬ (colx + 1 ≤ g.maxCols) then (g, some .assertionError)
    else if ¬ (rowx + 1 ≤ g.maxRows) then (g, some .assertionError)
    else
      match (g.widen rowx (colx + 1)).lengthen rowx with
      | (g, some e) => (g, some e)
      | (g, none) => g.assign rowx colx c

/-- xlrd/sheet.py:664-677: rows up to `rowx` are there. -/
def Grid.addRows (g : Grid) (rowx : Nat) : Grid :=
  if g.nrows < rowx + 1 then
    let more := rowx + 1 - g.nrows
    { g with
      types := g.types ++ List.replicate more [],
      values := g.values ++ List.replicate more [],
      xfs := if g.fmt then g.xfs ++ List.replicate more [] else g.xfs,
      nrows := rowx + 1 }
  else g

/-- xlrd/sheet.py:655-712 `put_cell_ragged`, with the type of the cell known.  In the branch
of lines 687-694 the cell is appended; here this is done as in lines 695-709: the row gets
`num_empty + 1` more cells and the last of them is the new one. -/
def Grid.putRagged (g : Grid) (rowx colx : Nat) (c : PutCell) : Grid × Option Exc :=
  if ¬ (colx < g.maxCols) then (g, some .assertionError)
  else if ¬ (rowx < g.maxRows) then (g, some .assertionError)
  else
    let g := g.addRows rowx
    match g.types[rowx]? with
    | none => (g, some .indexError)
    | some trow =>
      let nextra := colx + 1 - trow.length
      let g := { g with
        ncols := if colx ≥ g.ncols then colx + 1 else g.ncols,
        types := extendRow g.types rowx nextra xlEmpty,
        values := extendRow g.values rowx nextra (.str []),
        xfs := if g.fmt then extendRow g.xfs rowx nextra (-1) else g.xfs }
      g.assign rowx colx c

/-- xlrd/sheet.py:332-335 -/
def Grid.put (g : Grid) (rowx colx : Nat) (c : PutCell) : Grid × Option Exc :=
  if g.ragged then g.putRagged rowx colx c else g.putUnragged rowx colx c

/-- xlrd/sheet.py:602-612: the largest `rhi` and `chi`. -/
def mergedExtent : List (Nat × Nat × Nat × Nat) → Nat × Nat
  | [] => (0, 0)
  | (_, rhi, _, chi) :: rest => (max rhi (mergedExtent rest).1, max chi (mergedExtent rest).2)

/-- xlrd/sheet.py:601-620 -/
def Grid.mergedCells (g : Grid) : Grid × Option Exc :=
  if g.merged = [] then (g, none)
  else
    let nr := (mergedExtent g.merged).1
    let nc := (mergedExtent g.merged).2
    let g := if nc > g.ncols then { g with ncols := nc, firstFull := -2 } else g
    if nr > g.nrows then g.put (nr - 1) 0 { typ := xlEmpty, value := .str [], xf := -1 } else (g, none)

/-- `rows[rowx][rlen:] = [x] * nextra` where `rlen` is the length of the row of types; only
if the row is shorter than `ncols`. -/
def fixRow {α β : Type} (ncols : Nat) (x : α) (trow : List β) (row : List α) : List α :=
  if trow.length < ncols then row.take trow.length ++ List.replicate (ncols - trow.length) x else row

/-- The loop over the first `n` rows of a table, xlrd/sheet.py:645-653 -/
def fixRows {α β : Type} (ncols : Nat) (x : α) : Nat → List (List β) → List (List α) → List (List α)
  | n + 1, trow :: trows, row :: rows => fixRow ncols x trow row :: fixRows ncols x n trows rows
  | _, _, rows => rows

/-- xlrd/sheet.py:633-653: rows before `_first_full_rowx` get the full length. -/
def Grid.fixRagged (g : Grid) : Grid :=
  if g.ragged then g
  else
    let n := if g.firstFull = -2 then g.nrows else g.firstFull.toNat
    { g with
      values := fixRows g.ncols (.str []) n g.types g.values,
      types := fixRows g.ncols xlEmpty n g.types g.types,
      xfs := if g.fmt then fixRows g.ncols (-1) n g.types g.xfs else g.xfs }

/-- xlrd/sheet.py:594-653 `tidy_dimensions` -/
def Grid.tidy (g : Grid) : Grid × Option Exc :=
  match g.mergedCells with
  | (g, some e) => (g, some e)
  | (g, none) => (g.fixRagged, none)

end CP
