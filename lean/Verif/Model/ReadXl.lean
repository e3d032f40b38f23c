import Verif.Model.XlDate
import Verif.Model.PyStr
/-!
# Model of channelpack/readxl.py, and of what it uses of xlrd's Sheet
-/

namespace CP

/-- `str.upper()` character by character (some characters become several). -/
abbrev Upper := Char → List Char

/-- readxl.py:204-210, the loop of `letter2num`; the weight of a letter is the number of
letters after it. -/
def letterLoop : Nat → List Char → Except Exc Nat
  | res, [] => .ok res
  | res, c :: cs =>
    if 65 ≤ c.toNat ∧ c.toNat ≤ 90 then letterLoop (res + (c.toNat - 64) * 26 ^ cs.length) cs
    else .error .assertionError

/-- readxl.py:178-213 `letter2num(letters)`, with `zbase=True`. -/
def letter2num (up : Upper) (letters : List Char) : Except Exc Nat :=
  let letters := letters.flatMap up
  if letters.length = 0 then .error .assertionError
  else match letterLoop 0 letters with
    | .error e => .error e
    | .ok res => .ok (res - 1)

/-- xlrd/book.py:1393-1401 `colname` -/
def colname (colx : Nat) : List Char :=
  let c := Char.ofNat (65 + colx % 26)
  if _h : colx / 26 = 0 then [c] else colname (colx / 26 - 1) ++ [c]
  termination_by colx
  decreasing_by omega

/-- xlrd/formula.py:2100-2107 `colname`, the one exported as `xlrd.colname` -/
def formulaColname (colx : Nat) : Except Exc (List Char) :=
  if colx ≤ 25 then .ok [Char.ofNat (65 + colx)]
  else
    let xdiv26 := colx / 26
    let xmod26 := colx % 26
    if xdiv26 - 1 < 26 then .ok [Char.ofNat (65 + (xdiv26 - 1)), Char.ofNat (65 + xmod26)]
    else .error .indexError

/-- `[A-Za-z]` -/
def isLetter (c : Char) : Bool :=
  (65 ≤ c.toNat && c.toNat ≤ 90) || (97 ≤ c.toNat && c.toNat ≤ 122)

/-- readxl.py:33-52 `cellreference`; the result is (row, col).  `re.match` of
`([A-Za-z]+)(\d*)`: both groups take all they can. -/
def cellreference (up : Upper) (row col : Int) (xladdr : Option (List Char)) :
    Except Exc (Int × Int) :=
  match xladdr with
  | none => .ok (row, col)
  | some [] => .ok (row, col)
  | some s =>
    let letters := s.takeWhile isLetter
    let digits := (s.dropWhile isLetter).takeWhile isDigit
    if letters = [] then .error .valueError
    else if digits = [] then
      match letter2num up letters with
      | .error e => .error e
      | .ok n => .ok (row, n)
    else
      let rownotation := parseNat digits
      if rownotation < 1 then .error .valueError
      else match letter2num up letters with
        | .error e => .error e
        | .ok n => .ok ((rownotation : Int) - 1, n)

/-- readxl.py:168-173: the columns of one pattern. -/
def patternColumns (up : Upper) (pattern : List Char) : Except Exc (List Int) :=
  if ':' ∈ pattern then
    match splitChar ':' pattern with
    | [c1, c2] =>
      match letter2num up c1, letter2num up c2 with
      | .ok a, .ok b => .ok ((List.range (b + 1 - a)).map fun i => ((a + i : Nat) : Int))
      | .error e, _ => .error e
      | _, .error e => .error e
    | _ => .error .valueError
  else match letter2num up pattern with
    | .ok a => .ok [(a : Int)]
    | .error e => .error e

/-- readxl.py:167-173: the loop over the patterns. -/
def patternsColumns (up : Upper) : List (List Char) → Except Exc (List Int)
  | [] => .ok []
  | p :: ps =>
    match patternColumns up p with
    | .error e => .error e
    | .ok cs =>
      match patternsColumns up ps with
      | .error e => .error e
      | .ok rest => .ok (cs ++ rest)

/-- The `usecols` argument: a string, or a sequence, of which the results of `int(c)` are
given. -/
inductive Usecols where
  | str (s : List Char)
  | seq (l : List Int)
  deriving DecidableEq

/-- readxl.py:159-175 `normalize_usecols` -/
def normalizeUsecols (up : Upper) : Usecols → Except Exc (List Int)
  | .seq l => .ok (sortInts l)
  | .str s =>
    let patterns := ((splitChar ',' s).filter fun p => strip p ≠ []).map strip
    match patternsColumns up patterns with
    | .error e => .error e
    | .ok cs => .ok (sortInts cs)

/-- What `readxl` uses of a `Sheet` (xlrd/sheet.py): `_cell_types`, `_cell_values`,
`nrows`, `ncols` and `book.datemode`. -/
structure Sheet where
  nrows : Nat
  ncols : Nat
  types : List (List Nat)
  values : List (List Val)
  datemode : Int

/-- `[f(x) for x in l]` where `f` may raise. -/
def mapE {α β : Type} (f : α → Except Exc β) : List α → Except Exc (List β)
  | [] => .ok []
  | x :: xs =>
    match f x with
    | .error e => .error e
    | .ok y =>
      match mapE f xs with
      | .error e => .error e
      | .ok ys => .ok (y :: ys)

/-- `table[rowx][colx]` -/
def cellAt {α : Type} (table : List (List α)) (rowx colx : Int) : Except Exc α :=
  match pyIndex table rowx with
  | .error e => .error e
  | .ok row => pyIndex row colx

/-- `xrange(a, b)` -/
def pyRange (a b : Int) : List Int := (List.range (b - a).toNat).map fun i => a + (i : Nat)

/-- xlrd/sheet.py:553-569 and 571-587 `col_values`, `col_types` with both row bounds
given. -/
def colSlice {α : Type} (nrows : Nat) (table : List (List α)) (colx start stop : Int) :
    Except Exc (List α) :=
  let nr : Int := nrows
  let start := if start < 0 then (if start + nr < 0 then 0 else start + nr) else start
  let stop := if stop > nr then nr else if stop < 0 then stop + nr else stop
  mapE (fun rowx => cellAt table rowx colx) (pyRange start stop)

/-- xlrd cell types, xlrd/biffh.py:67-75 -/
def xlEmpty : Nat := 0
def xlText : Nat := 1
def xlNumber : Nat := 2
def xlDate : Nat := 3
def xlBoolean : Nat := 4
def xlError : Nat := 5
def xlBlank : Nat := 6

/-- readxl.py:64-65 -/
def missingTypes : List Nat := [xlEmpty, xlError, xlBlank]

/-- readxl.py:90-91 `value == 1` -/
def Val.eqOne : Val → Bool
  | .int i => i = 1
  | .flt q => q = 1
  | .bool b => b
  | _ => false

/-- readxl.py:85-92, one cell of a mixed column.  A value of type date is a number; `int(xldate)`
(xlrd/xldate.py:152) raises ValueError for NaN and OverflowError for an infinity.  Anything else in
a cell of type date is given a TypeError. -/
def mixedCell (M : XlMul) (datemode : Int) (value : Val) (typ : Nat) : Except Exc Val :=
  if typ = xlDate then
    let x? : Option Rat := match value with
      | .int i => some i
      | .flt q => some q
      | _ => none
    match x? with
    | none => match value with
      | .nan => .error .valueError
      | .inf _ => .error .overflowError
      | _ => .error .typeError
    | some x => match xldateAsDatetime M x datemode with
      | .error e => .error e
      | .ok (d, ms) => .ok (.datetime d ms)
  else if typ ∈ missingTypes then .ok .none
  else if typ = xlBoolean then .ok (.bool value.eqOne)
  else .ok value

/-- readxl.py:73-94: the column to yield from values and types. -/
def columnOf (M : XlMul) (datemode : Int) (values : List Val) (types : List Nat) :
    Except Exc (List Val) :=
  if types.all (fun t => t ∈ [xlNumber, xlEmpty, xlError, xlBlank]) then
    .ok (List.zipWith (fun v t => if t ∉ missingTypes then v else .nan) values types)
  else if types.all (fun t => t ∈ [xlText, xlEmpty, xlError, xlBlank]) then
    .ok (List.zipWith (fun v t => if t ∉ missingTypes then v else .str []) values types)
  else mapE (fun p => mixedCell M datemode p.1 p.2) (values.zip types)

/-- readxl.py:55-94 `sheet_columns`, all columns (the generator is used up by the
caller). -/
def sheetColumns (M : XlMul) (ws : Sheet) (startrow stoprow : Int) (usecols : List Int) :
    Except Exc (List (List Val)) :=
  mapE (fun colnum =>
    match colSlice ws.nrows ws.values colnum startrow (stoprow + 1) with
    | .error e => .error e
    | .ok values =>
      match colSlice ws.nrows ws.types colnum startrow (stoprow + 1) with
      | .error e => .error e
      | .ok types => columnOf M ws.datemode values types) usecols

/-- The `header` argument: True, False (or other falsy), a str, or something else that is
true. -/
inductive Header where
  | yes
  | no
  | addr (s : List Char)
  | otherTrue
  deriving DecidableEq

/-- readxl.py:135-136 `usecols or range(startref.col, stopref.col + 1)` -/
def usecolsArg (usecols : Option Usecols) (startcol stopcol : Int) : Usecols :=
  match usecols with
  | none => .seq (pyRange startcol (stopcol + 1))
  | some (.str []) => .seq (pyRange startcol (stopcol + 1))
  | some (.seq []) => .seq (pyRange startcol (stopcol + 1))
  | some u => u

/-- readxl.py:97-156 `sheetpack`, from the work sheet on: the data and names passed to
`ChannelPack`.  An empty header string is falsy but still names the cells' row
(line 144); its names are not used (line 152). -/
def sheetpack (up : Upper) (M : XlMul) (ws : Sheet) (header : Header)
    (startcell stopcell : Option (List Char)) (usecols : Option Usecols) :
    Except Exc (List (Int × List Val) × List (Int × Val)) :=
  match cellreference up 0 0 startcell, cellreference up 0 0 stopcell with
  | .error e, _ => .error e
  | _, .error e => .error e
  | .ok startref, .ok stopref0 =>
    let stopref : Int × Int :=
      if stopcell = none ∨ stopcell = some [] then ((ws.nrows : Int) - 1, (ws.ncols : Int) - 1)
      else stopref0
    match normalizeUsecols up (usecolsArg usecols startref.2 stopref.2) with
    | .error e => .error e
    | .ok [] => .error .indexError
    | .ok (c :: cs) =>
      if startref.2 > c ∨ stopref.2 < (c :: cs).getLast (by simp) then .error .valueError
      else
        let names? : Except Exc (List Val × Int) := match header with
          | .yes => match mapE (fun col => cellAt ws.values startref.1 col) (c :: cs) with
            | .error e => .error e
            | .ok ns => .ok (ns, startref.1 + 1)
          | .addr s => match cellreference up 0 0 (some s) with
            | .error e => .error e
            | .ok nameref =>
              match mapE (fun col => cellAt ws.values nameref.1 col) (c :: cs) with
              | .error e => .error e
              | .ok ns => .ok (ns, startref.1)
          | _ => .ok ([], startref.1)
        match names? with
        | .error e => .error e
        | .ok (names, startrow) =>
          match sheetColumns M ws startrow stopref.1 (c :: cs) with
          | .error e => .error e
          | .ok cols =>
            let data := dictOf ((c :: cs).zip cols)
            match header with
            | .no => .ok (data, [])
            | .addr [] => .ok (data, [])
            | .otherTrue => .error .nameError        -- names is unbound (line 153)
            | _ => .ok (data, dictOf ((c :: cs).zip names))

end CP
