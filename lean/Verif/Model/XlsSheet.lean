import Verif.Model.Biff
import Verif.Model.SheetCells
/-!
# Model of `Sheet.read`, channelpack/xlrd/sheet.py: the records of a work sheet of an .xls file

For BIFF 5, 7 and 8 (`bv` is 50, 70 or 80), without `formatting_info`, with verbosity 0.
(Model/XlsOld.lean has what is different in BIFF 2 to 4.)
Output to the log is left out, and so is what is kept of a sheet beside its cells (widths,
panes and so on); the exceptions of those records are not.  The records of hyperlinks,
drawing objects and notes are handled by a parameter (`Model/XlsObjects.lean` has them).
-/

namespace CP

/-- A record: its code, the length in its head, its data (shorter at the end of the file). -/
structure Rec where
  code : Nat
  len : Nat
  data : Bytes
  deriving DecidableEq

/-- xlrd/book.py:701-708 `get_record_parts` at a position, with the position after it. -/
def recordAt (mem : Bytes) (pos : Int) : Except Exc (Rec × Int) :=
  let head := pySliceI mem pos (pos + 4)
  if head.length = 4 then
    let len := leNat (pySlice head 2 4)
    .ok (⟨leNat (pySlice head 0 2), len, pySliceI mem (pos + 4) (pos + 4 + len)⟩, pos + 4 + len)
  else .error .structError

/-- The records from a position on, up to the place where `get_record_parts` raises. -/
def recordsFrom (mem : Bytes) : Nat → Int → List Rec
  | 0, _ => []
  | n + 1, pos =>
    match recordAt mem pos with
    | .error _ => []
    | .ok (r, pos) => r :: recordsFrom mem n pos

/-- All records from a position on: each takes four bytes at least, so that this many rounds
suffice. -/
def recordsAt (mem : Bytes) (pos : Int) : List Rec := recordsFrom mem (2 * mem.length + 1) pos

/-! biffh.py:104-218: record codes -/

def xlNumberRec : Nat := 0x203
def xlLabelSst : Nat := 0xFD
def xlLabel : Nat := 0x204
def xlRString : Nat := 0xD6
def xlRk : Nat := 0x27E
def xlMulRk : Nat := 0xBD
def xlFormulas : List Nat := [0x6, 0x406, 0x206]
def xlBoolErr : Nat := 0x205
def xlString : Nat := 0x207
def xlStringB2 : Nat := 0x7
def xlArray : Nat := 0x221
def xlShrFmla : Nat := 0x4BC
def xlTableOps : List Nat := [0x236, 0x37, 0x21, 0x36]
def xlContinue : Nat := 0x3C
def xlEof : Nat := 0xA
def xlBofs : List Nat := [0x809, 0x409, 0x209, 0x9]
def xlDimensions : List Nat := [0x200, 0x0]
/-- HLINK, QUICKTIP, OBJ, TXO, NOTE -/
def xlObjects : List Nat := [0x1B8, 0x800, 0x5D, 0x1B6, 0x1C]
def xlCountry : Nat := 0x8C
/-- ROW, COLINFO, GCW, BLANK, MULBLANK, CONDFMT, CF, MERGEDCELLS, page breaks: skipped without
formatting_info; MSO_DRAWING and FEAT11 do nothing. -/
def xlSkipped : List Nat := [0x208, 0x7D, 0xAB, 0x201, 0xBE, 0x1B0, 0x1B1, 0xE5, 0x1B, 0x1A, 0xEC, 0x872]

/-- What reading a sheet depends on: the version, rounding, the shared strings, the cell type
of an extended format (`_xf_index_to_xl_type_map`), the decoder of `bk.encoding or
bk.derive_encoding()` (used before BIFF 8), and the handler of hyperlinks, objects and notes:
with its state, a record and those after it, it gives a state and how many of those it takes. -/
structure XlsEnv (σ : Type) where
  bv : Nat
  rnd : Rat → Rat
  sst : List (List Char)
  xfType : Nat → Option Nat
  text : Bytes → Except Exc (List Char)
  obj : σ → Rec → List Rec → Except Exc (σ × Nat)

variable {σ : Type}

/-- `put_cell`, xlrd/sheet.py:655-784 -/
def putE (g : Grid) (row col : Nat) (c : PutCell) : Except Exc Grid :=
  match g.put row col c with
  | (g, none) => .ok g
  | (_, some e) => .error e

/-- `put_cell(row, col, None, v, xf)`: the type is that of the extended format; xlrd/sheet.py:656-658, 715-717 -/
def putNum (E : XlsEnv σ) (g : Grid) (row col : Nat) (v : Val) (xf : Nat) : Except Exc Grid :=
  match E.xfType xf with
  | none => .error .keyError
  | some t => putE g row col { typ := t, value := v, xf := xf }

/-- `put_cell(row, col, XL_CELL_TEXT, s, xf)` -/
def putText (g : Grid) (row col xf : Nat) (s : List Char) : Except Exc Grid :=
  putE g row col { typ := xlText, value := .str s, xf := xf }

/-- An unsigned field of two bytes. -/
def field2 (data : Bytes) (i : Nat) : Nat := leNat (pySlice data i (i + 2))

/-- xlrd/sheet.py:819-826 NUMBER -/
def readNumber (E : XlsEnv σ) (g : Grid) (data : Bytes) : Except Exc Grid :=
  if (data.take 14).length = 14 then
    match unpackDouble (pySlice data 6 14) with
    | .error e => .error e
    | .ok d => putNum E g (field2 data 0) (field2 data 2) d (field2 data 4)
  else .error .structError

/-- xlrd/sheet.py:827-830 LABELSST -/
def readLabelSst (E : XlsEnv σ) (g : Grid) (data : Bytes) : Except Exc Grid :=
  if data.length = 10 then
    match pyIndex E.sst (leInt (pySlice data 6 10)) with
    | .error e => .error e
    | .ok s => putText g (field2 data 0) (field2 data 2) (field2 data 4) s
  else .error .structError

/-- xlrd/sheet.py:835-841 LABEL -/
def readLabel (E : XlsEnv σ) (g : Grid) (data : Bytes) : Except Exc Grid :=
  if (data.take 6).length = 6 then
    match (if E.bv < 80 then unpackString E.text data 6 2 else unpackUnicode data 6 2) with
    | .error e => .error e
    | .ok s => putText g (field2 data 0) (field2 data 2) (field2 data 4) s
  else .error .structError

/-- The loop over formatting runs of `size` bytes, from a position on; the position after it. -/
def runsFrom (data : Bytes) (size : Nat) : Nat → Int → Except Exc Int
  | 0, pos => .ok pos
  | n + 1, pos => if (pySliceI data pos (pos + size)).length = size then runsFrom data size n (pos + size) else .error .structError

/-- xlrd/sheet.py:845-852 -/
def rstring5 (E : XlsEnv σ) (data : Bytes) : Except Exc (List Char) :=
  match unpackStringUpd E.text data 6 2 none with
  | .error e => .error e
  | .ok (s, pos) =>
    match data[pos]? with
    | none => .error .indexError
    | some nrt =>
      match runsFrom data 2 nrt.toNat (pos + 1) with
      | .error e => .error e
      | .ok p => if p = data.length then .ok s else .error .assertionError

/-- xlrd/sheet.py:854-861 -/
def rstring8 (data : Bytes) : Except Exc (List Char) :=
  match unpackUnicodeUpd data 6 2 none with
  | .error e => .error e
  | .ok (s, pos) =>
    match unpackNat 2 (pySliceI data pos (pos + 2)) with
    | .error e => .error e
    | .ok nrt =>
      match runsFrom data 4 nrt (pos + 2) with
      | .error e => .error e
      | .ok p => if p = data.length then .ok s else .error .assertionError

/-- xlrd/sheet.py:842-863 RSTRING -/
def readRString (E : XlsEnv σ) (g : Grid) (data : Bytes) : Except Exc Grid :=
  if (data.take 6).length = 6 then
    match (if E.bv < 80 then rstring5 E data else rstring8 data) with
    | .error e => .error e
    | .ok s => putText g (field2 data 0) (field2 data 2) (field2 data 4) s
  else .error .structError

/-- xlrd/sheet.py:864-867 RK -/
def readRk (E : XlsEnv σ) (g : Grid) (data : Bytes) : Except Exc Grid :=
  if (data.take 6).length = 6 then
    match unpackRK E.rnd (pySlice data 6 10) with
    | .error e => .error e
    | .ok d => putNum E g (field2 data 0) (field2 data 2) d (field2 data 4)
  else .error .structError

/-- xlrd/sheet.py:872-876: the loop over the columns of MULRK; `n` are left. -/
def mulRkLoop (E : XlsEnv σ) (data : Bytes) (row : Nat) : Nat → Nat → Nat → Grid → Except Exc Grid
  | 0, _, _, g => .ok g
  | n + 1, col, pos, g =>
    match unpackNat 2 (pySlice data pos (pos + 2)) with
    | .error e => .error e
    | .ok xf =>
      match unpackRK E.rnd (pySlice data (pos + 2) (pos + 6)) with
      | .error e => .error e
      | .ok d =>
        match putNum E g row col d xf with
        | .error e => .error e
        | .ok g => mulRkLoop E data row n (col + 1) (pos + 6) g

/-- xlrd/sheet.py:868-876 MULRK -/
def readMulRk (E : XlsEnv σ) (g : Grid) (data : Bytes) : Except Exc Grid :=
  if (data.take 4).length = 4 then
    let first := field2 data 2
    let last := leNat (data.drop (data.length - 2))
    mulRkLoop E data (field2 data 0) (last + 1 - first) first 4 g
  else .error .structError

/-- xlrd/sheet.py:1001-1007 BOOLERR -/
def readBoolErr (g : Grid) (data : Bytes) : Except Exc Grid :=
  match (data.take 8) with
  | [_, _, _, _, _, _, value, isErr] =>
    if isErr = 0 then putE g (field2 data 0) (field2 data 2) { typ := xlBoolean, value := .int value.toNat, xf := field2 data 4 }
    else if isErr = 1 then putE g (field2 data 0) (field2 data 2) { typ := xlError, value := .int value.toNat, xf := field2 data 4 }
    else .error .indexError
  | _ => .error .structError

/-- xlrd/sheet.py:1521-1525: the characters of one record of a formula's text, after the
length. -/
def strChunk (E : XlsEnv σ) (b : Bytes) : Except Exc (List Char) :=
  if E.bv < 80 then E.text b
  else match b with
    | [] => .error .indexError
    | o :: b => decodeChars (optWide o) b

/-- xlrd/sheet.py:1518-1538: the loop of `string_record_contents`; `need` characters are
missing.  With the number of CONTINUE records taken. -/
def strLoop (E : XlsEnv σ) : Nat → Bytes → List Rec → Except Exc (List Char × Nat)
  | need, b, after =>
    match strChunk E b with
    | .error e => .error e
    | .ok s =>
      if s.length = need then .ok (s, 0)
      else if need < s.length then .error .xlrdError
      else match after with
        | [] => .error .structError
        | r :: after =>
          if r.code ≠ xlContinue then .error .xlrdError
          else match strLoop E (need - s.length) r.data after with
            | .error e => .error e
            | .ok (s', k) => .ok (s ++ s', k + 1)

/-- xlrd/sheet.py:1510-1538 `string_record_contents`; the count has one byte in BIFF 2. -/
def stringContents (E : XlsEnv σ) (data : Bytes) (after : List Rec) : Except Exc (List Char × Nat) :=
  let lenlen := if 30 ≤ E.bv then 2 else 1
  match unpackNat lenlen (data.take lenlen) with
  | .error e => .error e
  | .ok n => strLoop E n (data.drop lenlen) after

/-- xlrd/sheet.py:953-973: the record between a formula and its STRING record. -/
def betweenOk (r : Rec) : Except Exc Unit :=
  if r.code = xlArray then (if (r.data.take 14).length = 14 then .ok () else .error .structError)
  else if r.code = xlShrFmla then (if (r.data.take 10).length = 10 then .ok () else .error .structError)
  else if r.code ∈ xlTableOps then .ok ()
  else .error .xlrdError

/-- xlrd/sheet.py:947-981: the text of a formula from the records after it, with the number
of records taken. -/
def formulaText (E : XlsEnv σ) : List Rec → Except Exc (List Char × Nat)
  | [] => .error .structError
  | r :: after =>
    if r.code = xlString ∨ r.code = xlStringB2 then
      match stringContents E r.data after with
      | .error e => .error e
      | .ok (s, k) => .ok (s, k + 1)
    else match betweenOk r with
      | .error e => .error e
      | .ok () =>
        match after with
        | [] => .error .structError
        | r :: after =>
          if r.code = xlString ∨ r.code = xlStringB2 then
            match stringContents E r.data after with
            | .error e => .error e
            | .ok (s, k) => .ok (s, k + 2)
          else .error .xlrdError

/-- xlrd/sheet.py:945-1000: the cell of a formula, given the eight bytes of its result. -/
def formulaCell (E : XlsEnv σ) (g : Grid) (row col xf : Nat) (res : Bytes) (after : List Rec) : Except Exc (Grid × Nat) :=
  let cell (t : Nat) (v : Val) : Except Exc (Grid × Nat) := (putE g row col { typ := t, value := v, xf := xf }).map fun g => (g, 0)
  if pySlice res 6 8 = [0xFF, 0xFF] then
    let first := leNat (pySlice res 0 1)
    if first = 0 then
      match formulaText E after with
      | .error e => .error e
      | .ok (s, k) => (putText g row col xf s).map fun g => (g, k)
    else if first = 1 then cell xlBoolean (.int (leNat (pySlice res 2 3)))
    else if first = 2 then cell xlError (.int (leNat (pySlice res 2 3)))
    else if first = 3 then cell xlText (.str [])
    else .error .xlrdError
  else match unpackDouble res with
    | .error e => .error e
    | .ok d => (putNum E g row col d xf).map fun g => (g, 0)

/-- xlrd/sheet.py:929-1000 FORMULA, in BIFF 3 and later -/
def readFormula (E : XlsEnv σ) (g : Grid) (data : Bytes) (after : List Rec) : Except Exc (Grid × Nat) :=
  if (data.take 16).length = 16 then formulaCell E g (field2 data 0) (field2 data 2) (field2 data 4) (pySlice data 6 14) after
  else .error .structError

/-- The loop of biffh.py:348-351 over `n` ranges of eight bytes. -/
def rangesFrom (data : Bytes) : Nat → Nat → Except Exc Nat
  | 0, pos => .ok pos
  | n + 1, pos => if (pySlice data pos (pos + 8)).length = 8 then rangesFrom data n (pos + 8) else .error .structError

/-- biffh.py:336-352 `unpack_cell_range_address_list_update_pos` with addr_size 8 -/
def rangeList (data : Bytes) (pos : Nat) : Except Exc Nat :=
  match unpackNat 2 (pySlice data pos (pos + 2)) with
  | .error e => .error e
  | .ok n => rangesFrom data n (pos + 2)

/-- xlrd/sheet.py:1142-1150 LABELRANGES -/
def labelRangesOk (r : Rec) : Except Exc Unit :=
  match rangeList r.data 0 with
  | .error e => .error e
  | .ok pos =>
    match rangeList r.data pos with
    | .error e => .error e
    | .ok pos => if pos = r.len then .ok () else .error .assertionError

/-- `unpack` of the first `n` bytes. -/
def needs (n : Nat) (data : Bytes) : Except Exc Unit := if (data.take n).length = n then .ok () else .error .structError

/-- The records that set attributes beside the cells: what they need.  xlrd/sheet.py:1045-1052
(DEFCOLWIDTH, STANDARDWIDTH), 1142-1163 (LABELRANGES, ARRAY, SHRFMLA), 1241-1259
(DEFAULTROWHEIGHT), 1269-1286 (WINDOW2), 1304-1317 (SCL), 1318-1326 (PANE).  Other records do nothing. -/
def asideOk (bv : Nat) (r : Rec) : Except Exc Unit :=
  if r.code ∈ xlSkipped then .ok ()
  else if r.code = 0x55 ∨ r.code = 0x99 then needs 2 r.data
  else if r.code = 0x15F then labelRangesOk r
  else if r.code = xlArray then needs 14 r.data
  else if r.code = xlShrFmla then needs 10 r.data
  else if r.code = 0x225 then
    (if r.len = 4 then needs 4 r.data else if r.len = 2 then (if r.data.length = 2 then .ok () else .error .structError) else .ok ())
  else if r.code = 0x23E then (if 80 ≤ bv ∧ 14 ≤ r.len then needs 14 r.data else needs 9 r.data)
  else if r.code = 0xA0 then (if r.data.length = 4 then .ok () else .error .structError)
  else if r.code = 0x41 then needs 9 r.data
  else .ok ()

/-- xlrd/book.py:868-873 `handle_country` -/
def handleCountry (countries : Nat × Nat) (data : Bytes) : Except Exc (Nat × Nat) :=
  if (data.take 4).length = 4 then
    if countries = (0, 0) ∨ countries = (field2 data 0, field2 data 2) then .ok (field2 data 0, field2 data 2)
    else .error .assertionError
  else .error .structError

/-- xlrd/sheet.py:1130-1140: the records of an embedded chart, up to its EOF. -/
def skipChart : List Rec → Except Exc Nat
  | [] => .error .structError
  | r :: rest => if r.code = xlEof then .ok 1 else (skipChart rest).map (· + 1)

/-- xlrd/sheet.py:1084-1098 DIMENSION -/
def readDimension (bv : Nat) (g : Grid) (r : Rec) : Except Exc Grid :=
  if r.len = 0 then .ok g
  else if (if bv < 80 then (pySlice r.data 2 8).length = 6 else (pySlice r.data 4 12).length = 8) then
    .ok { g with nrows := 0, ncols := 0 }
  else .error .structError

/-- The state while a sheet is read. -/
structure XlsSt (σ : Type) where
  grid : Grid
  countries : Nat × Nat
  obj : σ

/-- xlrd/sheet.py:811-1501: one record (not EOF), with those after it; and how many of them it
takes. -/
def sheetStep (E : XlsEnv σ) (st : XlsSt σ) (r : Rec) (after : List Rec) : Except Exc (XlsSt σ × Nat) :=
  let cells (x : Except Exc Grid) : Except Exc (XlsSt σ × Nat) := x.map fun g => ({ st with grid := g }, 0)
  if r.code = xlNumberRec then cells (readNumber E st.grid r.data)
  else if r.code = xlLabelSst then cells (readLabelSst E st.grid r.data)
  else if r.code = xlLabel then cells (readLabel E st.grid r.data)
  else if r.code = xlRString then cells (readRString E st.grid r.data)
  else if r.code = xlRk then cells (readRk E st.grid r.data)
  else if r.code = xlMulRk then cells (readMulRk E st.grid r.data)
  else if r.code ∈ xlFormulas then (readFormula E st.grid r.data after).map fun p => ({ st with grid := p.1 }, p.2)
  else if r.code = xlBoolErr then cells (readBoolErr st.grid r.data)
  else if r.code ∈ xlDimensions then cells (readDimension E.bv st.grid r)
  else if r.code ∈ xlObjects then (E.obj st.obj r after).map fun p => ({ st with obj := p.1 }, p.2)
  else if r.code ∈ xlBofs then
    match needs 4 r.data with
    | .error e => .error e
    | .ok () => (skipChart after).map fun k => (st, k)
  else if r.code = xlCountry then (handleCountry st.countries r.data).map fun c => ({ st with countries := c }, 0)
  else (asideOk E.bv r).map fun _ => (st, 0)

/-- xlrd/sheet.py:811-1501: the loop over the records, up to EOF.  At the end of the file
`get_record_parts` raises; the first number is a bound for the rounds. -/
def sheetLoop (E : XlsEnv σ) : Nat → XlsSt σ → List Rec → Except Exc (XlsSt σ)
  | 0, _, _ => .error .structError
  | _ + 1, _, [] => .error .structError
  | n + 1, st, r :: rest =>
    if r.code = xlEof then .ok st
    else match sheetStep E st r rest with
      | .error e => .error e
      | .ok (st, k) => sheetLoop E n st (rest.drop k)

/-- xlrd/sheet.py:320-402 and 789-1508 `Sheet.read` from the records after the BOF: the cells
and `countries` (which belong to the book). -/
def readSheet (E : XlsEnv σ) (ragged : Bool) (obj : σ) (countries : Nat × Nat) (recs : List Rec) :
    Except Exc (Grid × (Nat × Nat)) :=
  let g := Grid.init false ragged (if 80 ≤ E.bv then 65536 else 16384) 256
  match sheetLoop E (recs.length + 1) ⟨g, countries, obj⟩ recs with
  | .error e => .error e
  | .ok st =>
    match st.grid.tidy with
    | (g, none) => .ok (g, st.countries)
    | (_, some e) => .error e

end CP
