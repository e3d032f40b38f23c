import Verif.Model.XlsBook
/-!
# Model of the reading of .xls files of BIFF 2, 3 and 4, channelpack/xlrd/book.py and sheet.py

Excel 2, 3 and 4 write a file with one work sheet, whose records hold what the globals of a book hold
later; Excel 4 also writes books (`.xlw`), with sheets between the records of the globals.  With the default
arguments, and without `formatting_info`, as in Model/XlsSheet.lean and Model/XlsBook.lean.
-/

namespace CP

variable {σ τ : Type}

/-- The state while a sheet is read: what the book has (with `actualfmtcount` and `_xf_epilogue_done`), `biff_version`
of the sheet and the book, `_ixfe`, `_cell_attr_to_xfx`, the cells, and the state of the objects. -/
structure OldSt (σ τ : Type) where
  G : Globals τ
  fmtCount : Nat
  epilogue : Bool
  bv : Nat
  ixfe : Option Nat
  attrs : List (Bytes × Nat)
  grid : Grid
  obj : σ

/-- `if not self.encoding: self.derive_encoding()` -/
def ensureEncoding (E : BookEnv σ τ) (bv : Nat) (G : Globals τ) : Except Exc (Globals τ) :=
  if G.encoding = none then deriveEncoding E bv G else .ok G

/-- `unicode(b, bk.encoding or bk.derive_encoding())` -/
def oldText (E : BookEnv σ τ) (st : OldSt σ τ) (b : Bytes) : Except Exc (List Char) :=
  match ensureEncoding E st.bv st.G with
  | .error e => .error e
  | .ok G => E.decode G.encoding b

/-- The encoding is there after text has been read. -/
def OldSt.settle (E : BookEnv σ τ) (st : OldSt σ τ) : OldSt σ τ :=
  match ensureEncoding E st.bv st.G with
  | .error _ => st
  | .ok G => { st with G := G }

/-- What the records that are as in later versions are read with. -/
def oldEnv (E : BookEnv σ τ) (bv : Nat) (st : OldSt σ τ) : XlsEnv σ where
  bv := bv
  rnd := E.rnd
  sst := st.G.sst
  xfType := fun n => dget st.G.xfTypes n
  text := oldText E st
  obj := E.obj bv (oldText E st)

/-- formatting.py:1016-1040 `xf_epilogue` -/
def OldSt.endXfs (st : OldSt σ τ) : OldSt σ τ :=
  { st with epilogue := true, G := { st.G with xfTypes := xfEpilogue st.G.formats 0 st.G.xfs st.G.xfTypes } }

/-! ## Formats -/

/-- formatting.py:525-573 `handle_format` before BIFF 5: the key is the number of the record. -/
def oldFormat (E : BookEnv σ τ) (bv code : Nat) (G : Globals τ) (count : Nat) (data : Bytes) : Except Exc (Globals τ) :=
  match ensureEncoding E bv G with
  | .error e => .error e
  | .ok G =>
    let v := if code = 0x1E then min bv 30 else bv
    match unpackString (E.decode G.encoding) data (if v ≤ 30 then 0 else 2) 1 with
    | .error e => .error e
    | .ok s => .ok { G with formats := dset G.formats count (isDateFormat s) }

/-- formatting.py:839-984: the format key in an XF record before BIFF 5 -/
def oldXfKey (bv : Nat) (data : Bytes) : Except Exc Nat :=
  if 30 ≤ bv then (if (data.take 12).length = 12 then .ok (leNat (pySlice data 1 2)) else .error .structError)
  else if bv = 21 then (if data.length = 4 then .ok (leNat (pySlice data 2 3) % 64) else .error .structError)
  else .error .xlrdError

/-- formatting.py:700-1014 `handle_xf` before BIFF 5 -/
def oldXf (bv : Nat) (G : Globals τ) (data : Bytes) : Except Exc (Globals τ) :=
  match oldXfKey bv data with
  | .error e => .error e
  | .ok key => .ok { G with
      xfTypes := dset G.xfTypes G.xfs.length (cellType G.formats key xlNumber)
      xfs := G.xfs ++ [if (dget G.formats key).isSome then key else 0] }

/-! ## Cells of BIFF 2 -/

/-- The format key among the attributes of a cell; xlrd/sheet.py:1664-1666 -/
def attrKey (attr : Bytes) : Nat := leNat (pySlice attr 1 2) % 64

/-- xlrd/sheet.py:1619-1648 `insert_new_BIFF20_xf` -/
def insertXf (st : OldSt σ τ) (attr : Bytes) : OldSt σ τ × Nat :=
  let n := st.G.xfs.length
  let formats := if (dget st.G.formats (attrKey attr)).isSome then st.G.formats else dset st.G.formats (attrKey attr) false
  ({ st with
     G := { st.G with
       formats := formats
       xfs := st.G.xfs ++ [attrKey attr]
       xfTypes := dset st.G.xfTypes n (cellType formats (attrKey attr) xlNumber) }
     attrs := dset st.attrs attr n }, n)

/-- `for xfx in xrange(16): self.insert_new_BIFF20_xf(cell_attr=b"\x40\x00\x00", ...)` -/
def insertStyles : Nat → OldSt σ τ → OldSt σ τ
  | 0, st => st
  | n + 1, st => insertStyles n (insertXf st [0x40, 0, 0]).1

/-- xlrd/sheet.py:1585-1617 `fixed_BIFF2_xfindex` for the attributes of a cell (three bytes) -/
def fixXf (st : OldSt σ τ) (attr : Bytes) : Except Exc (OldSt σ τ × Nat) :=
  let slot := leNat (attr.take 1) % 64
  if st.bv = 21 ∧ st.G.xfs ≠ [] then
    if slot = 63 then
      match st.ixfe with
      | none => .error .xlrdError
      | some n => .ok (st, n)
    else .ok (st, slot)
  else
    let st := { st with bv := if st.bv = 21 then 20 else st.bv }
    if slot ≠ 0 then .error .assertionError
    else match dget st.attrs attr with
      | some n => .ok (st, n)
      | none => .ok (insertXf (if st.G.xfs = [] then insertStyles 16 st else st) attr)

/-- xlrd/sheet.py:1379-1393: a cell with its type, value and attributes; without a type, it has that of the
format. -/
def oldPut (E : BookEnv σ τ) (bv : Nat) (st : OldSt σ τ) (data : Bytes) (typ : Option Nat) (v : Val) : Except Exc (OldSt σ τ) :=
  match fixXf st (pySlice data 4 7) with
  | .error e => .error e
  | .ok (st, xf) =>
    (match typ with
      | none => putNum (oldEnv E bv st) st.grid (field2 data 0) (field2 data 2) v xf
      | some t => putE st.grid (field2 data 0) (field2 data 2) { typ := t, value := v, xf := xf }).map fun g => { st with grid := g }

/-- xlrd/sheet.py:1379-1381 NUMBER -/
def oldNumber (E : BookEnv σ τ) (bv : Nat) (st : OldSt σ τ) (data : Bytes) : Except Exc (OldSt σ τ) :=
  if data.length = 15 then
    match unpackDouble (pySlice data 7 15) with
    | .error e => .error e
    | .ok d => oldPut E bv st data none d
  else .error .structError

/-- xlrd/sheet.py:1382-1384 INTEGER -/
def oldInteger (E : BookEnv σ τ) (bv : Nat) (st : OldSt σ τ) (data : Bytes) : Except Exc (OldSt σ τ) :=
  if data.length = 9 then oldPut E bv st data none (.flt (field2 data 7 : Nat))
  else .error .structError

/-- xlrd/sheet.py:1385-1388 LABEL -/
def oldLabel (E : BookEnv σ τ) (bv : Nat) (st : OldSt σ τ) (data : Bytes) : Except Exc (OldSt σ τ) :=
  if (data.take 7).length = 7 then
    match unpackString (oldText E st) data 7 1 with
    | .error e => .error e
    | .ok s => oldPut E bv (st.settle E) data (some xlText) (.str s)
  else .error .structError

/-- xlrd/sheet.py:1389-1393 BOOLERR -/
def oldBoolErr (E : BookEnv σ τ) (bv : Nat) (st : OldSt σ τ) (data : Bytes) : Except Exc (OldSt σ τ) :=
  if data.length = 9 then
    let value := Val.int (leNat (pySlice data 7 8))
    let isErr := leNat (pySlice data 8 9)
    if isErr = 0 then oldPut E bv st data (some xlBoolean) value
    else if isErr = 1 then oldPut E bv st data (some xlError) value
    else .error .indexError
  else .error .structError

/-- A formula has text if its result begins with 0 and ends with two bytes 255. -/
def textResult (res : Bytes) : Bool := pySlice res 6 8 = [0xFF, 0xFF] ∧ leNat (pySlice res 0 1) = 0

/-- xlrd/sheet.py:929-1000 FORMULA, in BIFF 2 -/
def oldFormula (E : BookEnv σ τ) (bv : Nat) (st : OldSt σ τ) (data : Bytes) (after : List Rec) : Except Exc (OldSt σ τ × Nat) :=
  if (data.take 16).length = 16 then
    match fixXf st (pySlice data 4 7) with
    | .error e => .error e
    | .ok (st, xf) =>
      match formulaCell (oldEnv E bv st) st.grid (field2 data 0) (field2 data 2) xf (pySlice data 7 15) after with
      | .error e => .error e
      | .ok (g, k) => .ok ({ (if textResult (pySlice data 7 15) then st.settle E else st) with grid := g }, k)
  else .error .structError

/-! ## Sheets -/

/-- FORMAT, FORMAT2, FONT, FONT_B3B4, STYLE, PALETTE, BUILTINFMTCOUNT, XF4, XF3, XF2, DATEMODE, CODEPAGE, FILEPASS,
WRITEACCESS, IXFE, NUMBER_B2, INTEGER, LABEL_B2, BOOLERR_B2, BLANK_B2, EFONT, ROW_B2, COLWIDTH, COLUMNDEFAULT, WINDOW2_B2 -/
def oldCodes : List Nat :=
  [0x41E, 0x1E, 0x31, 0x231, 0x293, 0x92, 0x56, 0x443, 0x243, 0x43, 0x22, 0x42, 0x2F, 0x5C, 0x44, 0x3, 0x2, 0x4, 0x5, 0x1,
   0x45, 0x8, 0x24, 0x20, 0x3E]

/-- xlrd/sheet.py:1354-1498: the records before BIFF 5. -/
def oldRecord (E : BookEnv σ τ) (bv : Nat) (st : OldSt σ τ) (r : Rec) : Except Exc (OldSt σ τ) :=
  let book (x : Except Exc (Globals τ)) : Except Exc (OldSt σ τ) := x.map fun G => { st with G := G }
  if r.code = 0x41E ∨ r.code = 0x1E then
    (oldFormat E st.bv r.code st.G st.fmtCount r.data).map fun G => { st with G := G, fmtCount := st.fmtCount + 1 }
  else if r.code = 0x293 then .ok (if st.epilogue then st else st.endXfs)
  else if r.code = 0x56 then (needs 2 r.data).map fun _ => st
  else if r.code = 0x443 ∨ r.code = 0x243 ∨ r.code = 0x43 then book (oldXf st.bv st.G r.data)
  else if r.code = xlDatemode then book (handleDatemode st.G r.data)
  else if r.code = xlCodepage then book (handleCodepage E st.bv st.G r.data)
  else if r.code = xlFilepass then .error .xlrdError
  else if r.code = xlWriteaccess then book (handleWriteaccess E st.bv st.G r.data)
  else if r.code = 0x44 then (unpackNat 2 r.data).map fun n => { st with ixfe := some n }
  else if r.code = 0x3 then oldNumber E bv st r.data
  else if r.code = 0x2 then oldInteger E bv st r.data
  else if r.code = 0x4 then oldLabel E bv st r.data
  else if r.code = 0x5 then oldBoolErr E bv st r.data
  else if r.code = 0x3E then (needs 13 r.data).map fun _ => st
  else .ok st

/-- Records of later versions too, whose text is in the encoding of the book: LABEL, RSTRING, NOTE, and formulas with
text. -/
def usesText (r : Rec) : Bool :=
  r.code ∈ [xlLabel, xlRString, 0x1C] ∨ r.code ∈ xlFormulas ∧ textResult (pySlice r.data 6 14)

/-- xlrd/sheet.py:1097-1098: at DIMENSIONS the formats are settled. -/
def OldSt.dimensions (st : OldSt σ τ) (bv : Nat) (r : Rec) : OldSt σ τ :=
  if r.code ∈ xlDimensions ∧ r.len ≠ 0 ∧ bv ∈ [21, 30, 40] ∧ st.G.xfs ≠ [] ∧ st.epilogue = false then st.endXfs else st

/-- xlrd/sheet.py:811-1501: one record (not EOF), with those after it; and how many of them it
takes.  `bv` is the version at the beginning (`biff_version` may change from 21 to 20). -/
def oldStep (E : BookEnv σ τ) (bv : Nat) (st : OldSt σ τ) (r : Rec) (after : List Rec) : Except Exc (OldSt σ τ × Nat) :=
  if r.code ∈ oldCodes then (oldRecord E bv st r).map fun st => (st, 0)
  else if r.code ∈ xlFormulas ∧ bv < 30 then oldFormula E bv st r.data after
  else if r.code = 0x23E ∧ bv < 30 then .error .assertionError
  else
    match sheetStep (oldEnv E bv st) ⟨st.grid, st.G.countries, st.obj⟩ r after with
    | .error e => .error e
    | .ok (s, k) =>
      let st := if usesText r then st.settle E else st
      .ok ({ (st.dimensions bv r) with G := { (st.dimensions bv r).G with countries := s.countries }, grid := s.grid, obj := s.obj }, k)

/-- xlrd/sheet.py:811-1501: the loop over the records, up to EOF, as `sheetLoop`. -/
def oldLoop (E : BookEnv σ τ) (bv : Nat) : Nat → OldSt σ τ → List Rec → Except Exc (OldSt σ τ)
  | 0, _, _ => .error .structError
  | _ + 1, _, [] => .error .structError
  | n + 1, st, r :: rest =>
    if r.code = xlEof then .ok st
    else match oldStep E bv st r rest with
      | .error e => .error e
      | .ok (st, k) => oldLoop E bv n st (rest.drop k)

/-- xlrd/sheet.py:320-402 and 789-1508 `Sheet.read` from the records after the BOF, with what the book has: that, and the
cells.  (The rows are not ragged, channelpack/readxl.py:127.) -/
def readOldSheet (E : BookEnv σ τ) (bv : Nat) (G : Globals τ) (recs : List Rec) : Except Exc (Globals τ × Grid) :=
  match oldLoop E bv (recs.length + 1) ⟨G, 0, false, bv, none, [], Grid.init false false 16384 256, E.obj0⟩ recs with
  | .error e => .error e
  | .ok st =>
    match st.grid.tidy with
    | (g, none) => .ok (st.G, g)
    | (_, some e) => .error e

/-! ## Books of Excel 4 -/

/-- The position after `n` records. -/
def skipRecords (mem : Bytes) : Nat → Int → Int
  | 0, pos => pos
  | n + 1, pos => match recordAt mem pos with
    | .error _ => pos
    | .ok (_, pos) => skipRecords mem n pos

/-- The state while the globals of a book of Excel 4 are read: what the book has (the names of the sheets of its BOUNDSHEET
records are in `sheets`), `actualfmtcount`, `_sheetsoffset` (not there at first), and the sheets so far (`_sheethdr_count`
of them). -/
structure Old4W (τ : Type) where
  G : Globals τ
  fmtCount : Nat
  offset : Option Int
  done : List BookSheet

/-- xlrd/book.py:758-808 `handle_boundsheet` in BIFF 4W -/
def bound4 (E : BookEnv σ τ) (base : Int) (st : Old4W τ) (data : Bytes) : Except Exc (Old4W τ) :=
  match deriveEncoding E 45 st.G with
  | .error e => .error e
  | .ok G =>
    match unpackString (E.decode G.encoding) data 0 1 with
    | .error e => .error e
    | .ok name =>
      match (if G.sheets = [] then st.offset.map (· + base) else some (-1)) with
      | none => .error .attributeError
      | some pos => .ok { st with G := { G with allSheets := G.allSheets ++ [(name, 0)], sheets := G.sheets ++ [(name, pos)] } }

/-- xlrd/book.py:680-689 `initialise_format_info` -/
def Globals.noFormats (G : Globals τ) : Globals τ := { G with formats := [], xfs := [], xfTypes := [(0, xlNumber)] }

/-- xlrd/book.py:1158-1177 `handle_sheethdr`, with the position after the record; and the position to go on from. -/
def sheetHeader (E : BookEnv σ τ) (mem : Bytes) (st : Old4W τ) (data : Bytes) (pos : Int) : Except Exc (Old4W τ × Int) :=
  match deriveEncoding E 45 st.G with
  | .error e => .error e
  | .ok G =>
    if (data.take 4).length = 4 then
      match unpackString (E.decode G.encoding) data 4 1 with
      | .error e => .error e
      | .ok name =>
        match G.sheets[st.done.length]? with
        | none => .error .indexError
        | some (name', _) =>
          if name ≠ name' then .error .assertionError
          else match getbof mem pos 0x10 with
            | .error e => .error e
            | .ok (_, p) =>
              match readOldSheet E 45 G.noFormats (recordsAt mem p) with
              | .error e => .error e
              | .ok (G, g) => .ok (⟨G, 0, st.offset, st.done ++ [⟨name, g⟩]⟩, pos + leInt (data.take 4))
    else .error .structError

/-- xlrd/book.py:1234-1273: one record of the globals (not EOF) in BIFF 4W, at a position, with the position after it; and
the position to go on from.  (`actualfmtcount` after a sheet does not matter: the formats are for the globals only.) -/
def step4 (E : BookEnv σ τ) (base : Int) (mem : Bytes) (st : Old4W τ) (r : Rec) (pos : Int) : Except Exc (Old4W τ × Int) :=
  if r.code = xlFormat then
    (oldFormat E 45 r.code st.G st.fmtCount r.data).map fun G => ({ st with G := G, fmtCount := st.fmtCount + 1 }, pos)
  else if r.code = xlXf then (oldXf 45 st.G r.data).map fun G => ({ st with G := G }, pos)
  else if r.code = xlBoundsheet then (bound4 E base st r.data).map fun st => (st, pos)
  else if r.code = xlSheetsoffset then
    (if r.data.length = 4 then .ok ({ st with offset := some (leInt r.data) }, pos) else .error .structError)
  else if r.code = xlSheethdr then sheetHeader E mem st r.data pos
  else if r.code = 0x18 then .ok (st, pos)
  else (globalsStep E 45 base st.G r (recordsAt mem pos)).map fun p => ({ st with G := p.1 }, skipRecords mem p.2 pos)

/-- xlrd/book.py:1228-1290 `parse_globals` in BIFF 4W, from a position on.  The first number bounds the rounds: a file
whose SHEETHDR leads back to earlier records may be read without end, for which an exception stands here. -/
def loop4 (E : BookEnv σ τ) (base : Int) (mem : Bytes) : Nat → Old4W τ → Int → Except Exc (Old4W τ)
  | 0, _, _ => .error .generic
  | n + 1, st, pos =>
    match recordAt mem pos with
    | .error e => .error e
    | .ok (r, pos) =>
      if r.code = xlEof then (globalsEnd E 45 st.G).map fun G => { st with G := G }
      else match step4 E base mem st r pos with
        | .error e => .error e
        | .ok (st, pos) => loop4 E base mem n st pos

/-- xlrd/book.py:102-124, 749-756: files of BIFF 2 to 4: the date mode and the sheets. -/
def oldBook (E : BookEnv σ τ) (bv : Nat) (mem : Bytes) (base : Int) : Except Exc (Nat × List BookSheet) :=
  if bv = 45 then
    match getbof mem base 5 with
    | .error e => .error e
    | .ok (_, pos) =>
      (loop4 E base mem (mem.length + 1) ⟨Globals.init E.names0, 0, none, []⟩ pos).map fun st => (st.G.datemode, st.done)
  else
    match getbof mem 0 0x10 with
    | .error e => .error e
    | .ok (_, pos) =>
      (readOldSheet E bv (Globals.init E.names0) (recordsAt mem pos)).map fun p =>
        (p.1.datemode, [⟨"Sheet 1".toList, p.2⟩])

/-- A book environment with the reading of files before BIFF 5. -/
def BookEnv.withOld (E : BookEnv σ τ) : BookEnv σ τ := { E with old := oldBook E }

end CP
