import Verif.Model.XlsSheet
import Verif.Model.Formatting
import Verif.Model.Xlsx
/-!
# Model of `open_workbook_xls`, channelpack/xlrd/book.py: .xls files

With the default arguments (no `encoding_override`, no `formatting_info`, not `on_demand`,
verbosity 0).  Files of BIFF 2 to 4 are left to a parameter (Model/XlsOld.lean), and so are the
records of external references and of names, with `names_epilogue`.
-/

namespace CP

/-- What reading a book depends on: rounding, the codecs of python by name, the handler of
hyperlinks, objects and notes in a sheet (with its first state), that of external references
and names (SUPBOOK, EXTERNSHEET, EXTERNNAME, NAME: given the version, the text for bytes in the
encoding, its state, the record and those after it), `names_epilogue` (given the version, the text
for bytes, the state, and the names and types of all sheets), and the reading of files before
BIFF 5.  Model/XlsObjects.lean, Model/XlsNames.lean and Model/XlsOld.lean have these. -/
structure BookEnv (σ τ : Type) where
  rnd : Rat → Rat
  codec : List Char → Bytes → Except Exc (List Char)
  obj : Nat → (Bytes → Except Exc (List Char)) → σ → Rec → List Rec → Except Exc (σ × Nat)
  obj0 : σ
  names : Nat → (Bytes → Except Exc (List Char)) → τ → Rec → List Rec → Except Exc (τ × Nat)
  names0 : τ
  namesEnd : Nat → (Bytes → Except Exc (List Char)) → τ → List (List Char × Nat) → Except Exc Unit
  old : Nat → Bytes → Int → Except Exc (Nat × List BookSheet)

variable {σ τ : Type}

/-- What the globals of a book leave: `codepage`, `encoding`, the raw user name if it is not
decoded yet (`raw_user_name`), `datemode`, `countries`, `format_map` (whether the type is FDT),
`xf_list` (the format keys), `_xf_index_to_xl_type_map`, `_sheet_names` with `_sh_abs_posn`,
the names and types of all sheets, the shared strings, and the state of the names. -/
structure Globals (τ : Type) where
  codepage : Option Nat
  encoding : Option (List Char)
  rawUser : Option Bytes
  datemode : Nat
  countries : Nat × Nat
  formats : List (Nat × Bool)
  xfs : List Nat
  xfTypes : List (Nat × Nat)
  sheets : List (List Char × Int)
  allSheets : List (List Char × Nat)
  sst : List (List Char)
  names : τ

/-- xlrd/book.py:311-352, 583-614, 680-689: `Book.__init__` -/
def Globals.init (names : τ) : Globals τ where
  codepage := none
  encoding := none
  rawUser := none
  datemode := 0
  countries := (0, 0)
  formats := []
  xfs := []
  xfTypes := [(0, xlNumber)]
  sheets := []
  allSheets := []
  sst := []
  names := names

/-! ## The encoding -/

/-- biffh.py:621-631 `encoding_from_codepage` -/
def codepages : List (Nat × List Char) :=
  [(1200, "utf_16_le".toList), (10000, "mac_roman".toList), (10006, "mac_greek".toList), (10007, "mac_cyrillic".toList),
   (10029, "mac_latin2".toList), (10079, "mac_iceland".toList), (10081, "mac_turkish".toList), (32768, "mac_roman".toList),
   (32769, "cp1252".toList)]

/-- `unicode(b, self.encoding)` -/
def BookEnv.decode (E : BookEnv σ τ) (enc : Option (List Char)) (b : Bytes) : Except Exc (List Char) :=
  match enc with
  | none => .error .typeError
  | some e => E.codec e b

/-- xlrd/book.py:820-842: the encoding from the code page (and the code page, which may change). -/
def chooseEncoding (bv : Nat) (codepage : Option Nat) (encoding : Option (List Char)) : Option Nat × Option (List Char) :=
  match codepage with
  | none => if bv < 80 then (none, some "iso-8859-1".toList) else (some 1200, encoding)
  | some cp =>
    match dget codepages cp with
    | some e => (some cp, some e)
    | none =>
      if 300 ≤ cp ∧ cp ≤ 1999 then (some cp, some (['c', 'p'] ++ Nat.toDigits 10 cp))
      else if 80 ≤ bv then (some 1200, some "utf_16_le".toList)
      else (some cp, some ("unknown_codepage_".toList ++ Nat.toDigits 10 cp))

/-- xlrd/book.py:847 -/
def trial : Bytes := [116, 114, 105, 97, 108]

/-- xlrd/book.py:843-852: the check of the codec. -/
def tryCodec (E : BookEnv σ τ) (codepage : Option Nat) (encoding : Option (List Char)) : Except Exc Unit :=
  if codepage = some 1200 then .ok ()
  else match E.decode encoding trial with
    | .error e => .error e
    | .ok _ => .ok ()

/-- xlrd/book.py:817-860 `derive_encoding` -/
def deriveEncoding (E : BookEnv σ τ) (bv : Nat) (G : Globals τ) : Except Exc (Globals τ) :=
  let p := chooseEncoding bv G.codepage G.encoding
  match tryCodec E p.1 p.2 with
  | .error e => .error e
  | .ok () =>
    match G.rawUser with
    | none => .ok { G with codepage := p.1, encoding := p.2 }
    | some u =>
      match unpackString (E.decode p.2) u 0 1 with
      | .error e => .error e
      | .ok _ => .ok { G with codepage := p.1, encoding := p.2, rawUser := none }

/-! ## The records of the globals -/

def xlSst : Nat := 0xFC
def xlFormat : Nat := 0x41E
def xlXf : Nat := 0xE0
def xlBoundsheet : Nat := 0x85
def xlDatemode : Nat := 0x22
def xlCodepage : Nat := 0x42
def xlFilepass : Nat := 0x2F
def xlWriteaccess : Nat := 0x5C
def xlSheetsoffset : Nat := 0x8E
def xlSheethdr : Nat := 0x8F
/-- EXTERNSHEET and NAME, whose handlers call `derive_encoding` -/
def xlNamesEnc : List Nat := [0x17, 0x18]
/-- EXTERNNAME and SUPBOOK -/
def xlNamesOther : List Nat := [0x23, 0x1AE]

/-- xlrd/book.py:1195-1202: the CONTINUE records after SST.  At the end of the file
`get_record_parts_conditional` raises. -/
def sstConts : List Rec → Except Exc (List Bytes)
  | [] => .error .structError
  | r :: rest => if r.code = xlContinue then (sstConts rest).map (r.data :: ·) else .ok []

/-- xlrd/book.py:1185-1208 `handle_sst` -/
def handleSst (G : Globals τ) (data : Bytes) (after : List Rec) : Except Exc (Globals τ × Nat) :=
  match sstConts after with
  | .error e => .error e
  | .ok conts =>
    match readSST data conts with
    | .error e => .error e
    | .ok ss => .ok ({ G with sst := ss }, conts.length)

/-- formatting.py:525-573 `handle_format` for BIFF 5 and later -/
def handleFormat (E : BookEnv σ τ) (bv : Nat) (G : Globals τ) (data : Bytes) : Except Exc (Globals τ) :=
  match (if G.encoding = none then deriveEncoding E bv G else .ok G) with
  | .error e => .error e
  | .ok G =>
    match unpackNat 2 (data.take 2) with
    | .error e => .error e
    | .ok key =>
      match (if 80 ≤ bv then unpackUnicode data 2 2 else unpackString (E.decode G.encoding) data 2 1) with
      | .error e => .error e
      | .ok s => .ok { G with formats := dset G.formats key (isDateFormat s) }

/-- formatting.py:406-428 `std_format_code_types`: whether the type is FDT -/
def stdFormats : List (Nat × Bool) :=
  (List.range' 0 14).map (·, false) ++ (List.range' 14 9).map (·, true) ++ (List.range' 27 10).map (·, true) ++
  (List.range' 37 8).map (·, false) ++ (List.range' 45 3).map (·, true) ++ (List.range' 48 2).map (·, false) ++
  (List.range' 50 9).map (·, true) ++ (List.range' 59 4).map (·, false) ++ (List.range' 67 4).map (·, false) ++
  (List.range' 71 11).map (·, true)

/-- formatting.py:689-698 `fill_in_standard_formats` -/
def fillFormats (formats : List (Nat × Bool)) : List (Nat × Bool) :=
  stdFormats.foldl (fun d p => if (dget d p.1).isSome then d else dset d p.1 p.2) formats

/-- formatting.py:25-31, 996-1001, 1035-1040: the cell type for a format key. -/
def cellType (formats : List (Nat × Bool)) (key default : Nat) : Nat :=
  match dget formats key with
  | some true => xlDate
  | some false => xlNumber
  | none => default

/-- formatting.py:700-1014 `handle_xf` for BIFF 5 and later: only the format key matters. -/
def handleXf (bv : Nat) (G : Globals τ) (data : Bytes) : Except Exc (Globals τ) :=
  let formats := if G.xfs = [] then fillFormats G.formats else G.formats
  let size := if 80 ≤ bv then 20 else 16
  if (data.take size).length = size then
    let key := field2 data 2
    .ok { G with
      formats := formats
      xfTypes := dset G.xfTypes G.xfs.length (cellType formats key xlNumber)
      xfs := G.xfs ++ [if (dget formats key).isSome then key else 0] }
  else .error .structError

/-- formatting.py:1016-1040 `xf_epilogue`: the loop, from the XF number `i` on. -/
def xfEpilogue (formats : List (Nat × Bool)) : Nat → List Nat → List (Nat × Nat) → List (Nat × Nat)
  | _, [], m => m
  | i, key :: rest, m => xfEpilogue formats (i + 1) rest (dset m i (cellType formats key xlText))

/-- xlrd/book.py:758-808 `handle_boundsheet` for BIFF 5 and later -/
def handleBoundsheet (E : BookEnv σ τ) (bv : Nat) (base : Int) (G : Globals τ) (data : Bytes) : Except Exc (Globals τ) :=
  match deriveEncoding E bv G with
  | .error e => .error e
  | .ok G =>
    match data.take 6 with
    | [a, b, c, d, _, typ] =>
      match (if bv < 80 then unpackString (E.decode G.encoding) data 6 1 else unpackUnicode data 6 1) with
      | .error e => .error e
      | .ok name =>
        let all := G.allSheets ++ [(name, typ.toNat)]
        if typ ≠ 0 then .ok { G with allSheets := all }
        else .ok { G with allSheets := all, sheets := G.sheets ++ [(name, leInt [a, b, c, d] + base)] }
    | _ => .error .structError

/-- xlrd/book.py:875-880 `handle_datemode` -/
def handleDatemode (G : Globals τ) (data : Bytes) : Except Exc (Globals τ) :=
  match unpackNat 2 (data.take 2) with
  | .error e => .error e
  | .ok n => if n = 0 ∨ n = 1 then .ok { G with datemode := n } else .error .assertionError

/-- xlrd/book.py:862-866 `handle_codepage` -/
def handleCodepage (E : BookEnv σ τ) (bv : Nat) (G : Globals τ) (data : Bytes) : Except Exc (Globals τ) :=
  match unpackNat 2 (data.take 2) with
  | .error e => .error e
  | .ok n => deriveEncoding E bv { G with codepage := some n }

/-- xlrd/book.py:1210-1226 `handle_writeaccess` -/
def handleWriteaccess (E : BookEnv σ τ) (bv : Nat) (G : Globals τ) (data : Bytes) : Except Exc (Globals τ) :=
  if bv < 80 then
    if G.encoding = none then .ok { G with rawUser := some data }
    else (unpackString (E.decode G.encoding) data 0 1).map fun _ => G
  else match unpackUnicode data 0 2 with
    | .ok _ => .ok G
    | .error .unicodeError => (unpackUnicode (stripB data) 0 2).map fun _ => G
    | .error e => .error e

/-- xlrd/book.py:1234-1273: one record of the globals (not EOF), with those after it; and how
many of them it takes.  FONT, PALETTE and STYLE do nothing without formatting_info.  SHEETHDR
(BIFF 4 only) is not modelled: an exception stands for it. -/
def globalsStep (E : BookEnv σ τ) (bv : Nat) (base : Int) (G : Globals τ) (r : Rec) (after : List Rec) :
    Except Exc (Globals τ × Nat) :=
  let one (x : Except Exc (Globals τ)) : Except Exc (Globals τ × Nat) := x.map fun G => (G, 0)
  if r.code = xlSst then handleSst G r.data after
  else if r.code = xlFormat then one (handleFormat E bv G r.data)
  else if r.code = xlXf then one (handleXf bv G r.data)
  else if r.code = xlBoundsheet then one (handleBoundsheet E bv base G r.data)
  else if r.code = xlDatemode then one (handleDatemode G r.data)
  else if r.code = xlCodepage then one (handleCodepage E bv G r.data)
  else if r.code = xlCountry then one ((handleCountry G.countries r.data).map fun c => { G with countries := c })
  else if r.code ∈ xlNamesEnc then
    match deriveEncoding E bv G with
    | .error e => .error e
    | .ok G => (E.names bv (E.decode G.encoding) G.names r after).map fun p => ({ G with names := p.1 }, p.2)
  else if r.code ∈ xlNamesOther then (E.names bv (E.decode G.encoding) G.names r after).map fun p => ({ G with names := p.1 }, p.2)
  else if r.code = xlFilepass then .error .xlrdError
  else if r.code = xlWriteaccess then one (handleWriteaccess E bv G r.data)
  else if r.code = xlSheetsoffset then (if r.data.length = 4 then .ok (G, 0) else .error .structError)
  else if r.code = xlSheethdr then .error .generic
  else .ok (G, 0)

/-- xlrd/book.py:1274-1286: at the end of the globals. -/
def globalsEnd (E : BookEnv σ τ) (bv : Nat) (G : Globals τ) : Except Exc (Globals τ) :=
  let G := { G with xfTypes := xfEpilogue G.formats 0 G.xfs G.xfTypes }
  match E.namesEnd bv (E.decode G.encoding) G.names G.allSheets with
  | .error e => .error e
  | .ok () => if G.encoding = none then deriveEncoding E bv G else .ok G

/-- xlrd/book.py:1228-1290 `parse_globals`, given the records.  At the end of the file
`get_record_parts` raises; the first number is a bound for the rounds. -/
def globalsLoop (E : BookEnv σ τ) (bv : Nat) (base : Int) : Nat → Globals τ → List Rec → Except Exc (Globals τ)
  | 0, _, _ => .error .structError
  | _ + 1, _, [] => .error .structError
  | n + 1, G, r :: rest =>
    if r.code = xlEof then globalsEnd E bv G
    else match globalsStep E bv base G r rest with
      | .error e => .error e
      | .ok (G, k) => globalsLoop E bv base n G (rest.drop k)

/-! ## BOF -/

/-- biffh.py:215 `boflen` -/
def bofLen (op : Nat) : Nat := if op = 0x809 then 8 else if op = 0x409 ∨ op = 0x209 then 6 else 4

/-- xlrd/book.py:1333-1355: the version -/
def bofVersion (op version2 streamtype build year : Nat) : Nat :=
  let v :=
    if op = 0x809 then
      if version2 = 0x600 then 80
      else if version2 = 0x500 then (if year < 1994 ∨ build ∈ [2412, 3218, 3321] then 50 else 70)
      else if version2 = 0 ∨ version2 = 7 ∨ version2 = 0x200 then 21
      else if version2 = 0x300 then 30
      else if version2 = 0x400 then 40
      else 0
    else if op = 0x409 then 40
    else if op = 0x209 then 30
    else 21
  if v = 40 ∧ streamtype = 0x100 then 45 else v

/-- xlrd/book.py:1297-1371 `getbof`: the version and the position after the record. -/
def getbof (mem : Bytes) (pos : Int) (rqd : Nat) : Except Exc (Nat × Int) :=
  let b := pySliceI mem pos (pos + 2)
  if b.length < 2 ∨ leNat b ∉ xlBofs then .error .xlrdError
  else
    let op := leNat b
    let b := pySliceI mem (pos + 2) (pos + 4)
    if b.length < 2 ∨ leNat b < 4 ∨ 20 < leNat b then .error .xlrdError
    else
      let len := leNat b
      let data := pySliceI mem (pos + 4) (pos + 4 + len)
      if data.length < len then .error .xlrdError
      else
        let data := data ++ List.replicate (bofLen op - len) 0
        let streamtype := field2 data 2
        let version := bofVersion op (field2 data 0) streamtype (field2 data 4) (field2 data 6)
        let globals := streamtype = 5 ∨ version = 45 ∧ streamtype = 0x100
        if (rqd = 5 ∧ globals) ∨ streamtype = rqd ∨ version < 50 ∧ streamtype = 0x10 then .ok (version, pos + 4 + len)
        else .error .xlrdError

/-! ## Books -/

/-- What the sheets of a book are read with.  (In BIFF 8 `derive_encoding` may leave the encoding
unset; sheets use it before BIFF 8 only.) -/
def sheetEnv (E : BookEnv σ τ) (bv : Nat) (G : Globals τ) : XlsEnv σ where
  bv := bv
  rnd := E.rnd
  sst := G.sst
  xfType := fun n => dget G.xfTypes n
  text := E.decode G.encoding
  obj := E.obj bv (E.decode G.encoding)

/-- xlrd/book.py:721-748 `get_sheets`, `get_sheet`; the country settings go on from sheet to sheet. -/
def getSheets (E : BookEnv σ τ) (bv : Nat) (G : Globals τ) (ragged : Bool) (mem : Bytes) :
    Nat × Nat → List (List Char × Int) → Except Exc (List BookSheet)
  | _, [] => .ok []
  | countries, (name, pos) :: rest =>
    match getbof mem pos 0x10 with
    | .error e => .error e
    | .ok (_, pos) =>
      match readSheet (sheetEnv E bv G) ragged E.obj0 countries (recordsAt mem pos) with
      | .error e => .error e
      | .ok (g, countries) =>
        match getSheets E bv G ragged mem countries rest with
        | .error e => .error e
        | .ok gs => .ok (⟨name, g⟩ :: gs)

/-- xlrd/book.py:70-139 `open_workbook_xls` after `biff2_8_load`: the date mode and the sheets. -/
def openStream (E : BookEnv σ τ) (ragged : Bool) (mem : Bytes) (base : Int) : Except Exc (Nat × List BookSheet) :=
  match getbof mem base 5 with
  | .error e => .error e
  | .ok (bv, pos) =>
    if bv = 0 then .error .xlrdError
    else if bv < 50 then E.old bv mem base
    else
      let recs := recordsAt mem pos
      match globalsLoop E bv base (recs.length + 1) (Globals.init E.names0) recs with
      | .error e => .error e
      | .ok G =>
        match getSheets E bv G ragged mem G.countries G.sheets with
        | .error e => .error e
        | .ok gs => .ok (G.datemode, gs)

end CP
