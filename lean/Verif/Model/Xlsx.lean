import Verif.Model.SheetCells
import Verif.Model.Formatting
import Verif.Model.Xml
/-!
# Model of channelpack/xlrd/xlsx.py

XML parsing is not modelled: the parts of the zip file are given as trees of elements.  Not
modelled either: output to the log.  Which exceptions are raised for defined names, core
properties (`docProps/core.xml`) and the comments of a sheet is a parameter; otherwise these
have no influence on the cells.  `formatting_info` is False
(otherwise `open_workbook_2007_xml` raises NotImplementedError).
-/

namespace CP

/-! ## Cell names -/

/-- What is used of Python: `str.upper()`, `str.lower()`, `int()` and `float()` of a str;
`path` is `normpath(join('xl/worksheets', target))`; `notes`, `names` and `props` say which
exception `process_comments_stream`, `do_defined_names` and `process_coreprops` raise. -/
structure XlEnv where
  up : Upper
  low : List Char → List Char
  int : List Char → Except Exc Int
  float : List Char → Except Exc Val
  path : List Char → List Char
  notes : Elem → Option Exc
  names : Elem → Option Exc
  props : Elem → Option Exc

/-- xlsx.py:43-48 `_UPPERCASE_1_REL_INDEX`; none for a KeyError. -/
def cellCharValue (c : Char) : Option Nat :=
  if 65 ≤ c.toNat ∧ c.toNat ≤ 90 then some (c.toNat - 64)
  else if 49 ≤ c.toNat ∧ c.toNat ≤ 57 then some 0
  else none

/-- xlsx.py:57-74: the loop of `cell_name_to_rowx_colx`; the result is (charx, colx).
`charx` is the index of the character to come. -/
def cellNameLoop (allowNoCol : Bool) : (charx colx : Nat) → List Char → Except Exc (Int × Option Nat)
  | charx, colx, [] => .ok ((charx : Int) - 1, some colx)
  | charx, colx, c :: cs =>
    match cellCharValue c with
    | none => .error .generic
    | some 0 =>
      if charx = 0 then (if allowNoCol then .ok (0, none) else .error .generic)
      else if 0 ≤ (colx : Int) - 1 ∧ colx - 1 < 16384 then .ok (charx, some (colx - 1))
      else .error .assertionError
    | some lv => cellNameLoop allowNoCol (charx + 1) (colx * 26 + lv) cs

/-- `s[i:]` of a Python sequence -/
def pyFrom {α : Type} (l : List α) (i : Int) : List α :=
  if i < 0 then l.drop (i + l.length).toNat else l.drop i.toNat

/-- xlsx.py:50-78 `cell_name_to_rowx_colx` -/
def cellNameToRowxColx (E : XlEnv) (cellName : List Char) (allowNoCol : Bool) : Except Exc (Int × Option Nat) :=
  match cellNameLoop allowNoCol 0 0 (cellName.flatMap E.up) with
  | .error e => .error e
  | .ok (charx, colx) =>
    match E.int (pyFrom cellName charx) with
    | .error e => .error e
    | .ok n => .ok (n - 1, colx)

/-! ## Text -/

/-- Value of a hexadecimal digit `[0-9A-Fa-f]`. -/
def hexVal (c : Char) : Option Nat :=
  let n := c.toNat
  if 48 ≤ n ∧ n ≤ 57 then some (n - 48)
  else if 65 ≤ n ∧ n ≤ 70 then some (n - 55)
  else if 97 ≤ n ∧ n ≤ 102 then some (n - 87)
  else none

/-- A match of `_x[0-9A-Fa-f]{4,4}_` at the start: the number. -/
def escapeAt : List Char → Option Nat
  | c0 :: c1 :: a :: b :: c :: d :: c6 :: _ =>
    if c0 = '_' ∧ c1 = 'x' ∧ c6 = '_' then
      match hexVal a, hexVal b, hexVal c, hexVal d with
      | some a, some b, some c, some d => some (((a * 16 + b) * 16 + c) * 16 + d)
      | _, _, _, _ => none
    else none
  | _ => none

/-- The loop of `re.sub`; `skip` characters belong to the last match.  (`unichr` of a
surrogate gives a character that is none in Lean; here it is NUL, see `Char.ofNat`.) -/
def unescapeLoop : (skip : Nat) → List Char → List Char
  | _, [] => []
  | k + 1, _ :: cs => unescapeLoop k cs
  | 0, c :: cs =>
    match escapeAt (c :: cs) with
    | some n => Char.ofNat n :: unescapeLoop 6 cs
    | none => c :: unescapeLoop 0 cs

/-- xlsx.py:100-105 `unescape`.  (If there is no underscore in the text, `re.sub` finds no
match.) -/
def unescape (s : List Char) : List Char := unescapeLoop 0 s

/-- `XML_WHITESPACE`, xlsx.py:93 -/
def xmlSpace (c : Char) : Bool := c = '\t' || c = '\n' || c = ' ' || c = '\r'

/-- `t.strip(XML_WHITESPACE)` -/
def xmlStrip (s : List Char) : List Char := ((s.dropWhile xmlSpace).reverse.dropWhile xmlSpace).reverse

/-- xlsx.py:107-113 `cooked_text` -/
def cookedText (e : Elem) : List Char :=
  match e.text with
  | none => []
  | some t =>
    unescape (if e.get ⟨.xml, ['s', 'p', 'a', 'c', 'e']⟩ = some ['p', 'r', 'e', 's', 'e', 'r', 'v', 'e'] then t else xmlStrip t)

/-- xlsx.py:115-131 `get_text_from_si_or_is` -/
def siText (e : Elem) : List Char :=
  e.children.flatMap fun child =>
    if child.tag = ssml ['t'] then cookedText child
    else if child.tag = ssml ['r'] then
      child.children.flatMap fun tnode => if tnode.tag = ssml ['t'] then cookedText tnode else []
    else []

/-- xlsx.py:154-161 `cnv_xsd_boolean` -/
def xsdBoolean (s : Option (List Char)) : Except Exc Nat :=
  match s with
  | none => .ok 0
  | some s =>
    if s = [] then .ok 0
    else if s ∈ [['1'], ['t', 'r', 'u', 'e'], ['o', 'n']] then .ok 1
    else if s ∈ [['0'], ['f', 'a', 'l', 's', 'e'], ['o', 'f', 'f']] then .ok 0
    else .error .valueError

/-- xlsx.py:80-82 `error_code_from_text`, with biffh.py:92-100 -/
def errorCodes : List (List Char × Nat) :=
  [(['#', 'N', 'U', 'L', 'L', '!'], 0), (['#', 'D', 'I', 'V', '/', '0', '!'], 7), (['#', 'V', 'A', 'L', 'U', 'E', '!'], 15),
   (['#', 'R', 'E', 'F', '!'], 23), (['#', 'N', 'A', 'M', 'E', '?'], 29), (['#', 'N', 'U', 'M', '!'], 36),
   (['#', 'N', '/', 'A'], 42)]

/-! ## Shared strings -/

/-- xlsx.py:394-408 `process_stream_iterparse`: the shared string table. -/
def sharedStrings (root : Elem) : List (List Char) :=
  (root.ends.filter fun e => e.tag = ssml ['s', 'i']).map siText

/-! ## Styles -/

/-- The state of `X12Styles`: `xf_type` and `xf_counts[1]`, `fmt_is_date` and the map
`_xf_index_to_xl_type_map` of the book. -/
structure Styles where
  xfType : Option Nat
  count : Nat
  isDate : List (Int × Bool)
  xfMap : List (Int × Nat)

/-- xlsx.py:434-444 `X12Styles.__init__` -/
def Styles.init : Styles :=
  { xfType := none, count := 0,
    isDate := [14, 15, 16, 17, 18, 19, 20, 21, 22, 45, 46, 47].map fun x => (x, true),
    xfMap := [(0, 2)] }

/-- `int(x)` of an attribute that may be missing. -/
def XlEnv.intOpt (E : XlEnv) : Option (List Char) → Except Exc Int
  | none => .error .typeError
  | some s => E.int s

/-- xlsx.py:447-486: one element of the styles.  (A tag counts with or without the main
namespace: `augment_keys`, xlsx.py:38-41.) -/
def Styles.elem (E : XlEnv) (st : Styles) (e : Elem) : Except Exc Styles :=
  if e.tag.ns ≠ .ssml ∧ e.tag.ns ≠ .none then .ok st
  else if e.tag.name = ['c', 'e', 'l', 'l', 'S', 't', 'y', 'l', 'e', 'X', 'f', 's'] then .ok { st with xfType := some 0 }
  else if e.tag.name = ['c', 'e', 'l', 'l', 'X', 'f', 's'] then .ok { st with xfType := some 1 }
  else if e.tag.name = ['n', 'u', 'm', 'F', 'm', 't'] then
    match E.intOpt (e.get (bare ['n', 'u', 'm', 'F', 'm', 't', 'I', 'd'])) with
    | .error err => .error err
    | .ok id =>
      match e.get (bare ['f', 'o', 'r', 'm', 'a', 't', 'C', 'o', 'd', 'e']) with
      | none => .error .typeError
      | some code => .ok { st with isDate := dset st.isDate id (isDateFormat code) }
  else if e.tag.name = ['x', 'f'] then
    if st.xfType ≠ some 1 then .ok st
    else
      match E.int ((e.get (bare ['n', 'u', 'm', 'F', 'm', 't', 'I', 'd'])).getD ['0']) with
      | .error err => .error err
      | .ok id =>
        .ok { st with
          count := st.count + 1,
          xfMap := dset st.xfMap st.count (if (dget st.isDate id).getD false then 3 else 2) }
  else .ok st

/-- A loop whose body may raise an exception. -/
def foldE {σ α : Type} (f : σ → α → Except Exc σ) : σ → List α → Except Exc σ
  | s, [] => .ok s
  | s, x :: xs =>
    match f s x with
    | .error e => .error e
    | .ok s => foldE f s xs

/-- xlsx.py:225-235 `process_stream` of the styles; none if there are no styles in the file
(xlsx.py:785-791). -/
def readStyles (E : XlEnv) (root : Option Elem) : Except Exc Styles :=
  match root with
  | none => .ok Styles.init
  | some root => foldE (Styles.elem E) Styles.init root.iter

/-! ## Work sheets -/

/-- xlsx.py:615-630: the loop of `do_row` over a cell name; the result is (charx, colx).
`charx` is the index of the character to come. -/
def rowNameLoop : (charx colx : Nat) → List Char → Except Exc (Int × Int)
  | charx, colx, [] => .ok ((charx : Int) - 1, colx)
  | charx, colx, c :: cs =>
    if c = '$' then rowNameLoop (charx + 1) colx cs
    else match cellCharValue c with
      | none => .error .generic
      | some 0 =>
        if 0 ≤ (colx : Int) - 1 ∧ colx - 1 < 16384 then .ok (charx, (colx : Int) - 1) else .error .assertionError
      | some lv => rowNameLoop (charx + 1) (colx * 26 + lv) cs

/-- xlsx.py:606-632: the column of a cell, from the one before it. -/
def cellColumn (E : XlEnv) (rowNumber : Option (List Char)) (colx : Int) (cell : Elem) : Except Exc Int :=
  match cell.get (bare ['r']) with
  | none => .ok (colx + 1)
  | some name =>
    match rowNameLoop 0 0 (name.flatMap E.up) with
    | .error e => .error e
    | .ok (charx, colx) =>
      match rowNumber with
      | none => .ok colx
      | some r => if pyFrom name charx ≠ r then .error .generic else .ok colx

/-- The loops over the children of a cell, e.g. xlsx.py:640-648: the value of `tvalue` after
it.  `is` says that an inline string may occur, `cooked` that the text is cooked. -/
def childValue (is cooked : Bool) : Option (List Char) → List Elem → Except Exc (Option (List Char))
  | tvalue, [] => .ok tvalue
  | tvalue, child :: rest =>
    if is = true ∧ child.tag = ssml ['i', 's'] then childValue is cooked (some (siText child)) rest
    else if child.tag = ssml ['v'] then
      childValue is cooked (if cooked then some (cookedText child) else child.text) rest
    else if child.tag = ssml ['f'] then childValue is cooked tvalue rest
    else .error .generic

/-- `if not tvalue` -/
def truthyText : Option (List Char) → Option (List Char)
  | none => none
  | some [] => none
  | some t => some t

/-- xlsx.py:634-738: the cell to put; none if there is nothing to put.  The type of a number
is looked up in `put_cell` (xlrd/sheet.py:656-658 and 715-717). -/
def cellContent (E : XlEnv) (sst : List (List Char)) (xfMap : List (Int × Nat)) (xf : Int) (cell : Elem) :
    Except Exc (Option PutCell) :=
  let typ := (cell.get (bare ['t'])).getD ['n']
  if typ = ['n'] then
    match childValue false false none cell.children with
    | .error e => .error e
    | .ok tvalue =>
      match truthyText tvalue with
      | none => .ok none
      | some t =>
        match E.float t with
        | .error e => .error e
        | .ok v =>
          match dget xfMap xf with
          | none => .error .keyError
          | some ty => .ok (some ⟨ty, v, xf⟩)
  else if typ = ['s'] then
    match childValue false false none cell.children with
    | .error e => .error e
    | .ok tvalue =>
      match truthyText tvalue with
      | none => .ok none
      | some t =>
        match E.int t with
        | .error e => .error e
        | .ok i =>
          match pyIndex sst i with
          | .error e => .error e
          | .ok s => .ok (some ⟨xlText, .str s, xf⟩)
  else if typ = ['s', 't', 'r'] then
    match childValue false true none cell.children with
    | .error e => .error e
    | .ok none => .ok (some ⟨xlText, .none, xf⟩)
    | .ok (some t) => .ok (some ⟨xlText, .str t, xf⟩)
  else if typ = ['b'] then
    match childValue false false none cell.children with
    | .error e => .error e
    | .ok tvalue =>
      match xsdBoolean tvalue with
      | .error e => .error e
      | .ok b => .ok (some ⟨xlBoolean, .int b, xf⟩)
  else if typ = ['e'] then
    match childValue false false (some ['#', 'N', '/', 'A']) cell.children with
    | .error e => .error e
    | .ok none => .error .keyError
    | .ok (some t) =>
      match dget errorCodes t with
      | none => .error .keyError
      | some code => .ok (some ⟨xlError, .int code, xf⟩)
  else if typ = ['i', 'n', 'l', 'i', 'n', 'e', 'S', 't', 'r'] then
    match childValue true false none cell.children with
    | .error e => .error e
    | .ok tvalue =>
      match truthyText tvalue with
      | none => .ok none
      | some t => .ok (some ⟨xlText, .str t, xf⟩)
  else .error .generic

/-- xlsx.py:605-738: the loop of `do_row` over the cells.  `colx` is not negative when a
cell is put: it is the previous one + 1 or comes from a name. -/
def doCells (E : XlEnv) (sst : List (List Char)) (xfMap : List (Int × Nat)) (rowNumber : Option (List Char)) (rowx : Nat) :
    Int → Grid → List Elem → Grid × Option Exc
  | _, g, [] => (g, none)
  | colx, g, cell :: cells =>
    match cellColumn E rowNumber colx cell with
    | .error e => (g, some e)
    | .ok colx =>
      match E.int ((cell.get (bare ['s'])).getD ['0']) with
      | .error e => (g, some e)
      | .ok xf =>
        match cellContent E sst xfMap xf cell with
        | .error e => (g, some e)
        | .ok none => doCells E sst xfMap rowNumber rowx colx g cells
        | .ok (some c) =>
          match g.put rowx colx.toNat c with
          | (g, some e) => (g, some e)
          | (g, none) => doCells E sst xfMap rowNumber rowx colx g cells

/-- The state of `X12Sheet`: `rowx` and the sheet. -/
structure XSheet where
  rowx : Int
  grid : Grid

/-- xlsx.py:588-597: the row index, from the one before. -/
def rowIndex (E : XlEnv) (prev : Int) : Option (List Char) → Except Exc Int
  | none => .ok (prev + 1)
  | some s =>
    match E.int s with
    | .error e => .error e
    | .ok n => .ok (n - 1)

/-- xlsx.py:583-738 `do_row` -/
def doRow (E : XlEnv) (sst : List (List Char)) (xfMap : List (Int × Nat)) (x : XSheet) (row : Elem) :
    XSheet × Option Exc :=
  let rowNumber := row.get (bare ['r'])
  match rowIndex E x.rowx rowNumber with
  | .error e => (x, some e)
  | .ok rowx =>
    if 0 ≤ rowx ∧ rowx < 1048576 then
      match doCells E sst xfMap rowNumber rowx.toNat (-1) x.grid row.children with
      | (g, o) => ({ rowx := rowx, grid := g }, o)
    else ({ x with rowx := rowx }, some .assertionError)

/-- xlsx.py:557-566 `do_dimension`: what it sets is used in a log message only, but it may
raise an exception. -/
def doDimension (E : XlEnv) (e : Elem) : Option Exc :=
  match truthyText (e.get (bare ['r', 'e', 'f'])) with
  | none => none
  | some ref =>
    match cellNameToRowxColx E ((splitChar ':' ref).getLastD []) true with
    | .error err => some err
    | .ok _ => none

/-- xlsx.py:568-581 `do_merge_cell`.  Rows are not negative, unless there is a character
whose upper case is longer: then the row number is taken from a wrong place and might have a
sign; this is not modelled. -/
def doMergeCell (E : XlEnv) (g : Grid) (e : Elem) : Grid × Option Exc :=
  match truthyText (e.get (bare ['r', 'e', 'f'])) with
  | none => (g, none)
  | some ref =>
    let (first, last) := match splitChar ':' ref with
      | [a, b] => (a, b)
      | _ => (ref, ref)
    match cellNameToRowxColx E first false with
    | .error err => (g, some err)
    | .ok (r1, c1) =>
      match cellNameToRowxColx E last false with
      | .error err => (g, some err)
      | .ok (r2, c2) =>
        ({ g with merged := g.merged ++ [(r1.toNat, r2.toNat + 1, c1.getD 0, c2.getD 0 + 1)] }, none)

/-- xlsx.py:509-516: one element of a work sheet. -/
def XSheet.elem (E : XlEnv) (sst : List (List Char)) (xfMap : List (Int × Nat)) (x : XSheet) (e : Elem) :
    XSheet × Option Exc :=
  if e.tag = ssml ['r', 'o', 'w'] then doRow E sst xfMap x e
  else if e.tag = ssml ['d', 'i', 'm', 'e', 'n', 's', 'i', 'o', 'n'] then (x, doDimension E e)
  else if e.tag = ssml ['m', 'e', 'r', 'g', 'e', 'C', 'e', 'l', 'l'] then
    match doMergeCell E x.grid e with
    | (g, o) => ({ x with grid := g }, o)
  else (x, none)

/-- The loop of `own_process_stream`. -/
def XSheet.loop (E : XlEnv) (sst : List (List Char)) (xfMap : List (Int × Nat)) : XSheet → List Elem → XSheet × Option Exc
  | x, [] => (x, none)
  | x, e :: es =>
    match x.elem E sst xfMap e with
    | (x, some err) => (x, some err)
    | (x, none) => XSheet.loop E sst xfMap x es

/-- xlsx.py:504-517 `own_process_stream`: a work sheet from its XML, before
`tidy_dimensions`. -/
def readWorksheet (E : XlEnv) (sst : List (List Char)) (xfMap : List (Int × Nat)) (ragged : Bool) (root : Elem) :
    Except Exc Grid :=
  match XSheet.loop E sst xfMap { rowx := -1, grid := Grid.init false ragged 1048576 16384 } root.ends with
  | (_, some e) => .error e
  | (x, none) => .ok x.grid

/-! ## The book -/

/-- xlsx.py:290-292 `convert_filename` -/
def convertFilename (E : XlEnv) (name : List Char) : List Char :=
  E.low (name.map fun c => if c = '\\' then '/' else c)

/-- xlsx.py:301 and 307-310: the part for a target. -/
def relPath (E : XlEnv) (target : List Char) : List Char :=
  match convertFilename E target with
  | '/' :: rest => rest
  | name => ['x', 'l', '/'] ++ name

/-- xlsx.py:294-310 `process_rels`: `relid2reltype` and `relid2path` in one dict.  (`rid` may
be None.) -/
def processRels (E : XlEnv) (root : Elem) : Except Exc (List (Option (List Char) × List Char × List Char)) :=
  foldE (fun rels e =>
    match e.get (bare ['T', 'a', 'r', 'g', 'e', 't']), e.get (bare ['T', 'y', 'p', 'e']) with
    | some target, some typ =>
      .ok (dset rels (e.get (bare ['I', 'd'])) ((splitChar '/' typ).getLastD [], relPath E target))
    | _, _ => .error .attributeError) []
    (root.children.filter fun e =>
      e.tag = ⟨.pkgrel, ['R', 'e', 'l', 'a', 't', 'i', 'o', 'n', 's', 'h', 'i', 'p']⟩)

/-- The state of `X12Book`: the names and targets of the sheets, and the date mode. -/
structure XBook where
  sheets : List (List Char × List Char)
  datemode : Nat

/-- xlsx.py:337-384: one element of the workbook part. -/
def XBook.elem (E : XlEnv) (rels : List (Option (List Char) × List Char × List Char)) (b : XBook) (e : Elem) :
    Except Exc XBook :=
  if e.tag.ns ≠ .ssml ∧ e.tag.ns ≠ .none then .ok b
  else if e.tag.name = ['w', 'o', 'r', 'k', 'b', 'o', 'o', 'k', 'P', 'r'] then
    match xsdBoolean (e.get (bare ['d', 'a', 't', 'e', '1', '9', '0', '4'])) with
    | .error err => .error err
    | .ok d => .ok { b with datemode := d }
  else if e.tag.name = ['d', 'e', 'f', 'i', 'n', 'e', 'd', 'N', 'a', 'm', 'e', 's'] then
    match E.names e with
    | some err => .error err
    | none => .ok b
  else if e.tag.name = ['s', 'h', 'e', 'e', 't'] then
    match E.intOpt (e.get (bare ['s', 'h', 'e', 'e', 't', 'I', 'd'])) with
    | .error err => .error err
    | .ok _ =>
      match e.get (bare ['n', 'a', 'm', 'e']) with
      | none => .error .typeError
      | some name =>
        match dget rels (e.get ⟨.odrel, ['i', 'd']⟩) with
        | none => .error .keyError
        | some (typ, target) =>
          if typ ≠ ['w', 'o', 'r', 'k', 's', 'h', 'e', 'e', 't'] then .ok b
          else .ok { b with sheets := b.sheets ++ [(unescape name, target)] }
  else .ok b

/-- A zip file: the names of its parts in order, and what they hold. -/
abbrev Zip := List (List Char × Elem)

/-- xlrd/__init__.py:122-123 `component_names` -/
def componentNames (E : XlEnv) (zf : Zip) : List (List Char × List Char) :=
  dictOf (zf.map fun p => (convertFilename E p.1, p.1))

/-- `zf.open(component_names[name])` and parsing; the last part of a name counts. -/
def openPart (E : XlEnv) (zf : Zip) (name : List Char) : Option Elem :=
  match dget (componentNames E zf) name with
  | none => none
  | some actual => dget (dictOf zf) actual

/-- xlsx.py:519-531 `X12Sheet.process_rels` -/
def sheetRels (E : XlEnv) (root : Elem) : Except Exc (List (Option (List Char) × List Char × List Char)) :=
  foldE (fun rels e =>
    match e.get (bare ['T', 'y', 'p', 'e']), e.get (bare ['T', 'a', 'r', 'g', 'e', 't']) with
    | none, _ => .error .attributeError
    | _, none => .error .typeError
    | some typ, some target =>
      .ok (dset rels (e.get (bare ['I', 'd'])) ((splitChar '/' typ).getLastD [], E.path target))) []
    (root.children.filter fun e =>
      e.tag = ⟨.pkgrel, ['R', 'e', 'l', 'a', 't', 'i', 'o', 'n', 's', 'h', 'i', 'p']⟩)

/-- `zf.open(name)` and parsing, KeyError if there is no such name. -/
def openRaw (zf : Zip) (name : List Char) : Except Exc Elem :=
  match dget (dictOf zf) name with
  | none => .error .keyError
  | some e => .ok e

/-- xlsx.py:820-826: the comments of a sheet; the exception raised, if any. -/
def readNotes (E : XlEnv) (zf : Zip) : List (Option (List Char) × List Char × List Char) → Option Exc
  | [] => none
  | (_, typ, path) :: rest =>
    if typ = ['c', 'o', 'm', 'm', 'e', 'n', 't', 's'] ∧ path ≠ [] ∧ (dget (componentNames E zf) path).isSome then
      match openRaw zf path with
      | .error e => some e
      | .ok root =>
        match E.notes root with
        | some e => some e
        | none => readNotes E zf rest
    else readNotes E zf rest

/-- The name of the relations of a sheet, xlsx.py:814. -/
def sheetRelsName (fname : List Char) : List Char :=
  ['x', 'l', '/', 'w', 'o', 'r', 'k', 's', 'h', 'e', 'e', 't', 's', '/', '_', 'r', 'e', 'l', 's', '/'] ++
    (splitChar '/' fname).getLastD [] ++ ['.', 'r', 'e', 'l', 's']

/-- xlsx.py:814-826: the relations and the comments of a sheet; the exception raised, if
any. -/
def readSheetRels (E : XlEnv) (zf : Zip) (fname : List Char) : Option Exc :=
  if (dget (componentNames E zf) (sheetRelsName fname)).isSome then
    match openRaw zf (sheetRelsName fname) with
    | .error e => some e
    | .ok root =>
      match sheetRels E root with
      | .error e => some e
      | .ok rels => readNotes E zf rels
  else none

/-- A sheet of the book: its name and its cells. -/
structure BookSheet where
  name : List Char
  grid : Grid

/-- xlsx.py:805-828: the loop over the sheets. -/
def readSheets (E : XlEnv) (zf : Zip) (sst : List (List Char)) (xfMap : List (Int × Nat)) (ragged : Bool) :
    List (List Char × List Char) → Except Exc (List BookSheet)
  | [] => .ok []
  | (name, target) :: rest =>
    match openPart E zf target with
    | none => .error .keyError
    | some root =>
      match readWorksheet E sst xfMap ragged root with
      | .error e => .error e
      | .ok x =>
        match readSheetRels E zf target with
        | some e => .error e
        | none =>
          match x.tidy with
          | (_, some e) => .error e
          | (g, none) =>
            match readSheets E zf sst xfMap ragged rest with
            | .error e => .error e
            | .ok gs => .ok (⟨name, g⟩ :: gs)

/-- The names of parts, xlsx.py:774 -/
def partRels : List Char :=
  ['x', 'l', '/', '_', 'r', 'e', 'l', 's', '/', 'w', 'o', 'r', 'k', 'b', 'o', 'o', 'k', '.', 'x', 'm', 'l', '.', 'r', 'e', 'l', 's']
/-- xlsx.py:777 -/
def partWorkbook : List Char := ['x', 'l', '/', 'w', 'o', 'r', 'k', 'b', 'o', 'o', 'k', '.', 'x', 'm', 'l']
/-- xlsx.py:780 -/
def partProps : List Char := ['d', 'o', 'c', 'p', 'r', 'o', 'p', 's', '/', 'c', 'o', 'r', 'e', '.', 'x', 'm', 'l']
/-- xlsx.py:786 -/
def partStyles : List Char := ['x', 'l', '/', 's', 't', 'y', 'l', 'e', 's', '.', 'x', 'm', 'l']
/-- xlsx.py:798 -/
def partStrings : List Char := ['s', 'h', 'a', 'r', 'e', 'd', 's', 't', 'r', 'i', 'n', 'g', 's', '.', 'x', 'm', 'l']

/-- xlsx.py:780-783: the core properties; the exception raised, if any. -/
def readProps (E : XlEnv) (zf : Zip) : Option Exc :=
  match openPart E zf partProps with
  | none => none
  | some root => E.props root

/-- xlsx.py:798-803: the shared strings of one part, if it is there. -/
def partSst (E : XlEnv) (zf : Zip) (name : List Char) : List (List Char) :=
  match openPart E zf name with
  | none => []
  | some root => sharedStrings root

/-- xlsx.py:745-830 `open_workbook_2007_xml`, with xlrd/__init__.py:128-145: the date mode
and the sheets. -/
def openXlsx (E : XlEnv) (ragged : Bool) (zf : Zip) : Except Exc (Nat × List BookSheet) :=
  match openPart E zf partWorkbook with
  | none => .error .xlrdError
  | some wb =>
    match openPart E zf partRels with
    | none => .error .keyError
    | some relsRoot =>
      match processRels E relsRoot with
      | .error e => .error e
      | .ok rels =>
        match foldE (XBook.elem E rels) { sheets := [], datemode := 0 } wb.iter with
        | .error e => .error e
        | .ok b =>
          match readProps E zf with
          | some e => .error e
          | none =>
            match readStyles E (openPart E zf partStyles) with
            | .error e => .error e
            | .ok st =>
              match readSheets E zf (partSst E zf (['x', 'l', '/'] ++ partStrings) ++ partSst E zf partStrings) st.xfMap ragged
                b.sheets with
              | .error e => .error e
              | .ok sheets => .ok (b.datemode, sheets)

end CP
