import Verif.Spec.XlsBook
/-!
# Specification: .xls files of Excel 2, 3 and 4 (BIFF 2, 3, 4 and 4W)

Written from the file format, not from the code.
-/

namespace CP.Spec

/-- The versions.  (Books of Excel 4 have sheets of version 4.) -/
inductive OldVer
  | v2
  | v3
  | v4
  deriving DecidableEq

/-- What the records of a sheet have said so far: the code page, the date mode, the formats in order, the formats of the XF
records (by number, from 0), and the XF record named by the last IXFE record (BIFF 2). -/
structure OldInfo where
  page : Option Nat
  mode : Nat
  formats : List (List Char)
  xfs : List Nat
  ixfe : Option Nat

/-- The cell type of numbers with a format: 3 for dates, otherwise 2. -/
def FormatType (code : List Char) (typ : Nat) : Prop := (DateFormat code ∧ typ = 3) ∨ (¬ DateFormat code ∧ typ = 2)

/-- The cell type of numbers with an XF record.  Without XF records there is number 0, for numbers. -/
def OldXfType (s : OldInfo) (i typ : Nat) : Prop :=
  (∃ k code, s.xfs[i]? = some k ∧ s.formats[k]? = some code ∧ FormatType code typ) ∨ (s.xfs = [] ∧ i = 0 ∧ typ = 2)

/-- Text: the count of bytes in one byte, and the bytes, in the code page. -/
def OldTextIs (c : BookCtx) (page : Option Nat) (b : List UInt8) (t : List Char) : Prop :=
  ∃ text more, text.length < 256 ∧ b = leBytes 1 text.length ++ text ++ more ∧ c.codec (textName page) text = some t

/-- What cells as in later versions depend on. -/
def oldCtx (c : BookCtx) (s : OldInfo) (xfType : Nat → Option Nat) : XlsCtx where
  v8 := false
  rnd := c.rnd
  sst := []
  xfType := xfType
  text := c.codec (textName s.page)
  country := c.country
  object := c.object (c.codec (textName s.page))

/-! ### Cells of BIFF 2 -/

/-- The cell type of numbers by the attributes of a cell, three bytes.  The first has the number of the XF record, 63 for
the one of the last IXFE record.  In files without XF records (Excel 2.0) that is 0, and the second byte has the number of
the format. -/
def AttrType (s : OldInfo) (attr : List UInt8) (typ : Nat) : Prop :=
  ∃ a b x, attr = [a, b, x] ∧
    ((s.xfs ≠ [] ∧ a.toNat % 64 ≠ 63 ∧ OldXfType s (a.toNat % 64) typ) ∨
     (s.xfs ≠ [] ∧ a.toNat % 64 = 63 ∧ ∃ i, s.ixfe = some i ∧ OldXfType s i typ) ∨
     (s.xfs = [] ∧ a.toNat % 64 = 0 ∧ ((∃ code, s.formats[b.toNat % 64]? = some code ∧ FormatType code typ) ∨
       (s.formats.length ≤ b.toNat % 64 ∧ typ = 2))))

/-- The beginning of a cell record: row, column, attributes. -/
def OldHead (s : OldInfo) (row col typ : Nat) (head : List UInt8) : Prop :=
  row < 65536 ∧ col < 65536 ∧ ∃ attr, AttrType s attr typ ∧ head = leBytes 2 row ++ leBytes 2 col ++ attr

/-- The text of a formula: a STRING record and CONTINUE records.  `whole` is for texts where each character is one
byte. -/
def OldStringRecs (whole : Bool) (c : BookCtx) (s : OldInfo) (first : List UInt8) (conts : List (List UInt8)) (t : List Char) : Prop :=
  ∃ n b all, n < 256 ∧ first = leBytes 1 n ++ b ∧ StrBytes n b conts all ∧ c.codec (textName s.page) all = some t ∧
    (whole = true → OneEach (c.codec (textName s.page)) b conts t)

/-- What may be between a formula and the STRING record: ARRAY or TABLEOP. -/
def OldBetween (rs : List XRec) : Prop := rs = [] ∨ ∃ code data, rs = [(code, data)] ∧ (code = 0x21 ∨ code = 0x36 ∨ code = 0x37)

/-- Records that stand for cells.  (The index of the format in the operation has no meaning.) -/
inductive OldCells (whole : Bool) (c : BookCtx) (s : OldInfo) : List XRec → List CellOp → Prop
  | number {row col typ head n v} {xf : Int} : OldHead s row col typ head → n < 2 ^ 64 → DoubleIs n v →
      OldCells whole c s [(0x3, head ++ leBytes 8 n)] [.put row col ⟨typ, v, xf⟩]
  | integer {row col typ head n} {xf : Int} : OldHead s row col typ head → n < 65536 →
      OldCells whole c s [(0x2, head ++ leBytes 2 n)] [.put row col ⟨typ, .flt (n : Rat), xf⟩]
  | label {row col typ head b t} {xf : Int} : OldHead s row col typ head → OldTextIs c s.page b t →
      OldCells whole c s [(0x4, head ++ b)] [.put row col ⟨1, .str t, xf⟩]
  | bool {row col typ head} {v : UInt8} {xf : Int} : OldHead s row col typ head →
      OldCells whole c s [(0x5, head ++ [v, 0])] [.put row col ⟨4, .int v.toNat, xf⟩]
  | error {row col typ head} {v : UInt8} {xf : Int} : OldHead s row col typ head →
      OldCells whole c s [(0x5, head ++ [v, 1])] [.put row col ⟨5, .int v.toNat, xf⟩]
  | fmlaNumber {row col typ head n v more} {xf : Int} : OldHead s row col typ head → n < 0xFFFF * 2 ^ 48 → DoubleIs n v →
      1 ≤ more.length → OldCells whole c s [(0x6, head ++ leBytes 8 n ++ more)] [.put row col ⟨typ, v, xf⟩]
  | fmlaBool {row col typ head} {v x1 x2 x3 x4 : UInt8} {more} {xf : Int} : OldHead s row col typ head → 1 ≤ more.length →
      OldCells whole c s [(0x6, head ++ [1, x1, v, x2, x3, x4, 0xFF, 0xFF] ++ more)] [.put row col ⟨4, .int v.toNat, xf⟩]
  | fmlaError {row col typ head} {v x1 x2 x3 x4 : UInt8} {more} {xf : Int} : OldHead s row col typ head → 1 ≤ more.length →
      OldCells whole c s [(0x6, head ++ [2, x1, v, x2, x3, x4, 0xFF, 0xFF] ++ more)] [.put row col ⟨5, .int v.toNat, xf⟩]
  | fmlaEmpty {row col typ head} {x1 x2 x3 x4 x5 : UInt8} {more} {xf : Int} : OldHead s row col typ head → 1 ≤ more.length →
      OldCells whole c s [(0x6, head ++ [3, x1, x2, x3, x4, x5, 0xFF, 0xFF] ++ more)] [.put row col ⟨1, .str [], xf⟩]
  | fmlaText {row col typ head} {x1 x2 x3 x4 x5 : UInt8} {more between first conts t} {xf : Int} : OldHead s row col typ head →
      1 ≤ more.length → OldBetween between → OldStringRecs whole c s first conts t →
      OldCells whole c s
        ((0x6, head ++ [0, x1, x2, x3, x4, x5, 0xFF, 0xFF] ++ more) :: (between ++ (0x7, first) :: conts.map fun d => (0x3C, d)))
        [.put row col ⟨1, .str t, xf⟩]

/-! ### Sheets -/

/-- Codes of records that matter in these versions: FORMAT, XF, DATEMODE, CODEPAGE, FILEPASS (the sheet is encrypted),
WRITEACCESS, IXFE, the cells of BIFF 2, BUILTINFMTCOUNT and the window of BIFF 2. -/
def oldMatter : List Nat :=
  [0x41E, 0x1E, 0x443, 0x243, 0x43, 0x22, 0x42, 0x2F, 0x5C, 0x44, 0x3, 0x2, 0x4, 0x5, 0x56, 0x3E]

/-- A FORMAT record. -/
def OldFormatIs (c : BookCtx) (v : OldVer) (page : Option Nat) (r : XRec) (code : List Char) : Prop :=
  match v with
  | .v4 => r.1 = 0x41E ∧ ∃ a b, r.2 = a ++ b ∧ a.length = 2 ∧ OldTextIs c page b code
  | _ => r.1 = 0x1E ∧ OldTextIs c page r.2 code

/-- An XF record, with the number of its format. -/
def OldXfIs (v : OldVer) (r : XRec) (key : Nat) : Prop :=
  match v with
  | .v2 => r.1 = 0x43 ∧ ∃ a b f x, r.2 = [a, b, f, x] ∧ key = f.toNat % 64
  | .v3 => r.1 = 0x243 ∧ ∃ a f more, r.2 = a :: f :: more ∧ 10 ≤ more.length ∧ key = f.toNat
  | .v4 => r.1 = 0x443 ∧ ∃ a f more, r.2 = a :: f :: more ∧ 10 ≤ more.length ∧ key = f.toNat

/-- The records of a sheet after BOF, with EOF, given what has been said before; what they do, and the code page and the
date mode at the end.  The formats and XF records of BIFF 2 come before the cells, and so does DIMENSIONS (`fresh`). -/
inductive OldRecs (whole : Bool) (c : BookCtx) (v : OldVer) :
    (s : OldInfo) → (fresh : Bool) → List XRec → List CellOp → (page : Option Nat) → (mode : Nat) → Prop
  | eof {s fresh data} : OldRecs whole c v s fresh [(0xA, data)] [] s.page s.mode
  | page {s fresh n more rest ops page mode} : n < 65536 → PageOk c n →
      OldRecs whole c v { s with page := some n } fresh rest ops page mode →
      OldRecs whole c v s fresh ((0x42, leBytes 2 n ++ more) :: rest) ops page mode
  | mode {s fresh n more rest ops page mode} : n = 0 ∨ n = 1 → OldRecs whole c v { s with mode := n } fresh rest ops page mode →
      OldRecs whole c v s fresh ((0x22, leBytes 2 n ++ more) :: rest) ops page mode
  | user {s fresh text more rest ops page mode} : text.length < 256 → (∀ x ∈ text, x < 128) →
      OldRecs whole c v s fresh rest ops page mode →
      OldRecs whole c v s fresh ((0x5C, leBytes 1 text.length ++ text ++ more) :: rest) ops page mode
  | format {s fresh r code rest ops page mode} : (v = .v2 → fresh = true) → OldFormatIs c v s.page r code →
      OldRecs whole c v { s with formats := s.formats ++ [code] } fresh rest ops page mode →
      OldRecs whole c v s fresh (r :: rest) ops page mode
  | xf {s fresh r key rest ops page mode} : (v = .v2 → fresh = true) → OldXfIs v r key → key < s.formats.length →
      OldRecs whole c v { s with xfs := s.xfs ++ [key] } fresh rest ops page mode →
      OldRecs whole c v s fresh (r :: rest) ops page mode
  | ixfe {s fresh n rest ops page mode} : n < 65536 → OldRecs whole c v { s with ixfe := some n } fresh rest ops page mode →
      OldRecs whole c v s fresh ((0x44, leBytes 2 n) :: rest) ops page mode
  | cells2 {s fresh rs ops rest more page mode} : v = .v2 → OldCells whole c s rs ops →
      OldRecs whole c v s false rest more page mode → OldRecs whole c v s fresh (rs ++ rest) (ops ++ more) page mode
  | cells {s fresh xfType rs ops rest more page mode} : v ≠ .v2 → (∀ i typ, xfType i = some typ ↔ OldXfType s i typ) →
      CellRecs whole (oldCtx c s xfType) rs ops → OldRecs whole c v s false rest more page mode →
      OldRecs whole c v s fresh (rs ++ rest) (ops ++ more) page mode
  | dimensions {s data rest ops page mode} : 8 ≤ data.length → OldRecs whole c v s true rest ops page mode →
      OldRecs whole c v s true ((if v = .v2 then 0x0 else 0x200, data) :: rest) ops page mode
  | builtin {s fresh data rest ops page mode} : 2 ≤ data.length → OldRecs whole c v s fresh rest ops page mode →
      OldRecs whole c v s fresh ((0x56, data) :: rest) ops page mode
  | window {s fresh data rest ops page mode} : 13 ≤ data.length → OldRecs whole c v s fresh rest ops page mode →
      OldRecs whole c v s fresh ((0x3E, data) :: rest) ops page mode
  | aside {s fresh r rest ops page mode} : Aside r → r.1 ∉ oldMatter → (v = .v2 → r.1 ≠ 0x23E) →
      OldRecs whole c v s fresh rest ops page mode → OldRecs whole c v s fresh (r :: rest) ops page mode
  | country {s fresh more rest ops page mode} : c.country.1 < 65536 → c.country.2 < 65536 →
      OldRecs whole c v s fresh rest ops page mode →
      OldRecs whole c v s fresh ((0x8C, leBytes 2 c.country.1 ++ leBytes 2 c.country.2 ++ more) :: rest) ops page mode
  | object {s fresh rs rest ops page mode} : c.object (c.codec (textName s.page)) rs → (∀ r ∈ rs, r.1 ∉ oldMatter) →
      (v = .v2 → ∀ r ∈ rs, r.1 ≠ 0x23E) → OldRecs whole c v s fresh rest ops page mode →
      OldRecs whole c v s fresh (rs ++ rest) ops page mode
  | chart {s fresh code data eof rs rest ops page mode} : code = 0x409 ∨ code = 0x209 → 4 ≤ data.length →
      (∀ r ∈ rs, r.1 ≠ 0xA) → OldRecs whole c v s fresh rest ops page mode →
      OldRecs whole c v s fresh ((code, data) :: (rs ++ (0xA, eof) :: rest)) ops page mode

/-- The code of BOF. -/
def oldBof : OldVer → Nat
  | .v2 => 0x9
  | .v3 => 0x209
  | .v4 => 0x409

/-- The bytes of a sheet, from BOF to EOF. -/
def OldSheetIs (whole : Bool) (c : BookCtx) (v : OldVer) (s : OldInfo) (bytes : List UInt8) (ops : List CellOp)
    (page : Option Nat) (mode : Nat) : Prop :=
  ∃ version bof rs, bytes = recordBytes (oldBof v, bof) ++ rs.flatMap recordBytes ∧ BofIs version 0x10 bof ∧
    (∀ r ∈ rs, RecordOk r) ∧ OldRecs whole c v s true rs ops page mode ∧ ∀ row col x, .put row col x ∈ ops → row < 16384 ∧ col < 256

/-! ### Books of Excel 4 -/

/-- What the records of the globals have said so far: the code page, the date mode, whether there was SHEETSOFFSET, the
names of the sheets, and how many of these have come. -/
structure Old4Info where
  page : Option Nat
  mode : Nat
  offset : Bool
  names : List (List Char)
  come : Nat

/-- The globals after BOF, with the sheets among them. -/
inductive Old4Recs (whole : Bool) (c : BookCtx) : (s : Old4Info) → List UInt8 → (mode : Nat) → List (List Char × List CellOp) → Prop
  | eof {s data} : RecordOk (0xA, data) → s.come = s.names.length →
      c.named (c.codec (textName s.page)) [] (s.names.map fun n => (n, 0)) → Old4Recs whole c s (recordBytes (0xA, data)) s.mode []
  | page {s n more rest mode sheets} : RecordOk (0x42, leBytes 2 n ++ more) → n < 65536 → PageOk c n →
      Old4Recs whole c { s with page := some n } rest mode sheets →
      Old4Recs whole c s (recordBytes (0x42, leBytes 2 n ++ more) ++ rest) mode sheets
  | mode {s n more rest mode sheets} : RecordOk (0x22, leBytes 2 n ++ more) → n = 0 ∨ n = 1 →
      Old4Recs whole c { s with mode := n } rest mode sheets →
      Old4Recs whole c s (recordBytes (0x22, leBytes 2 n ++ more) ++ rest) mode sheets
  | user {s text more rest mode sheets} : RecordOk (0x5C, leBytes 1 text.length ++ text ++ more) → text.length < 256 →
      (∀ x ∈ text, x < 128) → Old4Recs whole c s rest mode sheets →
      Old4Recs whole c s (recordBytes (0x5C, leBytes 1 text.length ++ text ++ more) ++ rest) mode sheets
  | offset {s data rest mode sheets} : data.length = 4 → Old4Recs whole c { s with offset := true } rest mode sheets →
      Old4Recs whole c s (recordBytes (0x8E, data) ++ rest) mode sheets
  /-- BOUNDSHEET has the name of a sheet. -/
  | bound {s data name rest mode sheets} : RecordOk (0x85, data) → s.offset = true → OldTextIs c s.page data name →
      Old4Recs whole c { s with names := s.names ++ [name] } rest mode sheets →
      Old4Recs whole c s (recordBytes (0x85, data) ++ rest) mode sheets
  /-- SHEETHDR has the length of the sheet after it, and its name again. -/
  | sheet {s b name ops sheet gap page mode rest mode' sheets} : RecordOk (0x8F, leBytes 4 (sheet ++ gap).length ++ b) →
      (sheet ++ gap).length < 2 ^ 31 → OldTextIs c s.page b name → s.names[s.come]? = some name →
      OldSheetIs whole c .v4 ⟨s.page, s.mode, [], [], none⟩ sheet ops page mode →
      Old4Recs whole c { s with page := page, mode := mode, come := s.come + 1 } rest mode' sheets →
      Old4Recs whole c s (recordBytes (0x8F, leBytes 4 (sheet ++ gap).length ++ b) ++ (sheet ++ gap ++ rest)) mode' ((name, ops) :: sheets)
  | format {s a b code rest mode sheets} : RecordOk (0x41E, a ++ b) → a.length = 2 → OldTextIs c s.page b code →
      Old4Recs whole c s rest mode sheets → Old4Recs whole c s (recordBytes (0x41E, a ++ b) ++ rest) mode sheets
  | country {s more rest mode sheets} : RecordOk (0x8C, leBytes 2 c.country.1 ++ leBytes 2 c.country.2 ++ more) →
      c.country.1 < 65536 → c.country.2 < 65536 → Old4Recs whole c s rest mode sheets →
      Old4Recs whole c s (recordBytes (0x8C, leBytes 2 c.country.1 ++ leBytes 2 c.country.2 ++ more) ++ rest) mode sheets
  /-- NAME (0x18) and records of no matter. -/
  | other {s r rest mode sheets} : RecordOk r → r.1 = 0x18 ∨ r.1 ∉ globalCodes → Old4Recs whole c s rest mode sheets →
      Old4Recs whole c s (recordBytes r ++ rest) mode sheets

/-! ### Files -/

/-- A file of Excel 2, 3 or 4, with its date mode and the names and cells of its sheets: a single sheet (which has no name
in the file), or a book. -/
def OldFileIs (whole : Bool) (c : BookCtx) (file : List UInt8) (mode : Nat) (sheets : List (List Char × List CellOp)) : Prop :=
  (∃ v ops page, OldSheetIs whole c v ⟨none, 0, [], [], none⟩ file ops page mode ∧ sheets = [("Sheet 1".toList, ops)]) ∨
  (∃ version bof recs, file = recordBytes (0x409, bof) ++ recs ∧ BofIs version 0x100 bof ∧
    Old4Recs whole c ⟨none, 0, false, [], 0⟩ recs mode sheets)

end CP.Spec
