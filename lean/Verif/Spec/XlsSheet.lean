import Verif.Spec.Biff
import Verif.Spec.SheetCells
/-!
# The records of a work sheet of an .xls file and the cells they stand for

Written from the file format (BIFF 5, 7 and 8), not from the code.
-/

namespace CP.Spec

/-- A record: a code and data. -/
abbrev XRec := Nat × List UInt8

/-- A record in a file. -/
def RecordOk (r : XRec) : Prop := r.1 < 65536 ∧ r.2.length < 65536
def recordBytes (r : XRec) : List UInt8 := leBytes 2 r.1 ++ leBytes 2 r.2.length ++ r.2

/-- What the cells of a sheet depend on: whether the file is of version BIFF 8 (`v8`), how
quotients are rounded, the shared strings, the cell type of each extended format (number or
date), the text for bytes in the code page of the file, the country settings of the file, and
the groups of records that make an object, a note or a hyperlink. -/
structure XlsCtx where
  v8 : Bool
  rnd : Rat → Rat
  sst : List (List Char)
  xfType : Nat → Option Nat
  text : List UInt8 → Option (List Char)
  country : Nat × Nat
  object : List XRec → Prop

/-- Each byte is a character in the code page. -/
def SingleByte (ctx : XlsCtx) : Prop := ∃ f : UInt8 → Option Char, ∀ b, ctx.text b = b.mapM f

/-- Row, column and extended format: the beginning of a cell record. -/
def CellHead (row col xf : Nat) (head : List UInt8) : Prop :=
  row < 65536 ∧ col < 65536 ∧ xf < 65536 ∧ head = leBytes 2 row ++ leBytes 2 col ++ leBytes 2 xf

/-- Text in a record: up to BIFF 7 the count of bytes and the bytes, in BIFF 8 a string. -/
def RecText (ctx : XlsCtx) (b : List UInt8) (t : List Char) : Prop :=
  if ctx.v8 then StringIs 2 b t
  else ∃ text more, text.length < 65536 ∧ b = leBytes 2 text.length ++ text ++ more ∧ ctx.text text = some t

/-- Text with formatting runs after it, to the end of the record. -/
def RichText (ctx : XlsCtx) (b : List UInt8) (t : List Char) : Prop :=
  if ctx.v8 then
    ∃ o rt sz head text inner nrt runs, StringHead 2 (textUnits t).length o rt sz head ∧
      UnitBytes (Wide o) (textUnits t) text ∧ inner.length = 4 * rt + sz ∧ nrt < 65536 ∧ runs.length = 4 * nrt ∧
      b = head ++ text ++ inner ++ leBytes 2 nrt ++ runs
  else ∃ text nrt runs, text.length < 65536 ∧ nrt < 256 ∧ runs.length = 2 * nrt ∧
    b = leBytes 2 text.length ++ text ++ leBytes 1 nrt ++ runs ∧ ctx.text text = some t

/-! ### The text of a formula: a STRING record and CONTINUE records -/

/-- In BIFF 8: `n` code units in the records; each begins with an options byte. -/
inductive StrUnits : Nat → List UInt8 → List (List UInt8) → List Nat → Prop
  | last {o us b} : UnitBytes (Wide o) us b → StrUnits us.length (o :: b) [] us
  | over {o us b n next rest us'} : UnitBytes (Wide o) us b → 0 < n → StrUnits n next rest us' →
      StrUnits (us.length + n) (o :: b) (next :: rest) (us ++ us')

/-- Up to BIFF 7: `n` bytes in the records. -/
inductive StrBytes : Nat → List UInt8 → List (List UInt8) → List UInt8 → Prop
  | last {b} : StrBytes b.length b [] b
  | over {b n next rest b'} : 0 < n → StrBytes n next rest b' → StrBytes (b.length + n) b (next :: rest) (b ++ b')

/-- The text in the code page `text`, with a character for each byte; each record has a text of its own. -/
inductive OneEach (text : List UInt8 → Option (List Char)) : List UInt8 → List (List UInt8) → List Char → Prop
  | last {b t} : text b = some t → t.length = b.length → OneEach text b [] t
  | over {b t next rest t'} : text b = some t → t.length = b.length → OneEach text next rest t' →
      OneEach text b (next :: rest) (t ++ t')

/-- The data of a STRING record and of the CONTINUE records after it.  `whole` is for texts
where each character is one unit, or one byte. -/
def StringRecs (whole : Bool) (ctx : XlsCtx) (first : List UInt8) (conts : List (List UInt8)) (t : List Char) : Prop :=
  ∃ n b, n < 65536 ∧ first = leBytes 2 n ++ b ∧
    if ctx.v8 then StrUnits n b conts (textUnits t) ∧ (whole = true → ∀ c ∈ t, c.toNat < 0x10000)
    else (∃ all, StrBytes n b conts all ∧ ctx.text all = some t) ∧ (whole = true → OneEach ctx.text b conts t)

/-- What may be between a formula and the STRING record: ARRAY, SHRFMLA or TABLEOP. -/
def Between (rs : List XRec) : Prop :=
  rs = [] ∨ ∃ code data, rs = [(code, data)] ∧
    ((code = 0x221 ∧ 14 ≤ data.length) ∨ (code = 0x4BC ∧ 10 ≤ data.length) ∨ code = 0x236)

/-! ### Cells -/

/-- The items of a MULRK record: for each column a format and an RK number. -/
inductive RkItems (ctx : XlsCtx) (row : Nat) : (col : Nat) → List UInt8 → List CellOp → Prop
  | nil {col} : RkItems ctx row col [] []
  | cons {col xf n v typ b ops} : xf < 65536 → n < 2 ^ 32 → RkIs ctx.rnd n v → ctx.xfType xf = some typ →
      RkItems ctx row (col + 1) b ops →
      RkItems ctx row col (leBytes 2 xf ++ leBytes 4 n ++ b) (.put row col ⟨typ, v, xf⟩ :: ops)

/-- Records that stand for cells.  Cell types: 1 text, 4 boolean, 5 error; numbers have the
one of their format.  The value of a boolean or an error is its code. -/
inductive CellRecs (whole : Bool) (ctx : XlsCtx) : List XRec → List CellOp → Prop
  | number {row col xf head n v typ more} : CellHead row col xf head → n < 2 ^ 64 → DoubleIs n v → ctx.xfType xf = some typ →
      CellRecs whole ctx [(0x203, head ++ leBytes 8 n ++ more)] [.put row col ⟨typ, v, xf⟩]
  | rk {row col xf head n v typ more} : CellHead row col xf head → n < 2 ^ 32 → RkIs ctx.rnd n v → ctx.xfType xf = some typ →
      CellRecs whole ctx [(0x27E, head ++ leBytes 4 n ++ more)] [.put row col ⟨typ, v, xf⟩]
  | mulRk {row first items ops} : row < 65536 → first + ops.length ≤ 65536 → ops ≠ [] → RkItems ctx row first items ops →
      CellRecs whole ctx [(0xBD, leBytes 2 row ++ leBytes 2 first ++ items ++ leBytes 2 (first + ops.length - 1))] ops
  | labelSst {row col xf : Nat} {head : List UInt8} {i : Nat} {t : List Char} : CellHead row col xf head → i < 2 ^ 31 →
      ctx.sst[i]? = some t → CellRecs whole ctx [(0xFD, head ++ leBytes 4 i)] [.put row col ⟨1, .str t, xf⟩]
  | label {row col xf head b t} : CellHead row col xf head → RecText ctx b t →
      CellRecs whole ctx [(0x204, head ++ b)] [.put row col ⟨1, .str t, xf⟩]
  | rstring {row col xf head b t} : CellHead row col xf head → RichText ctx b t →
      CellRecs whole ctx [(0xD6, head ++ b)] [.put row col ⟨1, .str t, xf⟩]
  | bool {row col xf head v more} : CellHead row col xf head →
      CellRecs whole ctx [(0x205, head ++ [v, 0] ++ more)] [.put row col ⟨4, .int v.toNat, xf⟩]
  | error {row col xf head v more} : CellHead row col xf head →
      CellRecs whole ctx [(0x205, head ++ [v, 1] ++ more)] [.put row col ⟨5, .int v.toNat, xf⟩]
  | fmlaNumber {code row col xf head n v typ more} : code = 0x6 ∨ code = 0x206 ∨ code = 0x406 → CellHead row col xf head →
      n < 0xFFFF * 2 ^ 48 → DoubleIs n v → ctx.xfType xf = some typ → 2 ≤ more.length →
      CellRecs whole ctx [(code, head ++ leBytes 8 n ++ more)] [.put row col ⟨typ, v, xf⟩]
  | fmlaBool {code row col xf head v x1 x2 x3 x4 more} : code = 0x6 ∨ code = 0x206 ∨ code = 0x406 → CellHead row col xf head →
      2 ≤ more.length →
      CellRecs whole ctx [(code, head ++ [1, x1, v, x2, x3, x4, 0xFF, 0xFF] ++ more)] [.put row col ⟨4, .int v.toNat, xf⟩]
  | fmlaError {code row col xf head v x1 x2 x3 x4 more} : code = 0x6 ∨ code = 0x206 ∨ code = 0x406 → CellHead row col xf head →
      2 ≤ more.length →
      CellRecs whole ctx [(code, head ++ [2, x1, v, x2, x3, x4, 0xFF, 0xFF] ++ more)] [.put row col ⟨5, .int v.toNat, xf⟩]
  | fmlaEmpty {code row col xf head x1 x2 x3 x4 x5 more} : code = 0x6 ∨ code = 0x206 ∨ code = 0x406 → CellHead row col xf head →
      2 ≤ more.length →
      CellRecs whole ctx [(code, head ++ [3, x1, x2, x3, x4, x5, 0xFF, 0xFF] ++ more)] [.put row col ⟨1, .str [], xf⟩]
  | fmlaText {code row col xf head x1 x2 x3 x4 x5 more between first conts t} : code = 0x6 ∨ code = 0x206 ∨ code = 0x406 →
      CellHead row col xf head → 2 ≤ more.length → Between between → StringRecs whole ctx first conts t →
      CellRecs whole ctx
        ((code, head ++ [0, x1, x2, x3, x4, x5, 0xFF, 0xFF] ++ more) :: (between ++ (0x207, first) :: conts.map fun d => (0x3C, d)))
        [.put row col ⟨1, .str t, xf⟩]

/-! ### Other records -/

/-- Codes of the records with cells, of BOF, EOF, DIMENSIONS, COUNTRY, and of objects, notes
and hyperlinks. -/
def structural : List Nat :=
  [0x203, 0x27E, 0xBD, 0xFD, 0x204, 0xD6, 0x205, 0x6, 0x206, 0x406, 0x809, 0x409, 0x209, 0x9, 0xA, 0x200, 0x0, 0x8C,
   0x1B8, 0x800, 0x5D, 0x1B6, 0x1C]

/-- Label ranges: two lists of ranges of eight bytes. -/
def LabelRanges (data : List UInt8) : Prop :=
  ∃ n m r1 r2, n < 65536 ∧ m < 65536 ∧ r1.length = 8 * n ∧ r2.length = 8 * m ∧ data = leBytes 2 n ++ r1 ++ leBytes 2 m ++ r2

/-- A record that is none of these, and as long as its kind asks for: column widths, label
ranges, array and shared formulas, default row height, window, magnification and pane. -/
def Aside (r : XRec) : Prop :=
  r.1 ∉ structural ∧ (r.1 = 0x55 ∨ r.1 = 0x99 → 2 ≤ r.2.length) ∧ (r.1 = 0x15F → LabelRanges r.2) ∧
    (r.1 = 0x221 → 14 ≤ r.2.length) ∧ (r.1 = 0x4BC → 10 ≤ r.2.length) ∧ (r.1 = 0x225 → r.2.length = 4) ∧
    (r.1 = 0x23E → 10 ≤ r.2.length) ∧ (r.1 = 0xA0 → r.2.length = 4) ∧ (r.1 = 0x41 → 9 ≤ r.2.length)

/-- The records of a sheet after BOF, with EOF, and what they do.  DIMENSIONS comes before the
cells (`fresh`). -/
inductive SheetRecs (whole : Bool) (ctx : XlsCtx) : (fresh : Bool) → List XRec → List CellOp → Prop
  | eof {fresh data} : SheetRecs whole ctx fresh [(0xA, data)] []
  | cells {fresh rs ops rest more} : CellRecs whole ctx rs ops → SheetRecs whole ctx false rest more →
      SheetRecs whole ctx fresh (rs ++ rest) (ops ++ more)
  | aside {fresh r rest ops} : Aside r → SheetRecs whole ctx fresh rest ops → SheetRecs whole ctx fresh (r :: rest) ops
  | dimensions {data rest ops} : (if ctx.v8 then 12 ≤ data.length else 8 ≤ data.length) → SheetRecs whole ctx true rest ops →
      SheetRecs whole ctx true ((0x200, data) :: rest) ops
  | country {fresh more rest ops} : ctx.country.1 < 65536 → ctx.country.2 < 65536 → SheetRecs whole ctx fresh rest ops →
      SheetRecs whole ctx fresh ((0x8C, leBytes 2 ctx.country.1 ++ leBytes 2 ctx.country.2 ++ more) :: rest) ops
  | object {fresh rs rest ops} : ctx.object rs → SheetRecs whole ctx fresh rest ops → SheetRecs whole ctx fresh (rs ++ rest) ops
  | chart {fresh code data eof rs rest ops} : code = 0x809 ∨ code = 0x409 ∨ code = 0x209 → 4 ≤ data.length →
      (∀ r ∈ rs, r.1 ≠ 0xA) → SheetRecs whole ctx fresh rest ops →
      SheetRecs whole ctx fresh ((code, data) :: (rs ++ (0xA, eof) :: rest)) ops

end CP.Spec
