import Verif.Spec.XlsSheet
import Verif.Spec.Dbf
import Verif.Spec.Formatting
import Verif.Spec.XlsxBook
/-!
# Specification: the stream of an .xls book (BIFF 5, 7 and 8)

Written from the file format, not from the code.
-/

namespace CP.Spec

/-- Records that make external references or a name, with the text for bytes in the code page there. -/
structure NameGroup where
  tx : List UInt8 → Option (List Char)
  head : XRec
  conts : List XRec

/-- What a book depends on: its version, rounding, python's codecs by name, the country
settings, the groups of records that make objects, notes or hyperlinks in a sheet (given the text
for bytes in the code page), those that make external references and names in the globals, and
what holds for all of these (given the text for bytes in the last code page) with the names and
kinds of all sheets. -/
structure BookCtx where
  v8 : Bool
  rnd : Rat → Rat
  codec : List Char → List UInt8 → Option (List Char)
  country : Nat × Nat
  object : (List UInt8 → Option (List Char)) → List XRec → Prop
  names : NameGroup → Prop
  named : (List UInt8 → Option (List Char)) → List NameGroup → List (List Char × Nat) → Prop

/-! ### Code pages -/

/-- The codec for a code page. -/
def pageName (n : Nat) : Option (List Char) :=
  if n = 1200 then some "utf_16_le".toList
  else if n = 10000 ∨ n = 32768 then some "mac_roman".toList
  else if n = 10006 then some "mac_greek".toList
  else if n = 10007 then some "mac_cyrillic".toList
  else if n = 10029 then some "mac_latin2".toList
  else if n = 10079 then some "mac_iceland".toList
  else if n = 10081 then some "mac_turkish".toList
  else if n = 32769 then some "cp1252".toList
  else if 300 ≤ n ∧ n < 2000 then some ("cp".toList ++ (toString n).toList)
  else none

/-- ASCII text. -/
def asciiText (b : List UInt8) : List Char := b.map fun x => Char.ofNat x.toNat

/-- The codec reads ASCII as it is. -/
def AsciiOk (c : BookCtx) (name : List Char) : Prop :=
  ∀ b : List UInt8, (∀ x ∈ b, x < 128) → c.codec name b = some (asciiText b)

/-- A code page that may be named in a file.  In BIFF 8, text is in Unicode anyway. -/
def PageOk (c : BookCtx) (n : Nat) : Prop :=
  match pageName n with
  | some name => (c.v8 = true ∧ n = 1200) ∨ AsciiOk c name
  | none => c.v8 = true

/-- The codec for a file with this code page, or with none. -/
def textName : Option Nat → List Char
  | none => "iso-8859-1".toList
  | some n => (pageName n).getD []

/-- The text for bytes in the code page (before BIFF 8). -/
def pageText (c : BookCtx) (page : Option Nat) (b : List UInt8) : Option (List Char) :=
  if c.v8 then none else c.codec (textName page) b

/-- Text in the globals: in BIFF 8 a string, with a count of `lenlen` bytes; before, a count of
one byte and bytes in the code page. -/
def GlobalText (c : BookCtx) (page : Option Nat) (lenlen : Nat) (b : List UInt8) (t : List Char) : Prop :=
  if c.v8 then StringIs lenlen b t
  else ∃ text more, text.length < 256 ∧ b = leBytes 1 text.length ++ text ++ more ∧ c.codec (textName page) text = some t

/-! ### The globals -/

/-- What the globals say. -/
inductive GItem
  | page (n : Nat)
  | format (key : Nat) (code : List Char)
  | xf (key : Nat)
  | sheet (name : List Char) (offset kind : Nat)
  | mode (n : Nat)
  | strings (ts : List (List Char))
  | names (g : NameGroup)

/-- Codes of records that matter: CODEPAGE, FORMAT, XF, BOUNDSHEET, DATEMODE, COUNTRY,
WRITEACCESS, SST, EOF, EXTERNSHEET, NAME, EXTERNNAME, SUPBOOK, FILEPASS (the book is
encrypted), and SHEETSOFFSET and SHEETHDR of BIFF 4. -/
def globalCodes : List Nat :=
  [0x42, 0x41E, 0xE0, 0x85, 0x22, 0x8C, 0x5C, 0xFC, 0xA, 0x17, 0x18, 0x23, 0x1AE, 0x2F, 0x8E, 0x8F]

/-- The records of the globals after BOF, with EOF, given the code page named so far. -/
inductive GlobalRecs (whole : Bool) (c : BookCtx) : (page : Option Nat) → List XRec → List GItem → Prop
  | eof {page data} : GlobalRecs whole c page [(0xA, data)] []
  | page {page n more rest items} : n < 65536 → PageOk c n → GlobalRecs whole c (some n) rest items →
      GlobalRecs whole c page ((0x42, leBytes 2 n ++ more) :: rest) (.page n :: items)
  | format {page key b code rest items} : key < 65536 → GlobalText c page 2 b code → GlobalRecs whole c page rest items →
      GlobalRecs whole c page ((0x41E, leBytes 2 key ++ b) :: rest) (.format key code :: items)
  | xf {page font key more rest items} : font < 65536 → key < 65536 → (if c.v8 then 16 else 12) ≤ more.length →
      GlobalRecs whole c page rest items →
      GlobalRecs whole c page ((0xE0, leBytes 2 font ++ leBytes 2 key ++ more) :: rest) (.xf key :: items)
  | sheet {page offset state kind b name rest items} : offset < 2 ^ 31 → GlobalText c page 1 b name →
      GlobalRecs whole c page rest items →
      GlobalRecs whole c page ((0x85, leBytes 4 offset ++ [state, kind] ++ b) :: rest) (.sheet name offset kind.toNat :: items)
  | mode {page n more rest items} : n = 0 ∨ n = 1 → GlobalRecs whole c page rest items →
      GlobalRecs whole c page ((0x22, leBytes 2 n ++ more) :: rest) (.mode n :: items)
  | country {page more rest items} : c.country.1 < 65536 → c.country.2 < 65536 → GlobalRecs whole c page rest items →
      GlobalRecs whole c page ((0x8C, leBytes 2 c.country.1 ++ leBytes 2 c.country.2 ++ more) :: rest) items
  | user {page b t rest items} :
      (if c.v8 then StringIs 2 b t
        else ∃ text more, text.length < 256 ∧ (∀ x ∈ text, x < 128) ∧ b = leBytes 1 text.length ++ text ++ more) →
      GlobalRecs whole c page rest items → GlobalRecs whole c page ((0x5C, b) :: rest) items
  /-- In BIFF 8 the count of the user name may be too large, with spaces to the end of the record. -/
  | userPadded {page n t k rest items} : c.v8 = true → n < 65536 → (textUnits t).length ≤ n →
      ¬ IsWhite (UInt8.ofNat (n % 256)) → (∀ x, ((textUnits t).flatMap (leBytes 2)).getLast? = some x → ¬ IsWhite x) →
      GlobalRecs whole c page rest items →
      GlobalRecs whole c page
        ((0x5C, leBytes 2 n ++ [1] ++ (textUnits t).flatMap (leBytes 2) ++ List.replicate k 32) :: rest) items
  | strings {page data conts ts rest items} : SstIs whole data conts ts → (∀ r, rest.head? = some r → r.1 ≠ 0x3C) →
      GlobalRecs whole c page rest items →
      GlobalRecs whole c page ((0xFC, data) :: (conts.map (fun d => (0x3C, d)) ++ rest)) (.strings ts :: items)
  | names {page r rs rest items} : c.names ⟨pageText c page, r, rs⟩ → GlobalRecs whole c page rest items →
      GlobalRecs whole c page (r :: (rs ++ rest)) (.names ⟨pageText c page, r, rs⟩ :: items)
  | other {page r rest items} : r.1 ∉ globalCodes → GlobalRecs whole c page rest items →
      GlobalRecs whole c page (r :: rest) items

/-! ### What they say -/

/-- The last page, date mode, and shared strings. -/
def lastPage : Option Nat → List GItem → Option Nat
  | p, [] => p
  | _, .page n :: rest => lastPage (some n) rest
  | p, _ :: rest => lastPage p rest

def lastMode : Nat → List GItem → Nat
  | m, [] => m
  | _, .mode n :: rest => lastMode n rest
  | m, _ :: rest => lastMode m rest

def lastStrings : List (List Char) → List GItem → List (List Char)
  | s, [] => s
  | _, .strings ts :: rest => lastStrings ts rest
  | s, _ :: rest => lastStrings s rest

/-- The formats, the format keys of the XF records, and the work sheets with their offsets. -/
def formatsOf (items : List GItem) : List (Nat × List Char) := items.filterMap fun
  | .format k code => some (k, code)
  | _ => none

def xfKeys (items : List GItem) : List Nat := items.filterMap fun
  | .xf k => some k
  | _ => none

def worksheets (items : List GItem) : List (List Char × Nat) := items.filterMap fun
  | .sheet name offset kind => if kind = 0 then some (name, offset) else none
  | _ => none

/-- The records of external references and names, and the names and kinds of all sheets. -/
def nameGroups (items : List GItem) : List NameGroup := items.filterMap fun
  | .names g => some g
  | _ => none

def sheetKinds (items : List GItem) : List (List Char × Nat) := items.filterMap fun
  | .sheet name _ kind => some (name, kind)
  | _ => none

/-- Format keys that need no definition, and those of them for dates and times. -/
def StandardKey (k : Nat) : Prop := k ≤ 22 ∨ (27 ≤ k ∧ k ≤ 62) ∨ (67 ≤ k ∧ k ≤ 81)
def StandardDate (k : Nat) : Prop :=
  (14 ≤ k ∧ k ≤ 22) ∨ (27 ≤ k ∧ k ≤ 36) ∨ (45 ≤ k ∧ k ≤ 47) ∨ (50 ≤ k ∧ k ≤ 58) ∨ (71 ≤ k ∧ k ≤ 81)

/-- The format key is one for dates: as its last definition says, or by default. -/
def DateKey (fs : List (Nat × List Char)) (k : Nat) : Prop :=
  (∃ a code b, fs = a ++ (k, code) :: b ∧ k ∉ b.map Prod.fst ∧ DateFormat code) ∨ (k ∉ fs.map Prod.fst ∧ StandardDate k)

/-- The cell type for the XF record number `i`: 2 for numbers, 3 for dates.  Without XF records
there is number 0, for numbers. -/
def XfTypeIs (items : List GItem) (i typ : Nat) : Prop :=
  (∃ k, (xfKeys items)[i]? = some k ∧ ((DateKey (formatsOf items) k ∧ typ = 3) ∨ (¬ DateKey (formatsOf items) k ∧ typ = 2))) ∨
    (xfKeys items = [] ∧ i = 0 ∧ typ = 2)

/-- The format of each XF record is standard or defined before it; or it is not defined at
all, and neither is format 0. -/
def FormatsFirst (items : List GItem) : Prop :=
  ∀ a k b, items = a ++ .xf k :: b → StandardKey k ∨ k ∈ (formatsOf a).map Prod.fst ∨
    (k ∉ (formatsOf items).map Prod.fst ∧ 0 ∉ (formatsOf items).map Prod.fst)

/-- The format key by which the reader goes for the XF record number `i`: its own one if that is
standard or defined before it; 0 otherwise, whatever is defined later. -/
def ReadKey (items : List GItem) (i k : Nat) : Prop :=
  ∃ a key b, items = a ++ .xf key :: b ∧ (xfKeys a).length = i ∧
    (((StandardKey key ∨ key ∈ (formatsOf a).map Prod.fst) ∧ k = key) ∨
     (¬ (StandardKey key ∨ key ∈ (formatsOf a).map Prod.fst) ∧ k = 0))

/-- The cell type that the reader has for the XF record number `i`. -/
def ReadTypeIs (items : List GItem) (i typ : Nat) : Prop :=
  (∃ k, ReadKey items i k ∧ ((DateKey (formatsOf items) k ∧ typ = 3) ∨ (¬ DateKey (formatsOf items) k ∧ typ = 2))) ∨
    (xfKeys items = [] ∧ i = 0 ∧ typ = 2)

/-- An XF record whose format is not known when it comes is for dates if format 0 is. -/
def FormatsAgree (items : List GItem) : Prop :=
  ∀ a k b, items = a ++ .xf k :: b → StandardKey k ∨ k ∈ (formatsOf a).map Prod.fst ∨
    (DateKey (formatsOf items) k ↔ DateKey (formatsOf items) 0)

/-! ### The book -/

/-- The data of a BOF record. -/
def BofIs (version typ : Nat) (data : List UInt8) : Prop :=
  version < 65536 ∧ data.length ≤ 20 ∧ ∃ more, data = leBytes 2 version ++ leBytes 2 typ ++ more

/-- Rows of a sheet. -/
def bookRows (v8 : Bool) : Nat := if v8 then 65536 else 16384

/-- A sheet in the stream: BOF at its offset, and its records.  (The version in its BOF does
not matter.) -/
def SheetAt (whole : Bool) (ctx : XlsCtx) (stream : List UInt8) (offset : Nat) (ops : List CellOp) : Prop :=
  ∃ before version bof rs after, stream = before ++ (recordBytes (0x809, bof) ++ (rs.flatMap recordBytes ++ after)) ∧
    before.length = offset ∧ BofIs version 0x10 bof ∧ (∀ r ∈ rs, RecordOk r) ∧ SheetRecs whole ctx true rs ops ∧
    ∀ row col v, .put row col v ∈ ops → row < bookRows ctx.v8 ∧ col < 256

/-- What the sheets depend on. -/
def sheetCtx (c : BookCtx) (items : List GItem) (xfType : Nat → Option Nat) : XlsCtx where
  v8 := c.v8
  rnd := c.rnd
  sst := lastStrings [] items
  xfType := xfType
  text := pageText c (lastPage none items)
  country := c.country
  object := c.object (pageText c (lastPage none items))

/-- The stream of a book, with its date mode and the names and cells of its work sheets.
`whole` is for books where the formats come before their uses, and with the limits of
`SstIs` and `StringRecs`. -/
def XlsBookIs (whole : Bool) (c : BookCtx) (stream : List UInt8) (mode : Nat) (sheets : List (List Char × List CellOp)) : Prop :=
  ∃ bof rs items xfType after, stream = recordBytes (0x809, bof) ++ (rs.flatMap recordBytes ++ after) ∧
    BofIs (if c.v8 then 0x600 else 0x500) 5 bof ∧ (∀ r ∈ rs, RecordOk r) ∧ GlobalRecs whole c none rs items ∧
    c.named (pageText c (lastPage none items)) (nameGroups items) (sheetKinds items) ∧
    (whole = true → FormatsFirst items) ∧ (∀ i typ, xfType i = some typ ↔ XfTypeIs items i typ) ∧
    mode = lastMode 0 items ∧
    Each (fun (w : List Char × Nat) (s : List Char × List CellOp) =>
      w.1 = s.1 ∧ SheetAt whole (sheetCtx c items xfType) stream w.2 s.2) (worksheets items) sheets

/-- The stream of a book with formats in any place, with what the reader takes for its cells:
those of `XlsBookIs`, where numbers are dates by `ReadTypeIs`. -/
def AnyFormatsBook (c : BookCtx) (stream : List UInt8) (items : List GItem) (sheets : List (List Char × List CellOp))
    (types : List GItem → Nat → Nat → Prop) : Prop :=
  ∃ bof rs xfType after, stream = recordBytes (0x809, bof) ++ (rs.flatMap recordBytes ++ after) ∧
    BofIs (if c.v8 then 0x600 else 0x500) 5 bof ∧ (∀ r ∈ rs, RecordOk r) ∧ GlobalRecs true c none rs items ∧
    c.named (pageText c (lastPage none items)) (nameGroups items) (sheetKinds items) ∧
    (∀ i typ, xfType i = some typ ↔ types items i typ) ∧
    Each (fun (w : List Char × Nat) (s : List Char × List CellOp) =>
      w.1 = s.1 ∧ SheetAt true (sheetCtx c items xfType) stream w.2 s.2) (worksheets items) sheets

end CP.Spec
