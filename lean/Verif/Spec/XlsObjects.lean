import Verif.Spec.XlsSheet
/-!
# Specification: the hyperlinks, objects and notes of a sheet of an .xls file

Written from the file format ([MS-XLS], [MS-OSHARED]), not from the code.  `whole` is for what the
reader gets through.
-/

namespace CP.Spec

/-! ### Hyperlinks -/

/-- The identifiers of hyperlinks, of URL monikers and of file monikers. -/
def stdLink : List UInt8 := [0xD0, 0xC9, 0xEA, 0x79, 0xF9, 0xBA, 0xCE, 0x11, 0x8C, 0x82, 0x00, 0xAA, 0x00, 0x4B, 0xA9, 0x0B]
def urlMonikerId : List UInt8 := [0xE0, 0xC9, 0xEA, 0x79, 0xF9, 0xBA, 0xCE, 0x11, 0x8C, 0x82, 0x00, 0xAA, 0x00, 0x4B, 0xA9, 0x0B]
def fileMonikerId : List UInt8 := [0x03, 0x03, 0x00, 0x00, 0x00, 0x00, 0x00, 0x00, 0xC0, 0x00, 0x00, 0x00, 0x00, 0x00, 0x00, 0x46]

/-- The code units of a text, two bytes each. -/
def wideText (t : List Char) : List UInt8 := (textUnits t).flatMap (leBytes 2)

/-- A string of a hyperlink: the count of units, with the zero at the end, and the units. -/
def LinkString (b : List UInt8) : Prop :=
  ∃ t, (textUnits t).length + 1 < 2 ^ 32 ∧ b = leBytes 4 ((textUnits t).length + 1) ++ wideText t ++ [0, 0]

/-- The flags of a hyperlink: it has a moniker, is absolute, its creator gave a display name, it has
a location, a display name, an identifier, a time, a target frame, and its moniker is a string;
other bits. -/
structure LinkFlags where
  moniker : Bool
  absolute : Bool
  siteName : Bool
  location : Bool
  name : Bool
  guid : Bool
  time : Bool
  frame : Bool
  asString : Bool
  others : Nat

def LinkFlags.value (f : LinkFlags) : Nat :=
  f.moniker.toNat + 2 * f.absolute.toNat + 4 * f.siteName.toNat + 8 * f.location.toNat + 16 * f.name.toNat + 32 * f.guid.toNat +
    64 * f.time.toNat + 128 * f.frame.toNat + 256 * f.asString.toNat + 512 * f.others

/-- What may be after a URL: nothing; or an identifier, the version 0, and flags, of which those with
the values 0x800 and 0x1000 exclude each other. -/
def UrlExtra (b : List UInt8) : Prop :=
  b = [] ∨ ∃ flags, flags < 65536 ∧ ¬ (flags.testBit 11 ∧ flags.testBit 12) ∧
    b = [0x79, 0x58, 0x81, 0xF4, 0x3B, 0x1D, 0x7F, 0x48, 0xAF, 0x2C, 0x82, 0x5D, 0xC4, 0x85, 0x27, 0x63] ++ leBytes 4 0 ++ leBytes 4 flags

/-- The target of a hyperlink: none; a string; a URL, perhaps with more after it; a file, with its
name in the code page of its creator and perhaps in Unicode; another moniker. -/
inductive LinkTarget (whole : Bool) (f : LinkFlags) : List UInt8 → Prop
  | none : f.moniker = false → LinkTarget whole f []
  | string {b} : f.moniker = true → f.asString = true → LinkString b → LinkTarget whole f b
  | url {t extra} : f.moniker = true → f.asString = false → Char.ofNat 0 ∉ t → (whole = true → ∀ c ∈ t, c.toNat < 0x10000) →
      UrlExtra extra → 2 * ((textUnits t).length + 1) + extra.length < 2 ^ 32 →
      LinkTarget whole f
        (urlMonikerId ++ leBytes 4 (2 * ((textUnits t).length + 1) + extra.length) ++ (wideText t ++ [0, 0] ++ extra))
  | shortFile {up ansi more} : f.moniker = true → f.asString = false → up < 65536 → ansi.length < 2 ^ 31 → more.length = 24 →
      LinkTarget whole f (fileMonikerId ++ (leBytes 2 up ++ leBytes 4 ansi.length) ++ ansi ++ more ++ leBytes 4 0)
  | longFile {up ansi more t} {x : List UInt8} : f.moniker = true → f.asString = false → up < 65536 → ansi.length < 2 ^ 31 →
      more.length = 24 → (wideText t).length + 6 < 2 ^ 31 → x.length = 2 →
      LinkTarget whole f (fileMonikerId ++ (leBytes 2 up ++ leBytes 4 ansi.length) ++ ansi ++ more ++
        leBytes 4 ((wideText t).length + 6) ++ leBytes 4 (wideText t).length ++ x ++ wideText t)
  | other {clsid more} : f.moniker = true → f.asString = false → clsid.length = 16 → clsid ≠ urlMonikerId → clsid ≠ fileMonikerId →
      (whole = true → f.location = false) → LinkTarget whole f (clsid ++ more)

/-- The data of an HLINK record for the range (four numbers of two bytes). -/
def LinkIs (whole : Bool) (range data : List UInt8) : Prop :=
  range.length = 8 ∧ ∃ (f : LinkFlags) (name frame target location more : List UInt8), f.value < 2 ^ 32 ∧
    (if f.name then LinkString name else name = []) ∧ (if f.frame then LinkString frame else frame = []) ∧
    LinkTarget whole f target ∧ (if f.location then LinkString location else location = []) ∧
    (whole = true → f.siteName = true → f.name = true) ∧
    data = range ++ stdLink ++ [2, 0, 0, 0] ++ leBytes 4 f.value ++ name ++ frame ++ target ++ location ++ more

/-- The data of the QUICKTIP record of a hyperlink. -/
def TipIs (range data : List UInt8) : Prop := ∃ t, data = leBytes 2 0x800 ++ range ++ wideText t ++ [0, 0]

/-! ### Objects -/

/-- The parts of an OBJ record after the first one; zeros at the end.  The scroll bar part (0xC) has
at least 14 bytes.  The last one may be that of a list box (0x13), whose count does not tell its
length: it is too large, or the object is a filter (`auto`). -/
inductive ObjParts (auto : Bool) : List UInt8 → Prop
  | nil : ObjParts auto []
  | zeros {k} : 4 ≤ k → ObjParts auto (List.replicate k 0)
  | part {ft d rest} : ft < 65536 → d.length < 65536 → ft ≠ 0 → ft ≠ 0x15 → (ft = 0xC → 14 ≤ d.length) → ObjParts auto rest →
      ObjParts auto (leBytes 2 ft ++ leBytes 2 d.length ++ (d ++ rest))
  | list {cb rest} : cb < 65536 → auto = true ∨ rest.length ≤ cb → ObjParts auto (leBytes 2 0x13 ++ leBytes 2 cb ++ rest)

/-- The data of an OBJ record: the common part (0x15) with type, identifier and flags first; or, from
older versions, something else. -/
def ObjIs (data : List UInt8) : Prop :=
  (∃ (head : List UInt8) (flags : Nat) (more parts : List UInt8), head.length = 4 ∧ flags < 65536 ∧ more.length = 12 ∧ ObjParts (flags.testBit 8) parts ∧
    data = leBytes 2 0x15 ++ leBytes 2 18 ++ head ++ leBytes 2 flags ++ more ++ parts) ∨
  data = [] ∨ (4 ≤ data.length ∧ data.take 4 ≠ leBytes 2 0x15 ++ leBytes 2 18)

/-- The data of CONTINUE records with code units: an options byte, and units of two bytes or one. -/
inductive TxoUnits (whole : Bool) : List (List UInt8) → List Nat → Prop
  | nil : TxoUnits whole [] []
  | cons {o us b rest us'} : o = 0 ∨ o = 1 → us ≠ [] → UnitBytes (Wide o) us b → (whole = true → ∃ t, us = textUnits t) →
      TxoUnits whole rest us' → TxoUnits whole ((o :: b) :: rest) (us ++ us')

/-- The data of a TXO record and of the CONTINUE records with its text and its formatting runs. -/
def TxoIs (whole : Bool) (data : List UInt8) (conts : List (List UInt8)) : Prop :=
  ∃ (head more : List UInt8) (text runs : List (List UInt8)) (t : List Char), head.length = 10 ∧ 2 ≤ more.length ∧ TxoUnits whole text (textUnits t) ∧
    (∀ b ∈ runs, b ≠ [] ∧ b.length % 8 = 0) ∧ (textUnits t).length < 65536 ∧ runs.flatten.length < 65536 ∧
    data = head ++ leBytes 2 (textUnits t).length ++ leBytes 2 runs.flatten.length ++ more ∧ conts = text ++ runs

/-- What follows an OBJ record: other records, such as drawings, and texts.  Before BIFF 8 the
CONTINUE records of a text are like other records. -/
inductive ObjFollow (whole v8 : Bool) : List XRec → Prop
  | nil : ObjFollow whole v8 []
  | aside {r rest} : Aside r → ObjFollow whole v8 rest → ObjFollow whole v8 (r :: rest)
  | text8 {data conts rest} : v8 = true → TxoIs whole data conts → ObjFollow whole v8 rest →
      ObjFollow whole v8 ((0x1B6, data) :: (conts.map (fun d => (0x3C, d)) ++ rest))
  | text5 {data rest} : v8 = false → ObjFollow whole v8 rest → ObjFollow whole v8 ((0x1B6, data) :: rest)

/-! ### Notes -/

/-- The data of a NOTE record of BIFF 8: row, column, flags, identifier, the author, perhaps a byte. -/
def Note8 (data : List UInt8) : Prop :=
  ∃ start author pad, start.length = 8 ∧ pad.length ≤ 1 ∧ data = start ++ author ++ pad ∧
    ((author = leBytes 2 0 ∧ pad = []) ∨
      ∃ o rt sz head t text inner, StringHead 2 (textUnits t).length o rt sz head ∧ UnitBytes (Wide o) (textUnits t) text ∧
        inner.length = 4 * rt + sz ∧ author = head ++ text ++ inner)

/-- The NOTE records of a note before BIFF 8: row, column, length, and text; the other records have
0xFFFF instead of a row. -/
def Note5 (text : List UInt8 → Option (List Char)) (rs : List XRec) : Prop :=
  ∃ (cell first : List UInt8) (more : List (List UInt8 × List UInt8)) (t : List Char),
    cell.length = 4 ∧ (first ++ more.flatMap Prod.snd).length < 65536 ∧ (∀ p ∈ more, p.1.length = 2 ∧ p.2 ≠ []) ∧
    text (first ++ more.flatMap Prod.snd) = some t ∧
    rs = (0x1C, cell ++ leBytes 2 (first ++ more.flatMap Prod.snd).length ++ first) ::
      more.map fun p => (0x1C, leBytes 2 0xFFFF ++ p.1 ++ leBytes 2 p.2.length ++ p.2)

/-! ### Groups of records -/

/-- A hyperlink, an object with what follows it, or a note. -/
inductive ObjectGroup (whole v8 : Bool) (text : List UInt8 → Option (List Char)) : List XRec → Prop
  | link {range data} : LinkIs whole range data → ObjectGroup whole v8 text [(0x1B8, data)]
  | linkTip {range data tip} : LinkIs whole range data → TipIs range tip → ObjectGroup whole v8 text [(0x1B8, data), (0x800, tip)]
  | object {data rest} : (v8 = true → ObjIs data) → ObjFollow whole v8 rest → ObjectGroup whole v8 text ((0x5D, data) :: rest)
  | note8 {data} : v8 = true → Note8 data → ObjectGroup whole v8 text [(0x1C, data)]
  | note5 {rs} : v8 = false → Note5 text rs → ObjectGroup whole v8 text rs

end CP.Spec
