import Verif.Model.PyIter
import Verif.Model.Pack
/-!
# Model of channelpack/dbf.py

A file is its bytes and a position.  A generator is used up by its caller in the same
call, so it is modelled by the list of what it yields; an exception raised by it is the
exception of the caller.  `float(bytes)` is a parameter.
-/

namespace CP

abbrev Bytes := List UInt8

/-- A file opened for binary reads. -/
structure BFile where
  bytes : Bytes
  pos : Nat

/-- `f.read(n)` -/
def BFile.read (f : BFile) (n : Nat) : Bytes × BFile :=
  let r := (f.bytes.drop f.pos).take n
  (r, { f with pos := f.pos + r.length })

/-- `f.seek(p)` -/
def BFile.seek (f : BFile) (p : Nat) : BFile := { f with pos := p }

/-- A little-endian unsigned integer. -/
def leNat : Bytes → Nat
  | [] => 0
  | b :: bs => b.toNat + 256 * leNat bs

/-- `(byte)` is ASCII whitespace for the methods of bytes: space, \t \n \v \f \r. -/
def byteSpace (b : UInt8) : Bool := b == 32 || (9 ≤ b && b ≤ 13)

/-- `b.lstrip()` of bytes -/
def lstripB (b : Bytes) : Bytes := b.dropWhile byteSpace

/-- `b.strip()` of bytes -/
def stripB (b : Bytes) : Bytes := ((lstripB b).reverse.dropWhile byteSpace).reverse

/-- `b.replace(b'\0', b'')` -/
def noNul (b : Bytes) : Bytes := b.filter (· ≠ 0)

/-- A byte that is an ASCII digit. -/
def byteDigit (b : UInt8) : Option Nat :=
  if 48 ≤ b.toNat ∧ b.toNat ≤ 57 then some (b.toNat - 48) else none

/-- The digits of an int literal for `int(...)`: at least one digit, single underscores
between digits.  `last` tells that the byte before was a digit. -/
def intDigits : Nat → Bool → Bytes → Except Exc Nat
  | acc, last, [] => if last then .ok acc else .error .valueError
  | acc, last, b :: bs =>
    match byteDigit b with
    | some d => intDigits (acc * 10 + d) true bs
    | none => if b = 95 ∧ last then intDigits acc false bs else .error .valueError

/-- `int(b)` of bytes: surrounding whitespace, a sign, digits. -/
def bytesInt (b : Bytes) : Except Exc Int :=
  match stripB b with
  | 43 :: ds => match intDigits 0 false ds with
    | .ok n => .ok n
    | .error e => .error e
  | 45 :: ds => match intDigits 0 false ds with
    | .ok n => .ok (-(n : Int))
    | .error e => .error e
  | ds => match intDigits 0 false ds with
    | .ok n => .ok n
    | .error e => .error e

/-- `b.decode('ascii')` -/
def asciiDecode (b : Bytes) : Except Exc (List Char) :=
  if b.all (fun x => x.toNat < 128) then .ok (b.map fun x => Char.ofNat x.toNat)
  else .error .unicodeError

/-- `datetime.date(y, m, d)`: ValueError unless it is a date of the years 1 to 9999. -/
def pyDate (y m d : Int) : Except Exc Val :=
  let leap : Bool := y % 4 = 0 ∧ (y % 100 ≠ 0 ∨ y % 400 = 0)
  let dim : Int := if m = 2 then (if leap then 29 else 28)
    else if m = 4 ∨ m = 6 ∨ m = 9 ∨ m = 11 then 30 else 31
  if 1 ≤ y ∧ y ≤ 9999 ∧ 1 ≤ m ∧ m ≤ 12 ∧ 1 ≤ d ∧ d ≤ dim then .ok (.date y m d)
  else .error .valueError

/-- `a in b` of bytes: `a` is a part of `b`. -/
def isInfix (a : Bytes) : Bytes → Bool
  | [] => a.isEmpty
  | b :: bs => a.isPrefixOf (b :: bs) || isInfix a bs

/-- `float(b)` of bytes. -/
abbrev FloatB := Bytes → Except Exc Val

/-- dbf.py:55-78 and 137-160: the conversion of one field. -/
def dbfConvert (fl : FloatB) (typ : UInt8) (deci : Nat) (value : Bytes) : Except Exc Val :=
  if typ = 78 then                                            -- N
    let value := lstripB (noNul value)
    if value = [] then .ok .nan
    else if deci ≠ 0 then fl value
    else match bytesInt value with
      | .ok i => .ok (.int i)
      | .error e => .error e
  else if typ = 68 then                                       -- D
    if stripB value ≠ [] then
      match bytesInt (pySlice value 0 4) with
      | .error e => .error e
      | .ok y =>
        match bytesInt (pySlice value 4 6) with
        | .error e => .error e
        | .ok m =>
          match bytesInt (pySlice value 6 8) with
          | .error e => .error e
          | .ok d => pyDate y m d
    else .ok .none
  else if typ = 76 then                                       -- L
    if isInfix value [89, 121, 84, 116] then .ok (.str ['T'])  -- b'YyTt'
    else if isInfix value [78, 110, 70, 102] then .ok (.str ['F'])  -- b'NnFf'
    else .ok (.str ['?'])
  else if typ = 70 then                                       -- F
    if stripB value ≠ [] then fl value else .ok .nan
  else match asciiDecode value with
    | .ok s => .ok (.str s)
    | .error e => .error e

/-- A field descriptor: name, typ, size, deci (dbf.py:37). -/
structure DbfField where
  name : List Char
  typ : UInt8
  size : Nat
  deci : Nat
  deriving DecidableEq

/-- dbf.py:29 `struct.unpack('<xxxxLH22x', b)` -/
def unpackHeader (b : Bytes) : Except Exc (Nat × Nat) :=
  if b.length = 32 then .ok (leNat (pySlice b 4 8), leNat (pySlice b 8 10)) else .error .structError

/-- dbf.py:34-36: one field descriptor, `struct.unpack('<11sc4xBB14x', b)`. -/
def unpackField (b : Bytes) : Except Exc DbfField :=
  if b.length = 32 then
    match asciiDecode (noNul (pySlice b 0 11)) with
    | .error e => .error e
    | .ok name => .ok { name := name, typ := b.getD 11 0, size := (b.getD 16 0).toNat,
                        deci := (b.getD 17 0).toNat }
  else .error .structError

/-- dbf.py:33-37: the loop over the field descriptors. -/
def readFields : Nat → BFile → Except Exc (List DbfField × BFile)
  | 0, f => .ok ([], f)
  | n + 1, f =>
    let (b, f) := f.read 32
    match unpackField b with
    | .error e => .error e
    | .ok fld =>
      match readFields n f with
      | .error e => .error e
      | .ok (flds, f) => .ok (fld :: flds, f)

/-- dbf.py:29-37: `numrec`, the fields, and the file after them.
`range((lenheader - 33) // 32)` is empty when `lenheader < 33`. -/
def readHeader (f : BFile) : Except Exc (Nat × List DbfField × BFile) :=
  let (b, f) := f.read 32
  match unpackHeader b with
  | .error e => .error e
  | .ok (numrec, lenheader) =>
    match readFields ((lenheader - 33) / 32) f with
    | .error e => .error e
    | .ok (fields, f) => .ok (numrec, fields, f)

/-- `'DeletionFlag'` -/
def deletionFlag : List Char :=
  ['D', 'e', 'l', 'e', 't', 'i', 'o', 'n', 'F', 'l', 'a', 'g']

/-- dbf.py:44 and 104: the extra first field. -/
def flagField : DbfField := { name := deletionFlag, typ := 67, size := 1, deci := 0 }

/-- `struct.unpack('1s5s...', b)` for a `b` of the right length. -/
def splitSizes : List Nat → Bytes → List Bytes
  | [], _ => []
  | n :: ns, b => b.take n :: splitSizes ns (b.drop n)

/-- dbf.py:51-79 and 133-161: the values of a record, of all fields but those named
'DeletionFlag'. -/
def dbfRecord (fl : FloatB) : List (DbfField × Bytes) → Except Exc (List Val)
  | [] => .ok []
  | (fld, value) :: rest =>
    if fld.name = deletionFlag then dbfRecord fl rest
    else match dbfConvert fl fld.typ fld.deci value with
      | .error e => .error e
      | .ok v =>
        match dbfRecord fl rest with
        | .error e => .error e
        | .ok vs => .ok (v :: vs)

/-- dbf.py:47-80: the records; `fields` include the deletion flag. -/
def readRecords (fl : FloatB) (fields : List DbfField) : Nat → BFile → Except Exc (List (List Val))
  | 0, _ => .ok []
  | n + 1, f =>
    let fmtsiz := (fields.map DbfField.size).sum
    let (b, f) := f.read fmtsiz
    if b.length ≠ fmtsiz then .error .structError
    else
      let record := splitSizes (fields.map DbfField.size) b
      if record.head? ≠ some [32] then readRecords fl fields n f
      else match dbfRecord fl (fields.zip record) with
        | .error e => .error e
        | .ok result =>
          match readRecords fl fields n f with
          | .error e => .error e
          | .ok rest => .ok (result :: rest)

/-- dbf.py:17-80 `dbfreader`: the names and all records. -/
def dbfreader (fl : FloatB) (f : BFile) : Except Exc (List (List Char) × List (List Val)) :=
  match readHeader f with
  | .error e => .error e
  | .ok (numrec, fields, f) =>
    let (t, f) := f.read 1
    if t ≠ [13] then .error .assertionError
    else match readRecords fl (flagField :: fields) numrec f with
      | .error e => .error e
      | .ok recs => .ok (fields.map DbfField.name, recs)

/-- dbf.py:113-115: the fields with their offsets in the record (`seekme`); `off` is the
sum of the sizes before. -/
def withOffsets : Nat → List DbfField → List (DbfField × Nat)
  | _, [] => []
  | off, fld :: rest => (fld, off) :: withOffsets (off + fld.size) rest

/-- dbf.py:127-129: the raw values of the selected fields, and the file after reading
them. -/
def readSelected (refaddr : Nat) : List (DbfField × Nat) → BFile → Except Exc (List Bytes × BFile)
  | [], f => .ok ([], f)
  | (fld, off) :: rest, f =>
    let (b, f) := (f.seek (refaddr + off)).read fld.size
    if b.length ≠ fld.size then .error .structError
    else match readSelected refaddr rest f with
      | .error e => .error e
      | .ok (bs, f) => .ok (b :: bs, f)

/-- dbf.py:124-163: the records of the selected fields; `reclen` is
`fields[-1].seekme + fields[-1].fmtsiz`.  A deleted record leaves the file where the last
selected field ends. -/
def selRecords (fl : FloatB) (sel : List (DbfField × Nat)) (reclen : Nat) :
    Nat → BFile → Except Exc (List (List Val))
  | 0, _ => .ok []
  | n + 1, f =>
    let refaddr := f.pos
    match readSelected refaddr sel f with
    | .error e => .error e
    | .ok (record, f) =>
      if record.head? ≠ some [32] then selRecords fl sel reclen n f
      else match dbfRecord fl ((sel.map Prod.fst).zip record) with
        | .error e => .error e
        | .ok result =>
          match selRecords fl sel reclen n (f.seek (refaddr + reclen)) with
          | .error e => .error e
          | .ok rest => .ok (result :: rest)

/-- dbf.py:104-117 `selfields`: the deletion flag and the fields asked for, with offsets -/
def selFields (fields : List DbfField) (names : List (List Char)) : List (DbfField × Nat) :=
  (flagField, 0) :: (withOffsets 1 fields).filter fun p => p.1.name ∈ names

/-- dbf.py:162 `fields[-1].seekme + fields[-1].fmtsiz` -/
def recLen (fields : List DbfField) : Nat := ((flagField :: fields).map DbfField.size).sum

/-- dbf.py:87-163 `dbfrecords`: the records of the fields asked for. -/
def dbfrecords (fl : FloatB) (f : BFile) (names : List (List Char)) :
    Except Exc (List (List Val)) :=
  match readHeader f with
  | .error e => .error e
  | .ok (numrec, fields, f) =>
    let (t, f) := f.read 1
    if t ≠ [13] then .error .assertionError
    else selRecords fl (selFields fields names) (recLen fields) numrec f

/-- dbf.py:202-205: the names asked for with their field numbers. -/
def chnamesOf (allnames names : List (List Char)) : List (Int × List Char) :=
  (enumDict allnames).filter fun p => p.2 ∈ names

/-- dbf.py:166-211 `dbfpack`: the data and names given to `ChannelPack` (which makes arrays
of the columns).  `names` is a list of str; an empty one is none. -/
def dbfpack (fl : FloatB) (f : BFile) (names : List (List Char)) :
    Except Exc (List (Int × List Val) × List (Int × List Char)) :=
  if names = [] then
    match dbfreader fl f with
    | .error e => .error e
    | .ok (fieldnames, recs) => .ok (enumDict (zipStar recs), enumDict fieldnames)
  else
    match readHeader f with
    | .error e => .error e
    | .ok (_, fields, f') =>
      match dbfrecords fl (f'.seek 0) names with
      | .error e => .error e
      | .ok recs =>
        let chnames := chnamesOf (fields.map DbfField.name) names
        .ok ((chnames.map Prod.fst).zip (zipStar recs), chnames)

/-- The strings that `in` finds in a str: its slices. -/
def substrings : List Char → List (List Char)
  | [] => [[]]
  | c :: s => (List.range (s.length + 2)).map (fun n => (c :: s).take n) ++ substrings s

/-- dbf.py:166-211 `dbfpack` with a str given as `names`: `name in names` (dbf.py:115, 204)
then tells whether the name is a part of it; the empty str is none (dbf.py:178). -/
def dbfpackStr (fl : FloatB) (f : BFile) (names : List Char) :
    Except Exc (List (Int × List Val) × List (Int × List Char)) :=
  dbfpack fl f (if names = [] then [] else substrings names)

end CP
