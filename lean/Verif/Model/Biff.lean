import Verif.Model.CompDoc
/-!
# Model of channelpack/xlrd/biffh.py: numbers and strings in records

`struct.unpack` raises unless the slice has the right length.  Positions are integers, since
a negative one counts from the end in Python.  A double is an exact rational, an infinity or
nan (no sign of zero); a division of floats is the quotient rounded by `rnd`, a parameter.
-/

namespace CP

/-- `unpack('<B' or '<H', b)` with a slice that has to have `n` bytes: an unsigned integer. -/
def unpackNat (n : Nat) (b : Bytes) : Except Exc Nat :=
  if b.length = n then .ok (leNat b) else .error .structError

/-- `unpack('<i', b)[0]` -/
def unpackInt (b : Bytes) : Except Exc Int :=
  if b.length = 4 then .ok (leInt b) else .error .structError

/-- The value of a double with the number made of its 64 bits: sign, 11 bits of exponent, 52
bits of fraction (IEEE 754, as `struct.unpack('<d', b)` reads it). -/
def doubleOfBits (n : Nat) : Val :=
  let neg : Bool := n / 2 ^ 63 % 2 = 1
  let e := n / 2 ^ 52 % 2 ^ 11
  let m := n % 2 ^ 52
  let q : Rat := if e = 0 then ((m : Nat) : Rat) / ((2 ^ 1074 : Nat) : Rat)
    else if e < 1075 then ((2 ^ 52 + m : Nat) : Rat) / ((2 ^ (1075 - e) : Nat) : Rat)
    else (((2 ^ 52 + m) * 2 ^ (e - 1075) : Nat) : Rat)
  if e = 2 ^ 11 - 1 then (if m = 0 then .inf neg else .nan)
  else .flt (if neg then -q else q)

/-- `unpack('<d', b)[0]` -/
def unpackDouble (b : Bytes) : Except Exc Val :=
  if b.length = 8 then .ok (doubleOfBits (leNat b)) else .error .structError

/-- `x / 100.0` of a float -/
def divHundred (rnd : Rat → Rat) : Val → Val
  | .flt q => .flt (rnd (q / 100))
  | v => v

/-- xlrd/sheet.py:2219-2233 `unpack_RK` -/
def unpackRK (rnd : Rat → Rat) (b : Bytes) : Except Exc Val :=
  match b with
  | [] => .error .indexError
  | flags :: _ =>
    if flags.toNat / 2 % 2 = 1 then
      match unpackInt b with
      | .error e => .error e
      | .ok i => .ok (if flags.toNat % 2 = 1 then divHundred rnd (.flt ((i / 4 : Int) : Rat)) else .flt ((i / 4 : Int) : Rat))
    else
      match unpackDouble ([0, 0, 0, 0, UInt8.ofNat (flags.toNat / 4 * 4)] ++ pySlice b 1 4) with
      | .error e => .error e
      | .ok d => .ok (if flags.toNat % 2 = 1 then divHundred rnd d else d)

/-- `b.decode('latin_1')` -/
def latin1 (b : Bytes) : List Char := b.map fun x => Char.ofNat x.toNat

/-- `b.decode('utf_16_le')`: UnicodeDecodeError for half a unit and for a surrogate that is
not one of a pair. -/
def utf16le : Bytes → Except Exc (List Char)
  | [] => .ok []
  | [_] => .error .unicodeError
  | lo :: hi :: rest =>
    let u := lo.toNat + 256 * hi.toNat
    if u < 0xD800 ∨ 0xE000 ≤ u then
      match utf16le rest with
      | .error e => .error e
      | .ok s => .ok (Char.ofNat u :: s)
    else if 0xDC00 ≤ u then .error .unicodeError
    else match rest with
      | lo2 :: hi2 :: rest2 =>
        let v := lo2.toNat + 256 * hi2.toNat
        if 0xDC00 ≤ v ∧ v < 0xE000 then
          match utf16le rest2 with
          | .error e => .error e
          | .ok s => .ok (Char.ofNat (0x10000 + (u - 0xD800) * 0x400 + (v - 0xDC00)) :: s)
        else .error .unicodeError
      | _ => .error .unicodeError

/-- The two ways of storing the characters of a string: two bytes each, or one. -/
def decodeChars (wide : Bool) (b : Bytes) : Except Exc (List Char) :=
  if wide then utf16le b else .ok (latin1 b)

/-- The bits of an options byte. -/
def optWide (o : UInt8) : Bool := o.toNat % 2 = 1
def optPhonetic (o : UInt8) : Bool := o.toNat / 4 % 2 = 1
def optRich (o : UInt8) : Bool := o.toNat / 8 % 2 = 1

/-- The bytes that `n` characters take. -/
def charBytes (wide : Bool) (n : Nat) : Nat := if wide then 2 * n else n

/-- biffh.py:247-250 `unpack_string`; `codec` is the decoder of the encoding. -/
def unpackString (codec : Bytes → Except Exc (List Char)) (data : Bytes) (pos lenlen : Nat) : Except Exc (List Char) :=
  match unpackNat lenlen (pySlice data pos (pos + lenlen)) with
  | .error e => .error e
  | .ok n => codec (pySlice data (pos + lenlen) (pos + lenlen + n))

/-- biffh.py:253-258, 303-308: the number of characters, unless it is known, and the position
after it. -/
def strLen (data : Bytes) (pos lenlen : Nat) : Option Nat → Except Exc (Nat × Nat)
  | some n => .ok (n, pos)
  | none =>
    match unpackNat lenlen (pySlice data pos (pos + lenlen)) with
    | .error e => .error e
    | .ok n => .ok (n, pos + lenlen)

/-- biffh.py:252-260 `unpack_string_update_pos` -/
def unpackStringUpd (codec : Bytes → Except Exc (List Char)) (data : Bytes) (pos lenlen : Nat) (known : Option Nat) :
    Except Exc (List Char × Nat) :=
  match strLen data pos lenlen known with
  | .error e => .error e
  | .ok (n, pos) => (codec (pySlice data pos (pos + n))).map fun s => (s, pos + n)

/-- biffh.py:262-299 `unpack_unicode` -/
def unpackUnicode (data : Bytes) (pos lenlen : Nat) : Except Exc (List Char) :=
  match unpackNat lenlen (pySlice data pos (pos + lenlen)) with
  | .error e => .error e
  | .ok n =>
    if n = 0 then .ok []
    else match data[pos + lenlen]? with
      | none => .error .indexError
      | some o =>
        let p := pos + lenlen + 1 + (if optRich o then 2 else 0) + (if optPhonetic o then 4 else 0)
        decodeChars (optWide o) (pySlice data p (p + charBytes (optWide o) n))

/-- The number of formatting runs after an options byte.  biffh.py:316-318, xlrd/book.py:1433-1437 -/
def optRuns (o : UInt8) (data : Bytes) (pos : Int) : Except Exc (Nat × Int) :=
  if optRich o then
    match unpackNat 2 (pySliceI data pos (pos + 2)) with
    | .error e => .error e
    | .ok n => .ok (n, pos + 2)
  else .ok (0, pos)

/-- The two numbers after an options byte: of formatting runs, and of bytes of phonetic data;
with the position after them.  biffh.py:316-321, xlrd/book.py:1433-1440 -/
def optSizes (o : UInt8) (data : Bytes) (pos : Int) : Except Exc (Nat × Int × Int) :=
  match optRuns o data pos with
  | .error e => .error e
  | .ok (rt, pos) =>
    if optPhonetic o then
      match unpackInt (pySliceI data pos (pos + 4)) with
      | .error e => .error e
      | .ok sz => .ok (rt, sz, pos + 4)
    else .ok (rt, 0, pos)

/-- biffh.py:301-334 `unpack_unicode_update_pos` -/
def unpackUnicodeUpd (data : Bytes) (pos lenlen : Nat) (known : Option Nat) : Except Exc (List Char × Int) :=
  match strLen data pos lenlen known with
  | .error e => .error e
  | .ok (n, pos) =>
    if n = 0 ∧ data.drop pos = [] then .ok ([], pos)
    else match data[pos]? with
      | none => .error .indexError
      | some o =>
        match optSizes o data (pos + 1) with
        | .error e => .error e
        | .ok (rt, sz, p) =>
          match decodeChars (optWide o) (pySliceI data p (p + charBytes (optWide o) n)) with
          | .error e => .error e
          | .ok s => .ok (s, p + charBytes (optWide o) n + 4 * rt + sz)

/-! ### The shared string table -/

/-- A place in the records of the table: the record, the position in it, the records after it. -/
structure SstPos where
  data : Bytes
  pos : Int
  rest : List Bytes
  deriving DecidableEq

/-- xlrd/book.py:1442-1474: the loop that gets the characters of one string; `need` are those
missing. -/
def sstChars (wide : Bool) (data : Bytes) (pos : Int) : (rest : List Bytes) → (need : Nat) → Except Exc (List Char × SstPos)
  | rest, need =>
    let avail := if wide then min (((data.length : Int) - pos) / 2).toNat need else min ((data.length : Int) - pos).toNat need
    match decodeChars wide (pySliceI data pos (pos + charBytes wide avail)) with
    | .error e => .error e
    | .ok s =>
      if avail = need then .ok (s, ⟨data, pos + charBytes wide avail, rest⟩)
      else match rest with
        | [] => .error .indexError
        | [] :: _ => .error .indexError
        | (o :: d) :: rest =>
          match sstChars (optWide o) (o :: d) 1 rest (need - avail) with
          | .error e => .error e
          | .ok (s', p) => .ok (s ++ s', p)

/-- xlrd/book.py:1479-1483: on to the next record, at the end of one. -/
def SstPos.turn (p : SstPos) : Except Exc SstPos :=
  if p.pos = p.data.length then
    match p.rest with
    | [] => .error .indexError
    | d :: rest => .ok ⟨d, 0, rest⟩
  else .ok p

/-- xlrd/book.py:1476-1486: formatting runs; a record may end between two. -/
def sstRuns : Nat → SstPos → Except Exc SstPos
  | 0, p => .ok p
  | n + 1, p =>
    match p.turn with
    | .error e => .error e
    | .ok p =>
      if (pySliceI p.data p.pos (p.pos + 4)).length = 4 then sstRuns n { p with pos := p.pos + 4 }
      else .error .structError

/-- xlrd/book.py:1488-1497: over the phonetic data; `last` says that it is the last string. -/
def sstSkip (phosz : Int) (last : Bool) (p : SstPos) : Except Exc SstPos :=
  if p.pos + phosz ≥ p.data.length then
    match p.rest with
    | d :: rest => .ok ⟨d, p.pos + phosz - p.data.length, rest⟩
    | [] => if last then .ok { p with pos := p.pos + phosz - p.data.length } else .error .assertionError
  else .ok { p with pos := p.pos + phosz }

/-- xlrd/book.py:1429-1497: one round of the loop over the strings. -/
def sstString (last : Bool) (p : SstPos) : Except Exc (List Char × SstPos) :=
  match unpackNat 2 (pySliceI p.data p.pos (p.pos + 2)) with
  | .error e => .error e
  | .ok nchars =>
    match pyIndex p.data (p.pos + 2) with
    | .error e => .error e
    | .ok o =>
      match optSizes o p.data (p.pos + 3) with
      | .error e => .error e
      | .ok (rt, sz, pos) =>
        match sstChars (optWide o) p.data pos p.rest nchars with
        | .error e => .error e
        | .ok (s, p) =>
          match sstRuns rt p with
          | .error e => .error e
          | .ok p =>
            match sstSkip sz last p with
            | .error e => .error e
            | .ok p => .ok (s, p)

/-- xlrd/book.py:1428-1498: the loop; `n` strings are left. -/
def sstLoop : Nat → SstPos → Except Exc (List (List Char))
  | 0, _ => .ok []
  | n + 1, p =>
    match sstString (n = 0) p with
    | .error e => .error e
    | .ok (s, p) =>
      match sstLoop n p with
      | .error e => .error e
      | .ok ss => .ok (s :: ss)

/-- xlrd/book.py:1414-1499 `unpack_SST_table`: the strings (not the formatting runs). -/
def unpackSST (data : Bytes) (rest : List Bytes) (nstrings : Int) : Except Exc (List (List Char)) :=
  sstLoop nstrings.toNat ⟨data, 8, rest⟩

/-- xlrd/book.py:1185-1205 `handle_sst`, from the SST record and the CONTINUE records after it. -/
def readSST (data : Bytes) (rest : List Bytes) : Except Exc (List (List Char)) :=
  match unpackInt (pySlice data 4 8) with
  | .error e => .error e
  | .ok n => unpackSST data rest n

end CP
