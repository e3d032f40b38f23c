import Verif.Model.XlsSheet
/-!
# Model of the hyperlinks, objects and notes of a sheet, channelpack/xlrd/sheet.py

What the handlers store is nothing that channelpack gets at: texts, ranges, formatting runs, the
maps of hyperlinks and notes.  Kept is what decides whether a later record is read: the ranges of
the last hyperlink, for a QUICKTIP record, and whether there was an OBJ record (`saved_obj_id` is
bound), for a TXO record.  With `OBJ_MSO_DEBUG` 0.
-/

namespace CP

/-- The ranges of `hyperlink_list[-1]`, and whether `saved_obj_id` is bound. -/
structure ObjSt where
  link : Option (Nat × Nat × Nat × Nat)
  obj : Bool
  deriving DecidableEq

/-- Bit `k` of a number. -/
def bitOf (n k : Nat) : Bool := n / 2 ^ k % 2 = 1

/-- xlrd/sheet.py:1757-1762 `get_nul_terminated_unicode`: the position after the string. -/
def linkString (data : Bytes) (ofs : Int) : Except Exc Int :=
  match unpackNat 4 (pySliceI data ofs (ofs + 4)) with
  | .error e => .error e
  | .ok n => (utf16le (pySliceI data (ofs + 4) (ofs + 4 + (n * 2 : Nat)))).map fun _ => ofs + 4 + (n * 2 : Nat)

/-- `s.find('\x00')` -/
def findNul (s : List Char) : Int :=
  match s.findIdx? (· = Char.ofNat 0) with
  | some i => i
  | none => -1

/-- The class identifiers of hyperlinks, of URL monikers and of file monikers. -/
def linkGuid : Bytes := [0xD0, 0xC9, 0xEA, 0x79, 0xF9, 0xBA, 0xCE, 0x11, 0x8C, 0x82, 0x00, 0xAA, 0x00, 0x4B, 0xA9, 0x0B]
def urlClsid : Bytes := [0xE0, 0xC9, 0xEA, 0x79, 0xF9, 0xBA, 0xCE, 0x11, 0x8C, 0x82, 0x00, 0xAA, 0x00, 0x4B, 0xA9, 0x0B]
def fileClsid : Bytes := [0x03, 0x03, 0x00, 0x00, 0x00, 0x00, 0x00, 0x00, 0xC0, 0x00, 0x00, 0x00, 0x00, 0x00, 0x00, 0x46]

/-- xlrd/sheet.py:1775-1797: a URL moniker, from the count of bytes. -/
def urlMoniker (data : Bytes) (ofs : Int) : Except Exc Int :=
  match unpackNat 4 (pySliceI data ofs (ofs + 4)) with
  | .error e => .error e
  | .ok nbytes =>
    match utf16le (pySliceI data (ofs + 4) (ofs + 4 + nbytes)) with
    | .error e => .error e
    | .ok s =>
      let true_nbytes : Int := 2 * (findNul s + 1)
      let extra : Int := nbytes - true_nbytes
      if extra = 24 ∨ extra = 0 then .ok (ofs + 4 + true_nbytes + extra) else .error .assertionError

/-- xlrd/sheet.py:1798-1821: a file moniker, from the count of levels. -/
def fileMoniker (data : Bytes) (ofs : Int) : Except Exc Int :=
  let head := pySliceI data ofs (ofs + 6)
  if head.length = 6 then
    let ofs := ofs + 6 + leInt (head.drop 2) + 24
    match unpackInt (pySliceI data ofs (ofs + 4)) with
    | .error e => .error e
    | .ok sz =>
      if sz = 0 then .ok (ofs + 4)
      else match unpackInt (pySliceI data (ofs + 4) (ofs + 8)) with
        | .error e => .error e
        | .ok xl => (utf16le (pySliceI data (ofs + 10) (ofs + 10 + xl))).map fun _ => ofs + 10 + xl
  else .error .structError

/-- xlrd/sheet.py:1770-1830: the target of a hyperlink with the options `o`; an unknown moniker is
reported only. -/
def linkTarget (data : Bytes) (o : Nat) (ofs : Int) : Except Exc Int :=
  if bitOf o 0 ∧ ¬ bitOf o 8 then
    let clsid := pySliceI data ofs (ofs + 16)
    if clsid.length = 16 then
      if clsid = urlClsid then urlMoniker data (ofs + 16)
      else if clsid = fileClsid then fileMoniker data (ofs + 16)
      else .ok (ofs + 16)
    else .error .structError
  else if bitOf o 0 ∧ bitOf o 1 ∧ ¬ bitOf o 5 ∧ ¬ bitOf o 6 ∧ bitOf o 8 then linkString data ofs
  else .ok ofs

/-- A string that is there if a flag is set. -/
def linkStringIf (there : Bool) (data : Bytes) (ofs : Int) : Except Exc Int := if there then linkString data ofs else .ok ofs

/-- xlrd/sheet.py:1746-1856 `handle_hlink`: the ranges of the hyperlink.  (The flags of a signed
integer are the bits of the unsigned one.) -/
def handleHlink (data : Bytes) : Except Exc (Nat × Nat × Nat × Nat) :=
  if (data.take 32).length = 32 then
    if pySlice data 8 24 = linkGuid then
      if pySlice data 24 28 = [2, 0, 0, 0] then
        let o := leNat (pySlice data 28 32)
        match linkStringIf (bitOf o 2 || bitOf o 4) data 32 with
        | .error e => .error e
        | .ok ofs =>
          match linkStringIf (bitOf o 7) data ofs with
          | .error e => .error e
          | .ok ofs =>
            match linkTarget data o ofs with
            | .error e => .error e
            | .ok ofs =>
              match linkStringIf (bitOf o 3) data ofs with
              | .error e => .error e
              | .ok ofs =>
                if (data.length : Int) - ofs < 0 then .error .xlrdError
                else .ok (field2 data 0, field2 data 2, field2 data 4, field2 data 6)
      else .error .assertionError
    else .error .assertionError
  else .error .structError

/-- xlrd/sheet.py:1858-1865 `handle_quicktip` -/
def handleQuicktip (link : Option (Nat × Nat × Nat × Nat)) (data : Bytes) : Except Exc Unit :=
  if (data.take 10).length = 10 then
    if field2 data 0 = 0x800 then
      match link with
      | none => .error .assertionError
      | some h =>
        if (field2 data 2, field2 data 4, field2 data 6, field2 data 8) = h then
          if pySliceI data (-2) data.length = [0, 0] then (utf16le (pySliceI data 10 (-2))).map fun _ => ()
          else .error .assertionError
        else .error .assertionError
    else .error .assertionError
  else .error .structError

/-- xlrd/sheet.py:1915-1955: the loop over the parts of an OBJ record, given `o.autofilter` (which
the first part sets); `n` bounds the rounds, the position grows in each. -/
def objLoop (data : Bytes) : Nat → Nat → Bool → Except Exc Unit
  | 0, _, _ => .ok ()
  | n + 1, pos, auto =>
    if pos < data.length then
      if (pySlice data pos (pos + 4)).length = 4 then
        let ft := field2 data pos
        let cb := field2 data (pos + 2)
        if pos = 0 ∧ ¬ (ft = 0x15 ∧ cb = 18) then .ok ()
        else if ft = 0x15 then
          if pos = 0 then
            if (pySlice data (pos + 4) (pos + 10)).length = 6 then objLoop data n (pos + (cb + 4)) (bitOf (field2 data (pos + 8)) 8)
            else .error .structError
          else .error .assertionError
        else if ft = 0 then
          if data.drop pos = List.replicate (data.length - pos) 0 then .ok () else .error .xlrdError
        else if ft = 0x0C then
          if (pySlice data (pos + 8) (pos + 18)).length = 10 then objLoop data n (pos + (cb + 4)) auto
          else .error .structError
        else if ft = 0x13 ∧ auto then .ok ()
        else objLoop data n (pos + (cb + 4)) auto
      else .error .structError
    else .ok ()

/-- xlrd/sheet.py:1907-1961 `handle_obj` -/
def handleObj (bv : Nat) (data : Bytes) : Except Exc Unit := if bv < 80 then .ok () else objLoop data data.length 0 false

/-- xlrd/sheet.py:1975-1983: the NOTE records that go on with a text before BIFF 8, `expected` the
bytes missing: what they have of it. -/
def noteRest (expected : Int) : List Rec → Except Exc (List Bytes)
  | [] => if 0 < expected then .error .structError else if expected = 0 then .ok [] else .error .assertionError
  | r :: rest =>
    if 0 < expected then
      if r.code = 0x1C then
        if (r.data.take 6).length = 6 then
          if field2 r.data 0 = 0xFFFF then
            if (field2 r.data 4 : Int) = (r.len : Int) - 6 then
              (noteRest (expected - field2 r.data 4) rest).map (r.data.drop 6 :: ·)
            else .error .assertionError
          else .error .assertionError
        else .error .structError
      else .error .assertionError
    else if expected = 0 then .ok [] else .error .assertionError

/-- xlrd/sheet.py:1963-2012 `handle_note`: how many records after it it takes.  `text` decodes with
the encoding of the book. -/
def handleNote (bv : Nat) (text : Bytes → Except Exc (List Char)) (data : Bytes) (after : List Rec) : Except Exc Nat :=
  if bv < 80 then
    if (data.take 6).length = 6 then
      if data.length - 6 ≤ field2 data 4 then
        match noteRest ((field2 data 4 : Int) - (data.length - 6 : Nat)) after with
        | .error e => .error e
        | .ok pieces => (text (data.drop 6 ++ pieces.flatten)).map fun _ => pieces.length
      else .error .assertionError
    else .error .structError
  else if (data.take 8).length = 8 then
    match unpackUnicodeUpd data 8 2 none with
    | .error e => .error e
    | .ok (_, endpos) =>
      if (data.length : Int) - endpos = 0 ∨ (data.length : Int) - endpos = 1 then .ok 0 else .error .assertionError
  else .error .structError

/-- xlrd/sheet.py:2031-2044: the CONTINUE records with the text of a TXO record, `need` the
characters missing; how many there are. -/
def txoText : Nat → List Rec → Except Exc Nat
  | need, [] => if need = 0 then .ok 0 else .error .structError
  | need, r :: rest =>
    if need = 0 then .ok 0
    else if r.code = xlContinue then
      match r.data with
      | [] => .error .indexError
      | nb :: _ =>
        if nb ≠ 0 ∧ (r.len - 1) % 2 ≠ 0 then .error .assertionError
        else
          let nchars := if nb ≠ 0 then (r.len - 1) / 2 else r.len - 1
          match unpackUnicodeUpd r.data 0 2 (some nchars) with
          | .error e => .error e
          | .ok (_, endpos) =>
            if endpos = (r.len : Int) then (txoText (need - nchars) rest).map (· + 1) else .error .assertionError
    else .error .assertionError

/-- xlrd/sheet.py:2045-2056: the CONTINUE records with the formatting runs, `need` the bytes
missing; how many there are. -/
def txoRuns : Nat → List Rec → Except Exc Nat
  | need, [] => if need = 0 then .ok 0 else .error .structError
  | need, r :: rest =>
    if need = 0 then .ok 0
    else if r.code = xlContinue then
      if r.len % 8 = 0 then
        if r.data.length = r.len then (txoRuns (need - r.len) rest).map (· + 1) else .error .structError
      else .error .assertionError
    else .error .assertionError

/-- xlrd/sheet.py:2014-2062 `handle_txo`: how many records after it it takes. -/
def handleTxo (data : Bytes) (after : List Rec) : Except Exc Nat :=
  if (data.take 16).length = 16 then
    match txoText (field2 data 10) after with
    | .error e => .error e
    | .ok k =>
      match txoRuns (field2 data 12) (after.drop k) with
      | .error e => .error e
      | .ok m => .ok (k + m)
  else .error .structError

/-- xlrd/sheet.py:1105-1108, 1114-1127: the records of hyperlinks, objects and notes.  After a TXO record
`saved_obj_id` is looked up, if there is an object for the text, that is, from BIFF 8 on. -/
def handleObject (bv : Nat) (text : Bytes → Except Exc (List Char)) (s : ObjSt) (r : Rec) (after : List Rec) :
    Except Exc (ObjSt × Nat) :=
  if r.code = 0x1B8 then (handleHlink r.data).map fun h => ({ s with link := some h }, 0)
  else if r.code = 0x800 then (handleQuicktip s.link r.data).map fun _ => (s, 0)
  else if r.code = 0x5D then (handleObj bv r.data).map fun _ => ({ s with obj := true }, 0)
  else if r.code = 0x1B6 then
    if bv < 80 then .ok (s, 0)
    else match handleTxo r.data after with
      | .error e => .error e
      | .ok k => if s.obj then .ok (s, k) else .error .nameError
  else (handleNote bv text r.data after).map fun k => (s, k)

end CP
