import Verif.Model.PyText
import Verif.Model.PyIter
import Verif.Model.ReadXl
/-!
# Model of channelpack/readtext.py: linetuples, textpack

A stream is its content and a position; an element of the content is a character (of a
text stream) or a byte (of a bytes stream, as a character 0..255).  A generator is modelled
by what it yields, and the exception that ends it, if any.
-/

namespace CP

/-- A stream opened for reading. -/
structure TFile where
  chars : List Char
  pos : Nat

/-- `fo.readline()`; nothing at the end. -/
def TFile.readline (f : TFile) : List Char × TFile :=
  let line := (fileLines (f.chars.drop f.pos)).headD []
  (line, { f with pos := f.pos + line.length })

/-- `for i in range(n): fo.readline()` -/
def TFile.skip : Nat → TFile → TFile
  | 0, f => f
  | n + 1, f => TFile.skip n f.readline.2

/-- The `bytehint` argument of `linetuples`: False, True, or a codec (given by its
decoding function). -/
inductive Hint where
  | text
  | bytes
  | codec (decode : List Char → Except Exc (List Char))

/-- What `strip()` and `split()` take for whitespace: in bytes only the ASCII ones. -/
def Hint.ws : Hint → Char → Bool
  | .text, c => pySpace c
  | _, c => c ∈ asciiWhite

/-- A field as it is: str in a text stream, bytes in a bytes stream. -/
def Hint.raw : Hint → List Char → Val
  | .text, s => .str s
  | _, s => .bytes (s.map fun c => UInt8.ofNat c.toNat)

/-- `float(s)` of str or bytes; none is ValueError. -/
abbrev FloatS := List Char → Option Val

/-- `s.replace(',', '.')` -/
def commaDot (s : List Char) : List Char := s.map fun c => if c = ',' then '.' else c

/-- A function that converts a field: the ones defined at readtext.py:29-36 and 446-459
(`_floatit` and `_floatit_bytes` are one), or one given by the caller. -/
inductive Func where
  | asIs
  | asIsStripped
  | asIsDecode
  | asIsStrippedDecode
  | maybenan
  | floatit
  | given (f : List Char → Except Exc Val)

/-- `float(s)` that raises -/
def floatE (fl : FloatS) (s : List Char) : Except Exc Val :=
  match fl s with
  | some v => .ok v
  | none => .error .valueError

/-- `b.decode(encoding)` as a value.  `encoding` is `bytehint` (readtext.py:444); without a
codec it is not a str. -/
def Hint.decode (h : Hint) (s : List Char) : Except Exc Val :=
  match h with
  | .codec dec => match dec s with
    | .ok t => .ok (.str t)
    | .error e => .error e
  | _ => .error .typeError

/-- `func(val)` -/
def Func.apply (fl : FloatS) (h : Hint) : Func → List Char → Except Exc Val
  | .asIs, s => .ok (h.raw s)
  | .asIsStripped, s => .ok (h.raw (stripBy h.ws s))
  | .asIsDecode, s => h.decode s
  | .asIsStrippedDecode, s => h.decode (stripBy h.ws s)
  | .maybenan, s => if s ≠ [] then floatE fl s else .ok .nan
  | .floatit, s => if s ≠ [] then floatE fl (commaDot s) else .ok .nan
  | .given f, s => f s

/-- readtext.py:492-502: the function for a field that is no number. -/
def textFunc (h : Hint) (stripstrings : Bool) : Func :=
  match h with
  | .codec _ => if stripstrings then .asIsStrippedDecode else .asIsDecode
  | _ => if stripstrings then .asIsStripped else .asIs

/-- readtext.py:478-502: the function for a field of the first data line. -/
def funcOf (fl : FloatS) (h : Hint) (stripstrings : Bool) (val : List Char) : Func :=
  match fl val with
  | some _ => .maybenan
  | none => match fl (commaDot val) with
    | some _ => .floatit
    | none => textFunc h stripstrings

def Func.isFloatit : Func → Bool
  | .floatit => true
  | _ => false

def Func.isMaybenan : Func → Bool
  | .maybenan => true
  | _ => false

/-- readtext.py:507-509 -/
def unifyFuncs (funcs : List Func) : List Func :=
  if funcs.any Func.isFloatit then funcs.map fun f => if f.isMaybenan then .floatit else f
  else funcs

/-- `funcs[key] = f` -/
def setFunc (funcs : List Func) (key : Int) (f : Func) : Except Exc (List Func) :=
  let j := if key < 0 then key + funcs.length else key
  if j < 0 ∨ j ≥ funcs.length then .error .indexError
  else .ok (funcs.set j.toNat f)

/-- readtext.py:512-514 -/
def setConverters : List Func → List (Int × (List Char → Except Exc Val)) → Except Exc (List Func)
  | funcs, [] => .ok funcs
  | funcs, (k, f) :: rest =>
    match setFunc funcs k (.given f) with
    | .error e => .error e
    | .ok funcs => setConverters funcs rest

/-- readtext.py:461-467 `stripchars` -/
def stripchars (delimiter : Option (List Char)) : List Char :=
  match delimiter with
  | none => replaceStr ['\t'] [] asciiWhite
  | some [] => replaceStr ['\t'] [] asciiWhite
  | some d => replaceStr d [] asciiWhite

/-- `col in usecols`, all columns without `usecols` (readtext.py:516-518). -/
def keepCol (usecols : Option (List Int)) (col : Nat) : Bool :=
  match usecols with
  | none => true
  | some cols => (col : Int) ∈ cols

/-- The elements of a row that are in the columns to keep. -/
def pick {α : Type} (usecols : Option (List Int)) (l : List α) : List α :=
  (l.zipIdx.filter fun p => keepCol usecols p.2).map Prod.fst

/-- readtext.py:526-527 and 533-535: the tuple of a line.  `zip` stops at the end of
the fields or of the functions (`allcols` is as long as these). -/
def rowTuple (fl : FloatS) (h : Hint) (usecols : Option (List Int)) (funcs : List Func)
    (vals : List (List Char)) : Except Exc (List Val) :=
  mapE (fun p : Func × List Char => p.1.apply fl h p.2) (pick usecols (funcs.zip vals))

/-- readtext.py:529-535: what is yielded for the lines after the first one, and the
exception that ends it. -/
def dataRows (fl : FloatS) (h : Hint) (delimiter : Option (List Char))
    (usecols : Option (List Int)) (funcs : List Func) :
    List (List Char) → List (List Val) × Option Exc
  | [] => ([], none)
  | line :: rest =>
    let stripped := stripBy (· ∈ stripchars delimiter) line
    if stripped = [] then dataRows fl h delimiter usecols funcs rest
    else match pySplit h.ws delimiter stripped with
      | .error e => ([], some e)
      | .ok vals =>
        match rowTuple fl h usecols funcs vals with
        | .error e => ([], some e)
        | .ok row =>
          let r := dataRows fl h delimiter usecols funcs rest
          (row :: r.1, r.2)

/-- What `linetuples` yields: the names (second yield, with `hasnames`), the rows, and the
exception that ends them, if any.  (The first yield, the functions, is for messages.) -/
structure Lines where
  names : List Val
  rows : List (List Val)
  exc : Option Exc

/-- readtext.py:469-473 and 522-524: the function for the names. -/
def namesFunc (h : Hint) : Func :=
  match h with
  | .codec _ => .asIsStrippedDecode
  | _ => .asIsStripped

/-- readtext.py:469-471: the fields of the line of names. -/
def headerFields (h : Hint) (delimiter : Option (List Char)) (line : List Char) :
    Except Exc (List (List Char)) :=
  match pySplit h.ws delimiter (stripBy (· ∈ stripchars delimiter) line) with
  | .error e => .error e
  | .ok fs => .ok (fs.map (stripBy h.ws))

/-- readtext.py:475-535: `linetuples` from the first data line on; `fieldnames` are the
names of the line above, without `hasnames` there are none. -/
def tuplesFrom (fl : FloatS) (h : Hint) (delimiter : Option (List Char))
    (usecols : Option (List Int)) (converters : List (Int × (List Char → Except Exc Val)))
    (stripstrings : Bool) (fieldnames : List (List Char)) (f : TFile) : Except Exc Lines :=
  let (line, f) := f.readline
  match pySplit h.ws delimiter (stripBy (· ∈ stripchars delimiter) line) with
  | .error e => .error e
  | .ok firstvals =>
    match setConverters (unifyFuncs (firstvals.map (funcOf fl h stripstrings))) converters with
    | .error e => .error e
    | .ok funcs =>
      match mapE ((namesFunc h).apply fl h) (pick usecols (fieldnames.take firstvals.length)) with
      | .error e => .error e
      | .ok names =>
        match rowTuple fl h usecols funcs firstvals with
        | .error e => .ok { names := names, rows := [], exc := some e }
        | .ok row =>
          let r := dataRows fl h delimiter usecols funcs (fileLines (f.chars.drop f.pos))
          .ok { names := names, rows := row :: r.1, exc := r.2 }

/-- readtext.py:416-535 `linetuples`. -/
def linetuples (fl : FloatS) (h : Hint) (delimiter : Option (List Char))
    (usecols : Option (List Int)) (converters : List (Int × (List Char → Except Exc Val)))
    (stripstrings hasnames : Bool) (f : TFile) : Except Exc Lines :=
  if hasnames then
    let (line, f) := f.readline
    match headerFields h delimiter line with
    | .error e => .error e
    | .ok fieldnames => tuplesFrom fl h delimiter usecols converters stripstrings fieldnames f
  else tuplesFrom fl h delimiter usecols converters stripstrings [] f

/-- readtext.py:388-392: a row appended to the columns; `columndata[column].append(value)` -/
def addRow (cols : List Int) (row : List Val) (d : List (Int × List Val)) : List (Int × List Val) :=
  (cols.zip row).foldl (fun d p => dset d p.1 ((dget d p.1).getD [] ++ [p.2])) d

/-- The column numbers to zip a row or the columns with (`enumerate` without `usecols`). -/
def colKeys (usecols : Option (List Int)) (n : Nat) : List Int :=
  match usecols with
  | none => (List.range n).map Int.ofNat
  | some cols => cols

/-- readtext.py:372-378: the data without `debug`. -/
def plainData (usecols : Option (List Int)) (l : Lines) : Except Exc (List (Int × List Val)) :=
  match l.exc with
  | some e => .error e
  | none =>
    let columns := zipStar l.rows
    .ok (dictOf ((colKeys usecols columns.length).zip columns))

/-- readtext.py:383-401: the data with `debug`.  An exception for the first line of data
finds no `linum` (line 397). -/
def debugData (usecols : Option (List Int)) (l : Lines) : Except Exc (List (Int × List Val)) :=
  match l.exc with
  | some e => if l.rows = [] then .error .keyError else .error e
  | none => .ok (l.rows.foldl (fun d row => addRow (colKeys usecols row.length) row d) [])

/-- The arguments of `textpack` (readtext.py:292-294), `usecols` with an int made a
sequence (lines 345-346).  No names, converters or delimiter: None; an empty dict is false
as well. -/
structure TextArgs where
  names : List (Int × Val) := []
  delimiter : Option (List Char) := none
  skiprows : Int := 0
  usecols : Option (List Int) := none
  hasnames : Bool := false
  converters : List (Int × (List Char → Except Exc Val)) := []
  stripstrings : Bool := false
  debug : Bool := false

/-- readtext.py:348-353 -/
def TextArgs.normal (a : TextArgs) : TextArgs :=
  if a.names ≠ [] then { a with usecols := some (sortInts (dkeys a.names)), hasnames := false }
  else if a.hasnames then { a with skiprows := a.skiprows - 1 }
  else a

/-- readtext.py:292-413 `textpack` of an open stream: the data and the names given to
`ChannelPack`.  `h` is `bytehint` (lines 355, 405-406). -/
def textpack (fl : FloatS) (h : Hint) (f : TFile) (args : TextArgs) :
    Except Exc (List (Int × List Val) × List (Int × Val)) :=
  let a := args.normal
  let f := f.skip a.skiprows.toNat
  match linetuples fl h a.delimiter a.usecols a.converters a.stripstrings a.hasnames f with
  | .error e => .error e
  | .ok l =>
    match (if a.debug then debugData a.usecols l else plainData a.usecols l) with
    | .error e => .error e
    | .ok data =>
      .ok (data, if a.hasnames then dictOf ((colKeys a.usecols l.names.length).zip l.names)
        else a.names)

end CP
