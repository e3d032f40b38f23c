import Verif.Model.Preparse
import Verif.Model.Text
/-!
# Model of channelpack/readtext.py: lazy_textpack
-/

namespace CP

/-- A codec: `b.decode(encoding)` and `s.encode(encoding)`. -/
structure Codec where
  decode : List Char → Except Exc (List Char)
  encode : List Char → Except Exc (List Char)

/-- The keyword arguments given by the caller; none: not given.  A value of None or an empty
dict for `names` and `converters` is []; a `usecols` that is an int is made a sequence
(readtext.py:280).  `encoding`: is one given (not None). -/
structure LazyKw where
  names : Option (List (Int × Val)) := none
  delimiter : Option (Option (List Char)) := none
  skiprows : Option Int := none
  usecols : Option (Option (List Int)) := none
  hasnames : Option Bool := none
  converters : Option (List (Int × (List Char → Except Exc Val))) := none
  stripstrings : Option Bool := none
  debug : Option Bool := none
  encoding : Bool := false

/-- `not textkwargs` -/
def LazyKw.isEmpty (kw : LazyKw) : Bool :=
  kw.names.isNone && kw.delimiter.isNone && kw.skiprows.isNone && kw.usecols.isNone && kw.hasnames.isNone &&
  kw.converters.isNone && kw.stripstrings.isNone && kw.debug.isNone && !kw.encoding

/-- `bytehint` in the call of `textpack` (readtext.py:405-406): with bytes, the encoding is
known to it only if the caller gave it.  `codec` is none for a stream of text. -/
def lazyHint (codec : Option Codec) (kw : LazyKw) : Hint :=
  match codec with
  | none => .text
  | some c => if kw.encoding then .codec c.decode else .bytes

/-- `[fo.readline() for i in range(n)]` -/
def TFile.readLines : Nat → TFile → List (List Char)
  | 0, _ => []
  | n + 1, f => f.readline.1 :: TFile.readLines n f.readline.2

/-- readtext.py:264-274: the lines that are preparsed. -/
def lazyLines (codec : Option Codec) (n : Nat) (f : TFile) : Except Exc (List (List Char)) :=
  match codec with
  | none => .ok (f.readLines n)
  | some c => mapE c.decode (f.readLines n)

/-- readtext.py:267-268: with bytes the delimiter is encoded. -/
def encodeDelimiter (codec : Option Codec) (delimiter : Option (List Char)) : Except Exc (Option (List Char)) :=
  match codec, delimiter with
  | some c, some s => match c.encode s with
    | .error e => .error e
    | .ok s => .ok (some s)
  | _, s => .ok s

/-- readtext.py:264-272: what is derived as arguments of `textpack`.  The converters are
`_floatit`, with bytes `_floatit_bytes`. -/
def derivedArgs (fl : FloatS) (codec : Option Codec) (h : Hint) (d : Derived) : Except Exc TextArgs :=
  match encodeDelimiter codec d.delimiter with
  | .error e => .error e
  | .ok delimiter => .ok
      { names := d.names.map fun p => (p.1, .str p.2),
        delimiter := delimiter,
        skiprows := d.skiprows,
        usecols := some (d.usecols.map Int.ofNat),
        converters := (d.converters.getD []).map fun c => (Int.ofNat c, Func.floatit.apply fl h) }

/-- readtext.py:276: `derived.update(textkwargs)`; none is the empty dict. -/
def updateArgs (base : TextArgs) (kw : LazyKw) : TextArgs :=
  { names := kw.names.getD base.names,
    delimiter := kw.delimiter.getD base.delimiter,
    skiprows := kw.skiprows.getD base.skiprows,
    usecols := kw.usecols.getD base.usecols,
    hasnames := kw.hasnames.getD base.hasnames,
    converters := kw.converters.getD base.converters,
    stripstrings := kw.stripstrings.getD base.stripstrings,
    debug := kw.debug.getD base.debug }

/-- readtext.py:278-283: names of the columns wanted; `in` None raises. -/
def limitNames (a : TextArgs) (kw : LazyKw) : Except Exc TextArgs :=
  match kw.usecols, kw.names with
  | some none, none => if a.names = [] then .ok a else .error .typeError
  | some (some cols), none => .ok { a with names := a.names.filter fun p => p.1 ∈ cols }
  | _, _ => .ok a

/-- readtext.py:276-286: the arguments (ValueError if there are none) for `textpack`. -/
def lazyArgs (derived : Option TextArgs) (kw : LazyKw) : Except Exc TextArgs :=
  match limitNames (updateArgs (derived.getD {}) kw) kw with
  | .error e => .error e
  | .ok a => if derived.isNone ∧ kw.isEmpty then .error .valueError else .ok a

/-- readtext.py:235-289 `lazy_textpack` of an open stream.  `seek(0)` (line 275) goes to the
start of the stream, wherever it was. -/
def lazyTextpack (fl : FloatS) (dig : Char → Bool) (ff : List Char → Bool) (codec : Option Codec) (f : TFile)
    (parselines : Nat) (kw : LazyKw) : Except Exc (List (Int × List Val) × List (Int × Val)) :=
  match lazyLines codec parselines f with
  | .error e => .error e
  | .ok lines =>
    match preparse dig ff lines with
    | .error e => .error e
    | .ok none =>
      match lazyArgs none kw with
      | .error e => .error e
      | .ok a => textpack fl (lazyHint codec kw) { f with pos := 0 } a
    | .ok (some d) =>
      match derivedArgs fl codec (lazyHint codec kw) d with
      | .error e => .error e
      | .ok base =>
        match lazyArgs (some base) kw with
        | .error e => .error e
        | .ok a => textpack fl (lazyHint codec kw) { f with pos := 0 } a

end CP
