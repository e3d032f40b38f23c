import Verif.Model.XlsBook
/-!
# Model of xls books opened with `encoding_override`, xlrd/book.py

`o` is the encoding given, not an empty string; BIFF 5 and later.
-/

namespace CP
variable {σ τ : Type}

/-- xlrd/book.py:817-860 `derive_encoding` with `encoding_override` -/
def deriveOver (E : BookEnv σ τ) (o : List Char) (G : Globals τ) : Except Exc (Globals τ) :=
  match tryCodec E G.codepage (some o) with
  | .error e => .error e
  | .ok () =>
    match G.rawUser with
    | none => .ok { G with encoding := some o }
    | some u =>
      match unpackString (E.decode (some o)) u 0 1 with
      | .error e => .error e
      | .ok _ => .ok { G with encoding := some o, rawUser := none }

/-- formatting.py:525-573 `handle_format` for BIFF 5 and later -/
def formatOver (E : BookEnv σ τ) (o : List Char) (bv : Nat) (G : Globals τ) (data : Bytes) : Except Exc (Globals τ) :=
  match (if G.encoding = none then deriveOver E o G else .ok G) with
  | .error e => .error e
  | .ok G =>
    match unpackNat 2 (data.take 2) with
    | .error e => .error e
    | .ok key =>
      match (if 80 ≤ bv then unpackUnicode data 2 2 else unpackString (E.decode G.encoding) data 2 1) with
      | .error e => .error e
      | .ok s => .ok { G with formats := dset G.formats key (isDateFormat s) }

/-- xlrd/book.py:758-808 `handle_boundsheet` for BIFF 5 and later -/
def boundsheetOver (E : BookEnv σ τ) (o : List Char) (bv : Nat) (base : Int) (G : Globals τ) (data : Bytes) : Except Exc (Globals τ) :=
  match deriveOver E o G with
  | .error e => .error e
  | .ok G =>
    match data.take 6 with
    | [a, b, c, d, _, typ] =>
      match (if bv < 80 then unpackString (E.decode G.encoding) data 6 1 else unpackUnicode data 6 1) with
      | .error e => .error e
      | .ok name =>
        let all := G.allSheets ++ [(name, typ.toNat)]
        if typ ≠ 0 then .ok { G with allSheets := all }
        else .ok { G with allSheets := all, sheets := G.sheets ++ [(name, leInt [a, b, c, d] + base)] }
    | _ => .error .structError

/-- xlrd/book.py:862-866 `handle_codepage` -/
def codepageOver (E : BookEnv σ τ) (o : List Char) (G : Globals τ) (data : Bytes) : Except Exc (Globals τ) :=
  match unpackNat 2 (data.take 2) with
  | .error e => .error e
  | .ok n => deriveOver E o { G with codepage := some n }

/-- xlrd/book.py:1234-1273: one record of the globals (not EOF); records that have nothing to do with the encoding as
in `globalsStep`. -/
def stepOver (E : BookEnv σ τ) (o : List Char) (bv : Nat) (base : Int) (G : Globals τ) (r : Rec) (after : List Rec) :
    Except Exc (Globals τ × Nat) :=
  let one (x : Except Exc (Globals τ)) : Except Exc (Globals τ × Nat) := x.map fun G => (G, 0)
  if r.code = xlFormat then one (formatOver E o bv G r.data)
  else if r.code = xlBoundsheet then one (boundsheetOver E o bv base G r.data)
  else if r.code = xlCodepage then one (codepageOver E o G r.data)
  else if r.code ∈ xlNamesEnc then
    match deriveOver E o G with
    | .error e => .error e
    | .ok G => (E.names bv (E.decode G.encoding) G.names r after).map fun p => ({ G with names := p.1 }, p.2)
  else globalsStep E bv base G r after

/-- xlrd/book.py:1274-1286: at the end of the globals. -/
def endOver (E : BookEnv σ τ) (o : List Char) (bv : Nat) (G : Globals τ) : Except Exc (Globals τ) :=
  let G := { G with xfTypes := xfEpilogue G.formats 0 G.xfs G.xfTypes }
  match E.namesEnd bv (E.decode G.encoding) G.names G.allSheets with
  | .error e => .error e
  | .ok () => if G.encoding = none then deriveOver E o G else .ok G

/-- xlrd/book.py:1228-1290 `parse_globals`, as `globalsLoop` -/
def loopOver (E : BookEnv σ τ) (o : List Char) (bv : Nat) (base : Int) : Nat → Globals τ → List Rec → Except Exc (Globals τ)
  | 0, _, _ => .error .structError
  | _ + 1, _, [] => .error .structError
  | n + 1, G, r :: rest =>
    if r.code = xlEof then endOver E o bv G
    else match stepOver E o bv base G r rest with
      | .error e => .error e
      | .ok (G, k) => loopOver E o bv base n G (rest.drop k)

/-- xlrd/book.py:70-139 `open_workbook_xls` with `encoding_override` after `biff2_8_load`, for BIFF 5 and later (an exception
stands for earlier versions). -/
def openOver (E : BookEnv σ τ) (o : List Char) (ragged : Bool) (mem : Bytes) (base : Int) : Except Exc (Nat × List BookSheet) :=
  match getbof mem base 5 with
  | .error e => .error e
  | .ok (bv, pos) =>
    if bv = 0 then .error .xlrdError
    else if bv < 50 then .error .generic
    else
      let recs := recordsAt mem pos
      match loopOver E o bv base (recs.length + 1) (Globals.init E.names0) recs with
      | .error e => .error e
      | .ok G =>
        match getSheets E bv G ragged mem G.countries G.sheets with
        | .error e => .error e
        | .ok gs => .ok (G.datemode, gs)

end CP
