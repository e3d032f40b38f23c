import Verif.Model.Dbf
import Verif.Model.Pack
import Verif.Model.Float64
/-!
# Model of `np.array(sequence)` as channelpack/pack.py calls it

Not code of channelpack: what numpy makes of a list or tuple of python values (pack.py:75, 87, 101, 117), from the
documentation of its promotion of types, for a platform with integers of 64 bits.  Widths of text are not modelled, as numpy
chooses them so that every item fits.
-/

namespace CP

/-- The type numpy finds for one value: ints that fit 64 bits with or without a sign, larger ones are objects, as is all that is
neither a number nor text. -/
def npDiscover : Val → Kind
  | .bool _ => .b
  | .int i => if -2 ^ 63 ≤ i ∧ i < 2 ^ 63 then .i else if 0 ≤ i ∧ i < 2 ^ 64 then .u else .O
  | .flt _ => .f
  | .nan => .f
  | .inf _ => .f
  | .str _ => .U
  | .bytes _ => .S
  | _ => .O

/-- The common type of two values of these types. -/
def npPromote : Kind → Kind → Kind
  | .O, _ => .O
  | _, .O => .O
  | .U, _ => .U
  | _, .U => .U
  | .S, _ => .S
  | _, .S => .S
  | .f, _ => .f
  | _, .f => .f
  | .i, .u => .f
  | .u, .i => .f
  | .b, k => k
  | k, _ => k

/-- The type of the array. -/
def npKind : List Val → Kind
  | [] => .f
  | v :: vs => vs.foldl (fun k w => npPromote k (npDiscover w)) (npDiscover v)

/-- `str(x)` of a number; `ft` is that of finite floats. -/
def numberStr (ft : Rat → List Char) : Val → List Char
  | .bool true => "True".toList
  | .bool false => "False".toList
  | .int i => decInt i
  | .flt q => ft q
  | .nan => "nan".toList
  | .inf false => "inf".toList
  | .inf true => "-inf".toList
  | _ => []

/-- Text as it is found in an array: NULs fill it up to the width of the items, so none is seen at the end. -/
def dropNuls {α : Type} [DecidableEq α] (nul : α) (s : List α) : List α := (s.reverse.dropWhile (· = nul)).reverse

/-- A value put in an array of this type, and found there. -/
def npItem (ft : Rat → List Char) (k : Kind) (v : Val) : Except Exc Val :=
  match k, v with
  | .U, .str s => .ok (.str (dropNuls '\x00' s))
  | .U, .bytes b => match asciiDecode b with
    | .ok s => .ok (.str (dropNuls '\x00' s))
    | .error e => .error e
  | .U, v => .ok (.str (numberStr ft v))
  | .S, .bytes b => .ok (.bytes (dropNuls 0 b))
  | .S, v => .ok (.bytes ((numberStr ft v).map fun c => UInt8.ofNat c.toNat))
  | .f, .int i => .ok (.flt (f64 i))
  | .f, .bool b => .ok (.flt (if b then 1 else 0))
  | .i, .bool b => .ok (.int (if b then 1 else 0))
  | .u, .bool b => .ok (.int (if b then 1 else 0))
  | _, v => .ok v

def npItems (ft : Rat → List Char) (k : Kind) : List Val → Except Exc (List Val)
  | [] => .ok []
  | v :: vs =>
    match npItem ft k v with
    | .error e => .error e
    | .ok w =>
      match npItems ft k vs with
      | .error e => .error e
      | .ok ws => .ok (w :: ws)

/-- `np.array(vals)` -/
def npArray (ft : Rat → List Char) (vals : List Val) : Except Exc Arr :=
  match npItems ft (npKind vals) vals with
  | .error e => .error e
  | .ok els => .ok ⟨npKind vals, els⟩

/-- pack.py:84-92 `NpDict(data)` for a dict of lists or tuples of values; those are not sequences themselves but text, so the arrays
have one dimension. -/
def npDict (ft : Rat → List Char) : List (Int × List Val) → Except Exc (List (Int × Arr))
  | [] => .ok []
  | (k, vals) :: rest =>
    match npArray ft vals with
    | .error e => .error e
    | .ok a =>
      match npDict ft rest with
      | .error e => .error e
      | .ok d => .ok ((k, a) :: d)

/-- pack.py:199-221 `ChannelPack(data, names)` for such a dict. -/
def packOfLists (ft : Rat → List Char) (data : List (Int × List Val)) (names : List (Int × Val)) : Except Exc Pack :=
  match npDict ft data with
  | .error e => .error e
  | .ok d => .ok (Pack.init d names)

end CP
