import Verif.Model.Float64
/-!
# Model of channelpack/datautils.py
-/

namespace CP

/-- The numpy dtype kinds (`dtype.kind`): bool, signed and unsigned integer,
float, complex, datetime, timedelta, object, bytes, unicode, void. -/
inductive Kind where
  | b | i | u | f | c | M | m | O | S | U | V
  deriving DecidableEq, Repr

/-- A 1-dimensional numpy array: dtype kind and elements. -/
structure Arr where
  kind : Kind
  els : List Val
  deriving DecidableEq, Repr

/-- A numpy array used as a mask, seen through the truth value of its elements.
`isBool` tells whether the dtype is bool; the only other dtype modelled is a
floating one (that is what `np.array([])` is, pack.py:319). -/
structure Mask where
  isBool : Bool
  bits : List Bool
  deriving DecidableEq, Repr

/-- Cast of an array element to float64, done by `np.where` when it is mixed
with an array of NaN (datautils.py:19-21, 29); integers of numpy cannot reach infinity. -/
def castFloat : Val → Val
  | .int i => .flt (f64 i)
  | v => v

/-- datautils.py:28 `a.dtype.kind in ('i', 'u', 'f', 'c')` -/
def Kind.numeric : Kind → Bool
  | .i => true | .u => true | .f => true | .c => true | _ => false

/-- `np.where(b, a, full)` on 1-d arrays with `full` as long as `a`:
elementwise choice, lengths broadcast (equal, or one of them 1), else
`ValueError`. -/
def npWhere (b : List Bool) (a : List Val) (fill : Val) : Except Exc (List Val) :=
  if b.length = a.length then
    .ok (List.zipWith (fun (m : Bool) v => if m then v else fill) b a)
  else match b, a with
    | [m], a => .ok (a.map fun v => if m then v else fill)
    | b, [v] => .ok (b.map fun m => if m then v else fill)
    | _, _ => .error .valueError

/-- datautils.py:8-31 `masked`.  Numeric kinds give a float array (complex stays
complex), other kinds an object array. -/
def masked (a : Arr) (b : Mask) : Except Exc Arr :=
  if a.kind.numeric then
    match npWhere b.bits (if a.kind = .c then a.els else a.els.map castFloat) .nan with
    | .ok els => .ok ⟨if a.kind = .c then .c else .f, els⟩
    | .error e => .error e
  else
    match npWhere b.bits a.els .none with
    | .ok els => .ok ⟨.O, els⟩
    | .error e => .error e

/-- datautils.py:62-75, the loop of `startstop_bool` with its `started` flag.
`zip` stops at the shorter sequence. -/
def startstopLoop : Bool → List Bool → List Bool → List Bool
  | started, start :: startb, stop :: stopb =>
    if stop then
      false :: startstopLoop (if started then false else started) startb stopb
    else if start then
      true :: startstopLoop (if !started then true else started) startb stopb
    else if started then
      true :: startstopLoop started startb stopb
    else
      false :: startstopLoop started startb stopb
  | _, _, _ => []

/-- datautils.py:34-75 `startstop_bool`; elements are given by their truth value. -/
def startstopBool (startb stopb : List Bool) : List Bool :=
  startstopLoop false startb stopb

/-- datautils.py:83-97, the loop of `slicelist`: `i` is the index of the next
element, `start` the Python variable of that name (arbitrary before it is
assigned), `e` the last element looked at. -/
def slicelistLoop : List Bool → Nat → Bool → Nat → Bool → List (Nat × Nat) →
    List (Nat × Nat)
  | [], i, _, start, e, acc => if e then acc ++ [(start, i)] else acc
  | b :: bs, i, started, start, _, acc =>
    if !started && b then slicelistLoop bs (i + 1) true i b acc
    else if started && !b then slicelistLoop bs (i + 1) false start b (acc ++ [(start, i)])
    else slicelistLoop bs (i + 1) started start b acc

/-- datautils.py:78-97 `slicelist`; a slice is a pair (start, stop). -/
def slicelist (b : List Bool) : List (Nat × Nat) :=
  slicelistLoop b 0 false 0 false []

end CP
