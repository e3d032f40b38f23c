/-!
# Python basics used by the model

Exceptions as values, Python values, sequence indexing and slicing, and
insertion-ordered dicts as association lists.
-/

namespace CP

/-- The exception classes the modelled code can raise (class only, no message).
`structError` is `struct.error`, `unicodeError` is `UnicodeDecodeError`,
`compDocError` is `CompDocError` (xlrd/compdoc.py:29-30), `xlrdError` is
`XLRDError` (xlrd/biffh.py:16-19), the `xldate*` ones are the classes of
xlrd/xldate.py:35-56. -/
inductive Exc where
  | typeError | valueError | keyError | indexError | attributeError
  | assertionError | nameError | unicodeError | structError | overflowError
  | compDocError | xlrdError | osError | generic
  | recursionError | zeroDivisionError
  | xldateNegative | xldateAmbiguous | xldateTooLarge | xldateBadDatemode
  | xldateBadTuple
  deriving DecidableEq, Repr

deriving instance DecidableEq for Except

/-- Python values that occur as array elements or cell values.  A float is an
exact rational, `nan` or an infinity (`neg` tells the sign); `other n` stands
for any other object, told apart by `n`. -/
inductive Val where
  | int (i : Int)
  | flt (q : Rat)
  | nan
  | inf (neg : Bool)
  | str (s : List Char)
  | bytes (b : List UInt8)
  | bool (b : Bool)
  | none
  | date (y m d : Int)
  | datetime (days ms : Int)
  | other (n : Nat)
  deriving DecidableEq, Repr

/-- `l[i]` of a Python sequence: negative indices count from the end,
`IndexError` outside. -/
def pyIndex {α : Type} (l : List α) (i : Int) : Except Exc α :=
  let j := if i < 0 then i + l.length else i
  if j < 0 then .error .indexError
  else match l[j.toNat]? with
    | some a => .ok a
    | none => .error .indexError

/-- `l[a:b]` of a Python sequence for `0 <= a` and `0 <= b` (bounds clamp). -/
def pySlice {α : Type} (l : List α) (a b : Nat) : List α :=
  (l.take b).drop a

/-! ### dicts as association lists in insertion order -/

/-- `d.get(k)`. -/
def dget {κ ν : Type} [DecidableEq κ] (d : List (κ × ν)) (k : κ) : Option ν :=
  match d with
  | [] => none
  | (k', v) :: rest => if k' = k then some v else dget rest k

/-- `d[k] = v`: overwrite in place or append at the end. -/
def dset {κ ν : Type} [DecidableEq κ] (d : List (κ × ν)) (k : κ) (v : ν) :
    List (κ × ν) :=
  match d with
  | [] => [(k, v)]
  | (k', v') :: rest => if k' = k then (k', v) :: rest else (k', v') :: dset rest k v

/-- `list(d)`. -/
def dkeys {κ ν : Type} (d : List (κ × ν)) : List κ := d.map Prod.fst

/-- `d.update(pairs)` for a list of pairs. -/
def dupdate {κ ν : Type} [DecidableEq κ] (d : List (κ × ν)) (ps : List (κ × ν)) :
    List (κ × ν) :=
  ps.foldl (fun d p => dset d p.1 p.2) d

/-- `dict(pairs)`. -/
def dictOf {κ ν : Type} [DecidableEq κ] (ps : List (κ × ν)) : List (κ × ν) :=
  dupdate [] ps

/-- Insertion into an ascending list of integers. -/
def insertInt (k : Int) : List Int → List Int
  | [] => [k]
  | x :: xs => if k ≤ x then k :: x :: xs else x :: insertInt k xs

/-- `sorted(l)` of a list of integers. -/
def sortInts (l : List Int) : List Int := l.foldr insertInt []

end CP
