import Verif.Model.Pack
/-!
# Model of a pack with a mask of integers, channelpack/pack.py

`pack.mask = array` takes any numpy array (pack.py:228-234).  Here the dtype is an integer one, as of a channel of
flags.  Widths of integers are not modelled.
-/

namespace CP

/-- The attributes of a pack that have to do with a mask of integers. -/
structure IntMasked where
  vals : List Int
  mindur : Option Int
  cached : List (Nat × Nat)
  deriving DecidableEq, Repr

/-- The truth values of the elements, as seen by `if` (datautils.py:87-94) and `np.where`. -/
def truths (vals : List Int) : List Bool := vals.map fun v => v != 0

/-- `mask[s:t] = False`: zeros in an array of integers -/
def zeroPart (vals : List Int) (st : Nat × Nat) : List Int :=
  vals.mapIdx fun i v => if st.1 ≤ i ∧ i < st.2 then 0 else v

/-- pack.py:347-352, one turn of the loop -/
def intDurationStep (req : Int) (mindur : Bool) (vals : List Int) (sc : Nat × Nat) : List Int :=
  let part : Int := (sc.2 : Int) - sc.1
  if part < req ∧ mindur = true then zeroPart vals sc
  else if part > req ∧ mindur = false then zeroPart vals sc
  else vals

/-- pack.py:324-358 `duration`, as `Pack.duration` -/
def IntMasked.duration (s : IntMasked) (prod : Rat) (mindur : Bool) : IntMasked :=
  let vals := s.cached.foldl (intDurationStep (truncRat prod) mindur) s.vals
  { s with vals := vals, cached := slicelist (truths vals) }

/-- pack.py:233-234, 240-241 -/
def IntMasked.applyMindur (s : IntMasked) : IntMasked :=
  match s.mindur with
  | none => s
  | some m => s.duration m true

/-- pack.py:230-234: assignment of an array of integers to `mask` -/
def IntMasked.setMask (s : IntMasked) (vals : List Int) : IntMasked :=
  { s with vals := vals, cached := slicelist (truths vals) }.applyMindur

/-- pack.py:238-241: assignment of None or an int to `mindur` -/
def IntMasked.setMindur (s : IntMasked) (m : Option Int) : IntMasked := { s with mindur := m }.applyMindur

/-- `v & r` of an integer and a bool: bits of two's complement; True is 1. -/
def andBool (v : Int) (r : Bool) : Int := if r then v % 2 else 0

/-- numpy `mask &= result` (pack.py:394) with integers in the mask; see `npIand`. -/
def intIand (vals : List Int) (result : List Bool) : Except Exc (List Int) :=
  if result = [] then .error .typeError
  else if result.length = vals.length then .ok (List.zipWith andBool vals result)
  else match result with
    | [r] => .ok (vals.map (andBool · r))
    | _ => .error .valueError

/-- pack.py:360-395 `startstop`, as (pack afterwards, result) -/
def IntMasked.startstop (s : IntMasked) (startb stopb : List Bool) (apply : Bool) : IntMasked × Except Exc (List Bool) :=
  let result := startstopBool startb stopb
  if apply then
    match intIand s.vals result with
    | .ok m => (s.setMask m, .ok result)
    | .error e => (s, .error e)
  else (s, .ok result)

/-- `a[i]` for each `i` of an array of integers: IndexError if one of them is out of range, from the end if negative -/
def takeAt (a : List Val) : List Int → Except Exc (List Val)
  | [] => .ok []
  | i :: is =>
    match pyIndex a i with
    | .error _ => .error .indexError
    | .ok v =>
      match takeAt a is with
      | .error e => .error e
      | .ok vs => .ok (v :: vs)

/-- pack.py:446-451: a part of the channel `a` -/
def IntMasked.part (s : IntMasked) (a : Arr) (i : Int) : Except Exc Arr :=
  match pyIndex s.cached i with
  | .ok sl => .ok (a.slice sl)
  | .error _ => .error .indexError

/-- pack.py:453 the channel `a` with `nof='nan'` -/
def IntMasked.nan (s : IntMasked) (a : Arr) : Except Exc Arr := masked a ⟨false, truths s.vals⟩

/-- pack.py:455 the channel `a` with `nof='filter'`: `a[mask]` takes integers for indices -/
def IntMasked.filter (s : IntMasked) (a : Arr) : Except Exc Arr :=
  match takeAt a.els s.vals with
  | .ok els => .ok ⟨a.kind, els⟩
  | .error e => .error e

/-- What a program does with the mask. -/
inductive MaskOp where
  | assign (vals : List Int)
  | duration (prod : Rat) (mindur : Bool)
  | mindur (m : Option Int)
  | startstop (startb stopb : List Bool) (apply : Bool)

/-- One operation, and the exception it raises. -/
def IntMasked.step (s : IntMasked) : MaskOp → IntMasked × Option Exc
  | .assign vals => (s.setMask vals, none)
  | .duration q m => (s.duration q m, none)
  | .mindur m => (s.setMindur m, none)
  | .startstop a b ap =>
    match s.startstop a b ap with
    | (s, .ok _) => (s, none)
    | (s, .error e) => (s, some e)

/-- The same on a pack with the mask of the truth values. -/
def Pack.maskStep (p : Pack) : MaskOp → Pack × Option Exc
  | .assign vals => (p.setMask ⟨true, truths vals⟩, none)
  | .duration q m => (p.duration q m, none)
  | .mindur m => (p.setMindur m, none)
  | .startstop a b ap =>
    match p.startstop a b ap with
    | (p, .ok _) => (p, none)
    | (p, .error e) => (p, some e)

/-- A program: it goes on after exceptions. -/
def IntMasked.run (s : IntMasked) : List MaskOp → IntMasked × List (Option Exc)
  | [] => (s, [])
  | op :: ops =>
    let (s, e) := s.step op
    let (s, es) := s.run ops
    (s, e :: es)

def Pack.maskRun (p : Pack) : List MaskOp → Pack × List (Option Exc)
  | [] => (p, [])
  | op :: ops =>
    let (p, e) := p.maskStep op
    let (p, es) := p.maskRun ops
    (p, e :: es)

end CP
