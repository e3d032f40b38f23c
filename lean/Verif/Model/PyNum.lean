import Verif.Model.XlsNames
/-!
# Model of numbers in python: int and float

What `operator` and the comparisons do with them, as xlrd/formula.py:712-743, 1091-1120 uses them.  Integers are exact,
floating point numbers are as in `Val` (`.flt`, `.inf`, `.nan`, no sign of zero); the rounding of a rational
is a parameter, and so are powers, `float(text)`, `str(x)` and the operators on values that are not both
numbers or both texts (but for `==` and `!=`).
-/

namespace CP

/-- The parameters. -/
structure PyOps where
  rnd : Rat → Val
  pow : Val → Val → Except Exc Val
  parse : List Char → Except Exc Val
  str : OVal Val → List Char
  cmpText : Nat → List Char → List Char → Bool
  odd : Nat → OVal Val → OVal Val → Except Exc (OVal Val)

/-- Integers from here on (2 ^ 1024 - 2 ^ 970) are rounded to more than the largest floating point number. -/
def floatLimit : Nat := 2 ^ 970 * (2 ^ 54 - 1)

/-- `float(i)` -/
def intToFloat (P : PyOps) (i : Int) : Except Exc Val := if i.natAbs < floatLimit then .ok (P.rnd i) else .error .overflowError

/-- `x` as a floating point number. -/
def asFloat (P : PyOps) : Val → Except Exc Val
  | .int i => intToFloat P i
  | v => .ok v

def negFloat : Val → Val
  | .flt q => .flt (-q)
  | .inf s => .inf (!s)
  | v => v

def addFloat (P : PyOps) : Val → Val → Val
  | .flt a, .flt b => P.rnd (a + b)
  | .inf s, .inf t => if s = t then .inf s else .nan
  | .inf s, .flt _ => .inf s
  | .flt _, .inf t => .inf t
  | _, _ => .nan

/-- The product of an infinity with this sign and `q`. -/
def infTimes (s : Bool) (q : Rat) : Val := if q = 0 then .nan else .inf (s != decide (q < 0))

def mulFloat (P : PyOps) : Val → Val → Val
  | .flt a, .flt b => P.rnd (a * b)
  | .inf s, .inf t => .inf (s != t)
  | .inf s, .flt b => infTimes s b
  | .flt a, .inf t => infTimes t a
  | _, _ => .nan

/-- `x / y` -/
def divFloat (P : PyOps) (x y : Val) : Except Exc Val :=
  if y = .flt 0 then .error .zeroDivisionError
  else match x, y with
    | .flt a, .flt b => .ok (P.rnd (a / b))
    | .flt _, .inf _ => .ok (.flt 0)
    | .inf s, .flt b => .ok (.inf (s != decide (b < 0)))
    | _, _ => .ok .nan

/-- `i / j` of integers -/
def divInt (P : PyOps) (i j : Int) : Except Exc Val :=
  if j = 0 then .error .zeroDivisionError
  else if i.natAbs < floatLimit * j.natAbs then .ok (P.rnd ((i : Rat) / (j : Rat)))
  else .error .overflowError

/-- `x + y`, `x - y`, `x * y`, `x / y` and `x ** y` -/
def pyArith (P : PyOps) (op : Nat) (x y : Val) : Except Exc Val :=
  if op = 7 then P.pow x y
  else match x, y with
    | .int i, .int j =>
      if op = 3 then .ok (.int (i + j)) else if op = 4 then .ok (.int (i - j)) else if op = 5 then .ok (.int (i * j)) else divInt P i j
    | x, y =>
      match asFloat P x with
      | .error e => .error e
      | .ok a =>
        match asFloat P y with
        | .error e => .error e
        | .ok b =>
          if op = 3 then .ok (addFloat P a b) else if op = 4 then .ok (addFloat P a (negFloat b)) else if op = 5 then .ok (mulFloat P a b)
          else divFloat P a b

/-- The comparison of numbers: less, equal or greater; nothing for nan. -/
def pyCompare : Val → Val → Option Ordering
  | .nan, _ => none
  | _, .nan => none
  | .inf s, .inf t => some (if s = t then .eq else if s then .lt else .gt)
  | .inf s, _ => some (if s then .lt else .gt)
  | _, .inf t => some (if t then .gt else .lt)
  | x, y =>
    let q : Val → Rat := fun
      | .int i => i
      | .flt q => q
      | _ => 0
    some (if q x < q y then .lt else if q x = q y then .eq else .gt)

/-- `x < y` and so on -/
def pyCmp (op : Nat) (x y : Val) : Bool :=
  match pyCompare x y with
  | none => op = 0xE
  | some o =>
    if op = 9 then o = .lt else if op = 0xA then o ≠ .gt else if op = 0xB then o = .eq else if op = 0xC then o ≠ .lt
    else if op = 0xD then o = .gt else o ≠ .eq

/-- `+x`, `-x` and `x / 100.0` -/
def pyUnary (P : PyOps) (op : Nat) (x : Val) : Except Exc Val :=
  if op = 0x12 then .ok x
  else if op = 0x13 then .ok (match x with
    | .int i => .int (-i)
    | x => negFloat x)
  else match asFloat P x with
    | .error e => .error e
    | .ok a => divFloat P a (.flt 100)

/-- `int(x)` -/
def pyInt : Val → Except Exc Int
  | .int i => .ok i
  | .flt q => .ok (if 0 ≤ q then q.floor else -(-q).floor)
  | .inf _ => .error .overflowError
  | _ => .error .valueError

/-- The numbers of python. -/
def pyNum (P : PyOps) : NumEnv Val where
  double := fun b => doubleOfBits (leNat b)
  nat := fun n => .int n
  flo := fun n => .flt (n : Int)
  arith := pyArith P
  cmp := fun op x y => .ok (pyCmp op x y)
  unary := pyUnary P
  parse := P.parse
  str := P.str
  cmpText := P.cmpText
  weird := fun op x y => match x, y with
    | .num _, .text _ => if op = 0xB then .ok (.num (.int 0)) else if op = 0xE then .ok (.num (.int 1)) else P.odd op x y
    | .text _, .num _ => if op = 0xB then .ok (.num (.int 0)) else if op = 0xE then .ok (.num (.int 1)) else P.odd op x y
    | x, y => P.odd op x y
  small := fun x => if pyCmp 0xB x (.int 0) then some false else if pyCmp 0xB x (.int 1) then some true else none
  int := pyInt
  within := fun x n => .ok (pyCmp 0xC x (.int 1) && pyCmp 9 x (.int n))

end CP
