import Verif.Model.Float64
import Verif.Model.Text
import Verif.Model.Dbf
/-!
# Model of `float(text)`

Not code of channelpack: the builtin that readtext.py:29-36, 458-459, dbf.py:60, 74, 142, 156 and
xlrd/xlsx.py:653 call, from its documentation ("the grammar of floating point literals, with a sign, whitespace
around, inf and nan") and the promise of CPython that the result is the nearest float.  Digits of other scripts
count as those of ASCII; `dec` is their table.
-/

namespace CP

def isDigitC (c : Char) : Bool := 48 ≤ c.toNat && c.toNat ≤ 57

/-- The number that digits stand for. -/
def natOfDigits (s : List Char) : Nat := s.foldl (fun acc c => 10 * acc + (c.toNat - 48)) 0

/-- The sign at the beginning, and what follows it. -/
def takeSign : List Char → Bool × List Char
  | '-' :: t => (true, t)
  | '+' :: t => (false, t)
  | t => (false, t)

/-- The part after the mantissa: nothing, or e and an integer. -/
def parseExponent : List Char → Option Int
  | [] => some 0
  | c :: t =>
    if c = 'e' ∨ c = 'E' then
      let (neg, ds) := takeSign t
      if ds ≠ [] ∧ ds.all isDigitC then some (if neg then -(natOfDigits ds : Int) else natOfDigits ds) else none
    else none

/-- The digits after a point, and what follows them. -/
def takeFrac : List Char → List Char × List Char
  | '.' :: u => (u.takeWhile isDigitC, u.dropWhile isDigitC)
  | t => ([], t)

/-- The value of a decimal numeral without a sign. -/
def parseDecimal (s : List Char) : Option Rat :=
  let whole := s.takeWhile isDigitC
  let (frac, t) := takeFrac (s.dropWhile isDigitC)
  if whole = [] ∧ frac = [] then none
  else (parseExponent t).map fun e => (natOfDigits (whole ++ frac) : Rat) * 10 ^ (e - (frac.length : Int))

/-- Underscores between digits are left out; others make the text no number. -/
def dropUnderscores : (before : Bool) → List Char → Option (List Char)
  | _, [] => some []
  | before, '_' :: t =>
    match t with
    | d :: _ => if before && isDigitC d then dropUnderscores false t else none
    | [] => none
  | _, c :: t => (dropUnderscores (isDigitC c) t).map (c :: ·)

def lowerAscii (c : Char) : Char := if 65 ≤ c.toNat ∧ c.toNat ≤ 90 then Char.ofNat (c.toNat + 32) else c

/-- A digit of any script as that of ASCII. -/
def toAscii (dec : Char → Option Nat) (c : Char) : Char :=
  match dec c with
  | some v => Char.ofNat (48 + v)
  | none => c

/-- The value of a text without whitespace around it. -/
def floatText (s : List Char) : Option Val :=
  let (neg, t) := takeSign s
  let w := t.map lowerAscii
  if w = "nan".toList then some .nan
  else if w = "inf".toList ∨ w = "infinity".toList then some (.inf neg)
  else match dropUnderscores false t with
    | none => none
    | some t => (parseDecimal t).map fun q => f64Val (if neg then -q else q)

/-- What `float` of a str takes for whitespace around the number.  CPython leaves ASCII alone when it makes other
whitespace blanks, and then removes the whitespace of C: the characters 28 to 31, whitespace for `strip()`, stay. -/
def floatSpace (c : Char) : Bool := pySpace c && !(28 ≤ c.toNat && c.toNat ≤ 31)

/-- `float(s)` of a str; none is ValueError. -/
def pyFloat (dec : Char → Option Nat) : FloatS := fun s => floatText (stripBy floatSpace (s.map (toAscii dec)))

/-- `float(b)` of bytes, these as characters 0..255; whitespace is that of ASCII. -/
def pyFloatB : FloatS := fun s => floatText (stripBy (· ∈ asciiWhite) s)

/-- `float` of a field (readtext.py:31, 36, 459, 479, 486, 489): a str in a text stream, bytes in one of bytes. -/
def Hint.float (h : Hint) (dec : Char → Option Nat) : FloatS :=
  match h with
  | .text => pyFloat dec
  | _ => pyFloatB

/-- `float(b)` of bytes (dbf.py:60, 74, 142, 156); whitespace is that of ASCII. -/
def floatBytes : FloatB := fun b =>
  match floatText ((stripB b).map fun x => Char.ofNat x.toNat) with
  | none => .error .valueError
  | some v => .ok v

/-- `float(s)` with ValueError, as xlrd/xlsx.py:653 calls it. -/
def xlFloat (dec : Char → Option Nat) : List Char → Except Exc Val := fun s =>
  match pyFloat dec s with
  | none => .error .valueError
  | some v => .ok v

end CP
