import Verif.Model.PyStr
/-!
# Specification: decimal numerals and the numbers they stand for
-/

namespace CP.Spec

/-- A table of decimal digits with their values, as Unicode has it: the ten of ASCII and none other there,
and no whitespace. -/
structure Decimals (dec : Char → Option Nat) : Prop where
  small : ∀ c v, dec c = some v → v < 10
  ascii : ∀ c, c.toNat < 128 → dec c = if '0' ≤ c ∧ c ≤ '9' then some (c.toNat - '0'.toNat) else none
  space : ∀ c, pySpace c = true → dec c = none

/-- Whitespace around a number in a str: as for `strip()`, but not the four separators of ASCII. -/
def NumBlank (c : Char) : Prop := pySpace c = true ∧ (c.toNat < 28 ∨ 31 < c.toNat)

/-- The digits of ASCII alone. -/
def asciiDec (c : Char) : Option Nat := if '0' ≤ c ∧ c ≤ '9' then some (c.toNat - '0'.toNat) else none

def IsDigits (dec : Char → Option Nat) (s : List Char) : Prop := ∀ c ∈ s, (dec c).isSome = true

/-- The number that digits stand for: each by its place. -/
def digitsValue (dec : Char → Option Nat) : List Char → Nat
  | [] => 0
  | c :: cs => (dec c).getD 0 * 10 ^ cs.length + digitsValue dec cs

/-- A sign or none, and its factor. -/
def SignIs (s : List Char) (f : Int) : Prop := (s = [] ∧ f = 1) ∨ (s = ['+'] ∧ f = 1) ∨ (s = ['-'] ∧ f = -1)

/-- Nothing, or e and an integer. -/
def ExponentIs (dec : Char → Option Nat) (s : List Char) (k : Int) : Prop :=
  (s = [] ∧ k = 0) ∨ ∃ e sg f ds, (e = 'e' ∨ e = 'E') ∧ SignIs sg f ∧ ds ≠ [] ∧ IsDigits dec ds ∧ s = e :: (sg ++ ds) ∧
    k = f * digitsValue dec ds

/-- The numeral `n` stands for `w`: a sign, digits with a point among them or none, an exponent. -/
def NumeralIs (dec : Char → Option Nat) (n : List Char) (w : Rat) : Prop :=
  ∃ sg f a pt b ex k, SignIs sg f ∧ IsDigits dec a ∧ IsDigits dec b ∧ a ++ b ≠ [] ∧ (pt = ['.'] ∨ (pt = [] ∧ b = [])) ∧
    ExponentIs dec ex k ∧ n = sg ++ (a ++ pt ++ b ++ ex) ∧
    w = (f : Rat) * ((digitsValue dec (a ++ b) : Rat) * 10 ^ (k - (b.length : Int)))

/-- `w` is `x` rounded to 17 significant digits: half a unit of the 17th digit off, at most. -/
def To17Digits (w x : Rat) : Prop :=
  (x = 0 ∧ w = 0) ∨ ∃ k : Int, (10 : Rat) ^ (k - 1) ≤ x.abs ∧ (w - x).abs ≤ 10 ^ (k - 17) / 2

end CP.Spec
