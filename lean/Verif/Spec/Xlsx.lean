import Verif.Spec.Lookup
/-!
# Specification: cell names in an xlsx file
-/

namespace CP.Spec

/-- The place of a letter in the alphabet, from 1, in either case; 0 if it is no letter A-Z. -/
def letterIndex (c : Char) : Nat :=
  if 65 ≤ c.toNat ∧ c.toNat ≤ 90 then c.toNat - 64
  else if 97 ≤ c.toNat ∧ c.toNat ≤ 122 then c.toNat - 96
  else 0

/-- The number of a column, from 1, given its letters: A is 1, Z is 26, AA is 27. -/
def columnNumber : List Char → Nat
  | [] => 0
  | c :: cs => letterIndex c * 26 ^ cs.length + columnNumber cs

/-- A string of digits without a leading zero. -/
def RowDigits (ds : List Char) : Prop := ds ≠ [] ∧ (∀ c ∈ ds, DecDigit c) ∧ ∀ c, ds.head? = some c → c ≠ '0'

/-- `s` names the cell in row `r` and column `c`, both from 0: letters, then the row number. -/
def CellName (s : List Char) (r c : Nat) : Prop :=
  ∃ ls ds, s = ls ++ ds ∧ ls ≠ [] ∧ (∀ x ∈ ls, letterIndex x ≠ 0) ∧ RowDigits ds ∧
    columnNumber ls = c + 1 ∧ decValue ds = r + 1

end CP.Spec
