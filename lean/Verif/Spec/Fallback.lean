import Verif.Spec.Numeral
import Verif.Spec.Lookup
/-!
# Specification: what is taken for a fallback name
-/

namespace CP.Spec

/-- `s` is `pre`, then digits of any scripts (as many as there are), then anything. -/
def DigitsAfter (dec : Char → Option Nat) (pre s ds : List Char) : Prop :=
  ∃ rest, s = pre ++ ds ++ rest ∧ ds ≠ [] ∧ IsDigits dec ds ∧ ∀ c, rest.head? = some c → dec c = none

/-- `s` is a decimal number as one would write it: digits of ASCII, and none before the others that is zero. -/
def PlainNumber (s : List Char) : Prop := s ≠ [] ∧ (∀ c ∈ s, DecDigit c) ∧ (s.head? = some '0' → s = ['0'])

end CP.Spec
