import Verif.Model.Py
/-!
# Specification: decimal numbers and channel lookup
-/

namespace CP.Spec

/-- Value of a string of decimal digits, most significant first. -/
def decValue : List Char → Nat
  | [] => 0
  | c :: cs => (c.toNat - 48) * 10 ^ cs.length + decValue cs

def DecDigit (c : Char) : Prop := 48 ≤ c.toNat ∧ c.toNat ≤ 57

/-- `ch` is `pre`, then a number (as many digits as there are), then anything. -/
def IsFallback (pre ch : List Char) (k : Nat) : Prop :=
  ∃ ds rest, ch = pre ++ ds ++ rest ∧ ds ≠ [] ∧ (∀ c ∈ ds, DecDigit c) ∧
    (∀ c, rest.head? = some c → ¬ DecDigit c) ∧ k = decValue ds

/-- `(key, s)` is the first entry of `names` with the name `s`. -/
def FirstNamed (names : List (Int × Val)) (s : List Char) (key : Int) : Prop :=
  ∃ l1 l2, names = l1 ++ (key, .str s) :: l2 ∧ ∀ x ∈ l1, x.2 ≠ .str s

/-- The documented lookup order for a str: names first, then the fallback form; the
key found must be a data key. -/
def ResolvesStr (pre : List Char) (isKey : Int → Prop) (names : List (Int × Val))
    (s : List Char) (key : Int) : Prop :=
  isKey key ∧
  (FirstNamed names s key ∨
    ((∀ x ∈ names, x.2 ≠ .str s) ∧ ∃ k : Nat, IsFallback pre s k ∧ key = k))

end CP.Spec
