import Verif.Spec.Preparse
import Verif.Spec.Text
/-!
# Keyword arguments, numeric tables in a file
-/

namespace CP.Spec

/-- A value given by the caller, or else the one inferred. -/
def Chosen {α : Type} (given : Option α) (inferred received : α) : Prop :=
  (∀ v, given = some v → received = v) ∧ (given = none → received = inferred)

/-- ASCII whitespace only. -/
def AsciiBlank (s : List Char) : Prop := ∀ c ∈ s, c ∈ whites

/-- A line of a table in a file: numbers with the separator between, with whitespace around
it if the separator is not whitespace itself; around the line whitespace that is not in the
separator.  Without a separator it is one number. -/
def RowLine (dig : Char → Bool) (point : Char) (sep : Option (List Char)) (nums : List (List Char))
    (line : List Char) : Prop :=
  match sep with
  | some sep => ∃ a gs b, line = a ++ weave nums gs ++ b ∧ gs.length + 1 = nums.length ∧
      (∀ n ∈ nums, IsNumber dig point n) ∧ AllPad (some sep) a ∧ AllPad (some sep) b ∧
      ∀ g ∈ gs, g ≠ [] ∧ (∀ c ∈ g, Plain dig point c ∧ (pySpace c = true → c ∈ whites)) ∧ SepMeans g sep
  | none => ∃ a n b, line = a ++ n ++ b ∧ nums = [n] ∧ AsciiBlank a ∧ IsNumber dig point n ∧ AsciiBlank b

/-- Lines of a table of `k` columns, with blank lines between, and the numbers on them. -/
inductive TableRows (dig : Char → Bool) (point : Char) (sep : Option (List Char)) (k : Nat) :
    List (List Char) → List (List (List Char)) → Prop
  | nil : TableRows dig point sep k [] []
  | blank {line ls rs} : AllPad sep line → TableRows dig point sep k ls rs →
      TableRows dig point sep k (line :: ls) rs
  | row {line nums ls rs} : nums.length = k → RowLine dig point sep nums line →
      TableRows dig point sep k ls rs → TableRows dig point sep k (line :: ls) (nums :: rs)

/-- `float` of a number with whitespace around it is its value. -/
def FloatReads (fl : FloatS) (dig : Char → Bool) (val : List Char → Val) : Prop :=
  ∀ a n b, AsciiBlank a → IsNumber dig '.' n → AsciiBlank b → fl (a ++ n ++ b) = some (val n)

/-- The channels of a table: column by column the numbers, a decimal comma read as a point. -/
def TableData (val : List Char → Val) (k : Nat) (rows : List (List (List Char))) (data : List (Int × List Val)) :
    Prop :=
  (∀ key, (∃ col, dget data key = some col) ↔ 0 ≤ key ∧ key < k) ∧
  ∀ (j : Nat) col, dget data (j : Int) = some col → col.length = rows.length ∧
    ∀ (i : Nat) row n, rows[i]? = some row → row[j]? = some n → col[i]? = some (val (pointed n))

end CP.Spec
