import Verif.Spec.FileNumber
import Verif.Spec.Text
/-!
# Which texts are numbers

As the documentation of python has it for `float`: a numeral with a sign, underscores between digits, nan and
infinities in letters of either case, whitespace around.
-/

namespace CP.Spec

/-- `n` is `s` without the underscores in it, each of which stands between two digits. -/
def Unscored (dec : Char → Option Nat) (s n : List Char) : Prop :=
  n = s.filter (· ≠ '_') ∧ ∀ u v, s = u ++ '_' :: v →
    (∃ d, u.getLast? = some d ∧ (dec d).isSome = true) ∧ ∃ e, v.head? = some e ∧ (dec e).isSome = true

/-- The value of a text without whitespace around it. -/
inductive WordIs (dec : Char → Option Nat) : List Char → Val → Prop
  | number {s n w v} : Unscored dec s n → NumeralIs dec n w → FloatOf w v → WordIs dec s v
  | nan {sg f w} : SignIs sg f → w.map Char.toLower = "nan".toList → WordIs dec (sg ++ w) .nan
  | inf {sg f w} : SignIs sg f → w.map Char.toLower = "inf".toList ∨ w.map Char.toLower = "infinity".toList →
      WordIs dec (sg ++ w) (.inf (decide (f = -1)))

/-- The value of a text with whitespace around it. -/
def FloatIs (ws : Char → Prop) (dec : Char → Option Nat) (s : List Char) (v : Val) : Prop :=
  ∃ a t b, s = a ++ t ++ b ∧ (∀ c ∈ a, ws c) ∧ (∀ c ∈ b, ws c) ∧ WordIs dec t v

/-- The text of a field is a number: of a str with digits of all scripts, of bytes with those of ASCII. -/
def TextNumber (h : Hint) (dec : Char → Option Nat) (s : List Char) (v : Val) : Prop :=
  match h with
  | .text => FloatIs NumBlank dec s v
  | _ => FloatIs (· ∈ whites) asciiDec s v

/-- A number with a decimal point or comma. -/
def EitherNumber (h : Hint) (dec : Char → Option Nat) (s : List Char) (v : Val) : Prop := TextNumber h dec (pointed s) v

/-- The column `j` begins with a number. -/
def NumberColumn (h : Hint) (dec : Char → Option Nat) (first : List (List Char)) (j : Nat) : Prop :=
  ∃ x v, first[j]? = some x ∧ EitherNumber h dec x v

/-- What the field `s` in a column means: of numbers the number or nan where there is nothing, else the text. -/
def FieldIs (h : Hint) (dec : Char → Option Nat) (strip : Bool) (first : List (List Char)) (j : Nat) (s : List Char) (v : Val) : Prop :=
  (NumberColumn h dec first j ∧ ((s = [] ∧ v = .nan) ∨ EitherNumber h dec s v)) ∨
  (¬ NumberColumn h dec first j ∧ TextMeans h strip s v)

/-- Every field of the table means something. -/
def Meaningful (h : Hint) (dec : Char → Option Nat) (strip : Bool) (first : List (List Char)) (rows : List (List (List Char))) : Prop :=
  ∀ r ∈ first :: rows, ∀ (j : Nat) s, j < first.length → r[j]? = some s → ∃ v, FieldIs h dec strip first j s v

/-- If there is a number with a decimal comma, there is one in the first line of data. -/
def CommaFirst (h : Hint) (dec : Char → Option Nat) (first : List (List Char)) (rows : List (List (List Char))) : Prop :=
  (∃ r ∈ first :: rows, ∃ (j : Nat) (s : List Char), NumberColumn h dec first j ∧ r[j]? = some s ∧ ',' ∈ s) →
    ∃ y ∈ first, ',' ∈ y ∧ ∃ v, EitherNumber h dec y v

end CP.Spec
