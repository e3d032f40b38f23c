import Verif.Spec.Biff
import Verif.Model.XlsSheet
/-!
# Specification: texts of formulas in parts (C67)
-/

namespace CP.Spec

/-- A part of a text in BIFF 8: a byte with the option, and the code units. -/
def PartSays (b : Bytes) (s : List Char) : Prop := ∃ o units, b = o :: units ∧ UnitBytes (Wide o) (textUnits s) units

/-- A text of this many characters begins with this part; CONTINUE records have the others, each of which begins while
characters are missing.  With the number of these records. -/
inductive TextParts (says : Bytes → List Char → Prop) : Nat → Bytes → List Rec → List Char → Nat → Prop
  | last {b s after} : says b s → TextParts says s.length b after s 0
  | over {b s n r after t k} : says b s → 0 < n → r.code = 0x3C → TextParts says n r.data after t k →
      TextParts says (s.length + n) b (r :: after) (s ++ t) (k + 1)

end CP.Spec
