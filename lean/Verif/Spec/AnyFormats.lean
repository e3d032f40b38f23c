import Verif.Spec.XlsFile

/-!
# Specification: xls files with formats in any place
-/

namespace CP.Spec

/-- An xls file with this stream of the book: nothing else, or a compound document with it. -/
def HoldsStream (low : List Char → List Char) (height : Nat) (file stream : List UInt8) : Prop :=
  file = stream ∨ ∃ utf16 D, DecodesUtf16 utf16 ∧ DocIs utf16 height file D ∧ NamesDiffer low D.dir ∧ BookStream low file D stream

/-- An xls file with formats in any place, as in `AnyFormatsBook`. -/
def AnyFormatsFile (c : BookCtx) (low : List Char → List Char) (height : Nat) (file : List UInt8) (items : List GItem)
    (sheets : List (List Char × List CellOp)) (types : List GItem → Nat → Nat → Prop) : Prop :=
  ∃ stream, HoldsStream low height file stream ∧ AnyFormatsBook c stream items sheets types

end CP.Spec
