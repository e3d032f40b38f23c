import Verif.Spec.XlsBook
import Verif.Spec.CompFile
/-!
# Specification: xls files

Written from the file formats, not from the code.
-/

namespace CP.Spec

/-- A decoder of UTF-16, low byte first. -/
def DecodesUtf16 (utf16 : List UInt8 → Except Exc (List Char)) : Prop :=
  ∀ b t, utf16 b = .ok t ↔ b = (textUnits t).flatMap (leBytes 2)

/-- There is nothing of this name at the top of the directory. -/
def NoEntry (low : List Char → List Char) (D : Doc) (name : List Char) : Prop :=
  ∀ c d, Kid D.dir 0 c → D.dir[c]? = some d → low d.name ≠ low name

/-- The stream of the book: Workbook, or Book if there is no Workbook. -/
def BookStream (low : List Char → List Char) (file : List UInt8) (D : Doc) (stream : List UInt8) : Prop :=
  StreamIs low file D ["Workbook".toList] stream ∨
    NoEntry low D "Workbook".toList ∧ StreamIs low file D ["Book".toList] stream

/-- An xls file: nothing but the stream of the book, or a compound document with it. -/
def XlsFileIs (whole : Bool) (c : BookCtx) (low : List Char → List Char) (height : Nat) (file : List UInt8) (mode : Nat)
    (sheets : List (List Char × List CellOp)) : Prop :=
  XlsBookIs whole c file mode sheets ∨
  ∃ utf16 D stream, DecodesUtf16 utf16 ∧ DocIs utf16 height file D ∧ NamesDiffer low D.dir ∧ BookStream low file D stream ∧
    XlsBookIs whole c stream mode sheets

end CP.Spec
