import Verif.Model.XlsBook
import Verif.Model.CompDoc
/-!
# Model of `open_workbook_xls`, channelpack/xlrd/book.py: from the bytes of a file

As in `CompDoc`, a result of none means that a loop along a chain of sectors is not done
within the given number of rounds.
-/

namespace CP

variable {σ τ : Type}

/-- xlrd/book.py:658-665: the first of these streams that is there and not empty; its data and
the offset in it.  The marks of the sectors go on from one to the next. -/
def findBook (low : List Char → List Char) (cd : CompDoc) (fuel : Nat) : List (List Char) → Option (Except Exc (Bytes × Nat))
  | [] => some (.error .xlrdError)
  | qname :: rest =>
    match cd.locateNamedStream low fuel qname with
    | none => none
    | some (_, .error e) => some (.error e)
    | some (seen, .ok none) => findBook low { cd with seen := seen } fuel rest
    | some (seen, .ok (some l)) =>
      if l.data = [] then findBook low { cd with seen := seen } fuel rest else some (.ok (l.data, l.offset))

/-- xlrd/book.py:658 -/
def bookNames : List (List Char) := ["Workbook".toList, "Book".toList]

/-- xlrd/book.py:616-678 `biff2_8_load` with the content of the file: `mem` and `base`.  `low` is
`str.lower`, `depth` the depth of calls that Python allows. -/
def loadXls (low : List Char → List Char) (depth fuel : Nat) (file : Bytes) : Option (Except Exc (Bytes × Nat)) :=
  if file = [] then some (.error .xlrdError)
  else if pySlice file 0 8 ≠ oleSignature then some (.ok (file, 0))
  else match CompDoc.init utf16le depth fuel file false with
    | none => none
    | some (.error e) => some (.error e)
    | some (.ok cd) => findBook low cd fuel bookNames

/-- xlrd/book.py:70-139 `open_workbook_xls`: the date mode and the sheets. -/
def openXls (E : BookEnv σ τ) (low : List Char → List Char) (depth fuel : Nat) (ragged : Bool) (file : Bytes) :
    Option (Except Exc (Nat × List BookSheet)) :=
  match loadXls low depth fuel file with
  | none => none
  | some (.error e) => some (.error e)
  | some (.ok (mem, base)) => some (openStream E ragged mem base)

end CP
