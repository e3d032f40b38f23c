import Verif.Model.XlsNames
import Verif.Model.SheetAccess
/-!
# Model of the methods of defined names that give cells

channelpack/xlrd/book.py:216-285, `Name.cell` and `Name.area2d`, for the names of .xls books (those of xlsx books
have no `result`).  `dump`, which writes to the log before an exception, is taken to raise nothing, as all that writes to the
log is.  `sheet_by_index` (book.py:463-468) is an item of the list of sheets, which are all loaded.
-/

namespace CP

variable {ν : Type}

/-- xlrd/book.py:1232-1266: the loop over the records of the globals, as far as external references and names are concerned (no other
record does anything to them); the first number bounds the rounds. -/
def nameRecs (bv : Nat) (text : Bytes → Except Exc (List Char)) : Nat → List Rec → NameSt → Except Exc NameSt
  | 0, _, s => .ok s
  | _, [], s => .ok s
  | n + 1, r :: rest, s =>
    if r.code ∈ [0x17, 0x18, 0x23, 0x1AE] then
      match handleNames bv text s r rest with
      | .error e => .error e
      | .ok (s, k) => nameRecs bv text n (rest.drop k) s
    else nameRecs bv text n rest s

/-- xlrd/formula.py:1349-1353 with book.py:212: the `result` of the name number `j`; None if there is none. -/
def nameResult (evals : Evals ν) (j : Nat) : Option (Opnd ν) :=
  match evals.getD j none with
  | some ([x], _) => some x
  | _ => none

/-- The box of a result that is one reference: the number of the sheet (if it is of one sheet) and the others of
its coordinates.  xlrd/book.py:225-231, 262-269.  `len(None)` is a TypeError, `(4).kind` an AttributeError. -/
def oneBox (res : Option (Opnd ν)) : Except Exc (Int × Int × Int × Int × Int) :=
  match res with
  | none => .error .xlrdError
  | some .four => .error .attributeError
  | some (.opnd kind value) =>
    if kind = oRef then
      match value with
      | .refs [⟨[s1, s2, r1, r2, c1, c2], _⟩] => if 0 ≤ s1 ∧ s1 = s2 - 1 then .ok (s1, r1, r2, c1, c2) else .error .xlrdError
      | .refs _ => .error .xlrdError   -- references have six coordinates: there is not one
      | _ => .error .typeError
    else .error .xlrdError

/-- xlrd/book.py:216-242 `Name.cell` -/
def nameCell (sheets : List SheetView) (res : Option (Opnd ν)) : Except Exc CellObj :=
  match oneBox res with
  | .error e => .error e
  | .ok (s, r1, r2, c1, c2) =>
    if r1 = r2 - 1 ∧ c1 = c2 - 1 then
      match pyIndex sheets s with
      | .error e => .error e
      | .ok sh => sh.cell r1 c1
    else .error .xlrdError

/-- xlrd/book.py:244-285 `Name.area2d`; the sheet by its number. -/
def nameArea (sheets : List SheetView) (clipped : Bool) (res : Option (Opnd ν)) : Except Exc (Int × Int × Int × Int × Int) :=
  match oneBox res with
  | .error e => .error e
  | .ok (s, r1, r2, c1, c2) =>
    match pyIndex sheets s with
    | .error e => .error e
    | .ok sh =>
      if clipped = false then .ok (s, r1, r2, c1, c2)
      else
        let rlo := min r1 sh.grid.nrows
        let rhi := max rlo (min r2 sh.grid.nrows)
        let clo := min c1 sh.grid.ncols
        let chi := max clo (min c2 sh.grid.ncols)
        if 0 ≤ rlo ∧ rlo ≤ rhi ∧ rhi ≤ sh.grid.nrows ∧ 0 ≤ clo ∧ clo ≤ chi ∧ chi ≤ sh.grid.ncols then .ok (s, rlo, rhi, clo, chi)
        else .error .assertionError

end CP
