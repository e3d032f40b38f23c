import Verif.Spec.SheetFile
import Verif.Spec.XlsObjects
import Verif.Spec.XlsNames
import Verif.Spec.XlsxNames
import Verif.Spec.XlsOld
/-!
# Specification: spread sheet files with all that may be in them
-/

namespace CP.Spec

/-- An xls book of this version: with the codecs, the countries, objects, notes and hyperlinks, and names with formulas of
these functions. -/
def fullCtx (whole v8 : Bool) (rnd : Rat → Rat) (codec : List Char → List UInt8 → Option (List Char)) (country : Nat × Nat)
    (funcs : Nat → Option (Nat × Nat)) : BookCtx where
  v8 := v8
  rnd := rnd
  codec := codec
  country := country
  object := fun tx => ObjectGroup whole v8 tx
  names := fun g => ∃ d, NameGroupIs v8 g d
  named := NameGroupsAre whole v8 funcs

/-- A spread sheet file, xlsx or xls, with names, notes, comments, links, objects and properties; or an xls file of
Excel 2, 3 or 4 (with whatever after it). -/
def FullFileIs (whole : Bool) (E : XlEnv) (zip : Bytes → Except Exc Zip) (rnd : Rat → Rat) (codec : List Char → List UInt8 → Option (List Char))
    (funcs : Nat → Option (Nat × Nat)) (height : Nat) (file : Bytes) (mode : Nat) (sheets : List (List Char × List CellOp)) : Prop :=
  (∃ v8 country, SheetFileIs whole (withNames E) zip (fullCtx whole v8 rnd codec country funcs) height file mode sheets) ∨
    ∃ country book after, file = book ++ after ∧ OldFileIs whole (fullCtx whole false rnd codec country funcs) book mode sheets

end CP.Spec
