import Verif.Model.XlsBook
/-!
# Specification: COUNTRY records of sheets
-/

namespace CP.Spec

/-- COUNTRY records that say something. -/
def CountriesSay (recs : List Rec) : Prop := ∀ r ∈ recs, r.code = 0x8C → (field2 r.data 0, field2 r.data 2) ≠ (0, 0)

/-- The COUNTRY records of the sheet at this position say something. -/
def SheetSays (mem : Bytes) (pos : Int) : Prop := ∀ v p, getbof mem pos 0x10 = .ok (v, p) → CountriesSay (recordsAt mem p)

end CP.Spec
