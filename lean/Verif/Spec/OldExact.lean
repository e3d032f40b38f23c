import Verif.Spec.XlsOld
import Verif.Spec.StringExact
/-!
# CONTINUE records that continue nothing, in files of Excel 2, 3 and 4 (C81)
-/

namespace CP.Spec

/-- A CONTINUE record in a sheet that belongs to none of the records before it: with an EOF record in its place they would
make a sheet of their own. -/
def LooseOld (c : BookCtx) (v : OldVer) (s : OldInfo) (fresh : Bool) (rs : List XRec) : Prop :=
  ∃ a d b ops page mode, rs = a ++ (0x3C, d) :: b ∧ OldRecs false c v s fresh (a ++ [(0xA, [])]) ops page mode

/-- A sheet with a CONTINUE record of that kind, anywhere in the bytes. -/
def LooseSheet (c : BookCtx) (v : OldVer) (bytes : List UInt8) : Prop :=
  ∃ a version bof rs s b, bytes = a ++ (recordBytes (oldBof v, bof) ++ rs.flatMap recordBytes) ++ b ∧ BofIs version 0x10 bof ∧
    LooseOld c v s true rs

end CP.Spec
