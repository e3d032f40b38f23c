import Verif.Spec.XlsSheet
/-!
# CONTINUE records that continue nothing, and code pages (C67)
-/

namespace CP.Spec

/-- A CONTINUE record in a sheet that belongs to none of the records before it: with an EOF
record in its place they would make a sheet of their own. -/
def LooseContinue (ctx : XlsCtx) (fresh : Bool) (rs : List XRec) : Prop :=
  ∃ a d b ops, rs = a ++ (0x3C, d) :: b ∧ SheetRecs false ctx fresh (a ++ [(0xA, [])]) ops

/-- A code page where texts can be put together, and no byte makes more than one character. -/
def PlainPage (text : List UInt8 → Option (List Char)) : Prop :=
  (∀ a b s t, text a = some s → text b = some t → text (a ++ b) = some (s ++ t)) ∧
    ∀ b t, text b = some t → t.length ≤ b.length

end CP.Spec
