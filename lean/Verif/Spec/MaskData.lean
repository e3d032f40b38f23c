import Verif.Spec.World
/-!
# MaskStep should leave the data alone
-/

namespace CP.Spec
open CP

/-- Actions that are about the mask of a pack. -/
def MaskStep : Act → Prop
  | .setMask _ | .setMindur _ | .duration _ _ | .startstop _ _ _ | .maskReset => True
  | _ => False

/-- The arrays handed over and the packs named are there. -/
def There (w : World) : WOp → Prop
  | .make data _ => ∀ p ∈ data, SrcThere p.2
  | .act i a => i < w.n ∧ match a with
    | .setMask s => SrcThere s
    | .setData d | .setDataNp d => ∀ p ∈ d, SrcThere p.2
    | .dataItem _ s => SrcThere s
    | .append j | .shareData j | .shareNames j => j < w.n
    | _ => True
where SrcThere : Src → Prop
  | .new _ => True
  | .old l => l < w.heap.nArrs

/-- States of all programs. -/
inductive AllPrograms (E : NpEnv) : World → Prop
  | start : AllPrograms E World.empty
  | next {w : World} {op : WOp} : AllPrograms E w → There w op → AllPrograms E (w.step E op).1

end CP.Spec
