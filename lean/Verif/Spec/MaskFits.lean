import Verif.Model.Pack
/-!
# The mask fits the data
-/

namespace CP.Spec

/-- All channels have one length. -/
def OneLength (d : List (Int × Arr)) : Prop :=
  ∀ k k' a a', dget d k = some a → dget d k' = some a' → a.els.length = a'.els.length

/-- The mask is one of bools, as long as all channels. -/
def FitsAll (d : List (Int × Arr)) (m : Mask) : Prop :=
  (∀ k a, dget d k = some a → a.els.length = m.bits.length) ∧ (d ≠ [] → m.isBool = true)

/-- What an operation on a pack (`p` before it, `d` the data and `raised` if it raised afterwards) must be for the
mask to go on fitting: a mask fits the data, arrays set one by one or in a NpDict fit the mask, new data has one
length; an append raises before there is any change, or the other pack has one length. -/
def OpFits (p : Pack) (d : List (Int × Arr)) (raised : Bool) : Op → Prop
  | .setMask m => FitsAll p.data m
  | .setData new => OneLength new
  | .setDataNp new => FitsAll new p.mask
  | .dataItem _ a => a.els.length = p.mask.bits.length ∧ p.mask.isBool = true
  | .appendPack o => if raised then FitsAll d p.mask else OneLength o.data
  | _ => True

end CP.Spec
