import Verif.Model.World
/-!
# What several packs should do: each like a value of its own
-/

namespace CP.Spec
open CP

/-- What a pack is, seen from outside: everything its objects hold now. -/
def view (h : Heap) (o : PObj) : Pack :=
  { pre := o.pre, data := (h.dicts o.data).map fun p => (p.1, h.arrs p.2), names := h.tabs o.names,
    fn := o.fn, filenames := o.filenames, nof := o.nof, mindur := o.mindur,
    mask := (h.arrs o.mask).toMask, cached := o.cached }

/-- What pack `i` is. -/
def World.view (w : World) (i : Nat) : Pack := Spec.view w.heap (w.packs i)

/-- What is handed over. -/
def srcValue (h : Heap) : Src → Arr
  | .new a => a
  | .old l => h.arrs l

/-- The action as an operation on values: other packs and existing arrays count
for what they are now. -/
def meaning (w : World) : Act → Op
  | .setMask s => .setMask (srcValue w.heap s).toMask
  | .setMaskBad => .setMaskBad
  | .setMindur m => .setMindur m
  | .setMindurBad => .setMindurBad
  | .setNof v => .setNof v
  | .setData d => .setData (dictOf (d.map fun p => (p.1, srcValue w.heap p.2)))
  | .setDataBad e => .setDataBad e
  | .setDataNp d => .setDataNp (dictOf (d.map fun p => (p.1, srcValue w.heap p.2)))
  | .setNames n => .setNames (dictOf n)
  | .setFn s => .setFn s
  | .setFnBad => .setFnBad
  | .setPrefix s => .setPrefix s
  | .setPrefixBad => .setPrefixBad
  | .dataItem k s => .dataItem k (srcValue w.heap s)
  | .dataDel k => .dataDel k
  | .nameItem k v => .nameItem k v
  | .maskReset => .maskReset
  | .duration q m => .duration q m
  | .startstop a b apply => .startstop a b apply
  | .append j => .appendPack (World.view w j)
  | .shareData j => .setDataNp (World.view w j).data
  | .shareNames j => .setNames (World.view w j).names

/-- The array is in use as the mask of a pack. -/
def IsMask (w : World) (l : Nat) : Prop := ∃ i, i < w.n ∧ (w.packs i).mask = l

/-- The array is a channel in some data dict. -/
def IsChannel (w : World) (l : Nat) : Prop :=
  ∃ d, d < w.heap.nDicts ∧ ∃ k, (k, l) ∈ w.heap.dicts d

/-- An array as a channel: a new one, or an existing one that is not the mask of a
pack. -/
def ChannelSrc (w : World) : Src → Prop
  | .new _ => True
  | .old l => l < w.heap.nArrs ∧ ¬ IsMask w l

/-- An array as the mask of pack `i`: a new one, or an existing one that no other
pack has. -/
def MaskSrc (w : World) (i : Nat) : Src → Prop
  | .new _ => True
  | .old l => l < w.heap.nArrs ∧ (∀ j, j < w.n → j ≠ i → (w.packs j).mask ≠ l) ∧ ¬ IsChannel w l

/-- Sensible actions: packs named exist, the array of a mask is not used for
anything else. -/
def Sensible (w : World) : WOp → Prop
  | .make data _ => ∀ p ∈ data, ChannelSrc w p.2
  | .act i a => i < w.n ∧ match a with
    | .setMask s => MaskSrc w i s
    | .setData d => ∀ p ∈ d, ChannelSrc w p.2
    | .setDataNp d => ∀ p ∈ d, ChannelSrc w p.2
    | .dataItem _ s => ChannelSrc w s
    | .append j => j < w.n
    | .shareData j => j < w.n
    | .shareNames j => j < w.n
    | _ => True

/-- Actions that do not make two packs share a dict: no `p.data = q.data` and the
like, and appending only into packs with data and names. -/
def NotSharing (w : World) : WOp → Prop
  | .act i (.append j) => i = j ∨ ((World.view w i).data ≠ [] ∧ (World.view w i).names ≠ [])
  | .act i (.shareData j) => i = j
  | .act i (.shareNames j) => i = j
  | _ => True

/-- Nothing yet. -/
def World.empty : World :=
  ⟨⟨fun _ => ⟨.f, []⟩, 0, fun _ => [], 0, fun _ => [], 0⟩,
   fun _ => ⟨[], 0, 0, [], [], none, none, 0, []⟩, 0⟩

/-- States of programs with sensible actions. -/
inductive Programs (E : NpEnv) : World → Prop
  | start : Programs E World.empty
  | next {w : World} {op : WOp} : Programs E w → Sensible w op → Programs E (w.step E op).1

/-- States of programs with sensible actions that do not share. -/
inductive Separate (E : NpEnv) : World → Prop
  | start : Separate E World.empty
  | next {w : World} {op : WOp} : Separate E w → Sensible w op → NotSharing w op →
      Separate E (w.step E op).1

end CP.Spec
