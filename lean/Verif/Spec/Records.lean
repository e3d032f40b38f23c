import Verif.Model.Records
import Verif.Spec.Views
/-!
# What generators of records should do
-/

namespace CP.Spec
open CP

/-- The array object is within reach: in a pack or in hand. -/
def Known (s : Hands) (l : Nat) : Prop :=
  IsChannel s.world l ∨ IsMask s.world l ∨ ∃ r ∈ s.held, r.arr = l

/-- Sensible steps, see `Sensible`; what is handed to packs is new or within reach. -/
def SensibleG (s : GHands) : GOp → Prop
  | .hands op => SensibleH s.hands op ∧ ∀ l, Gives l op → Known s.hands l
  | .records i _ _ _ => i < s.hands.world.n
  | .next _ => True

/-- States of programs with generators. -/
inductive GPrograms (E : NpEnv) (S : Store) (ident : List Char → Bool) : GHands → Prop
  | start : GPrograms E S ident ⟨⟨World.empty, []⟩, []⟩
  | next {s : GHands} {op : GOp} : GPrograms E S ident s → SensibleG s op →
      GPrograms E S ident (s.step E S ident op).1

/-- `t` comes after `s` by sensible steps, each of them such that `P`, among them
steps `next(g)` that did `outs`. -/
inductive Run (E : NpEnv) (S : Store) (ident : List Char → Bool) (P : GHands → GOp → Prop) (g : Nat)
    (s : GHands) : List Out → GHands → Prop
  | here : Run E S ident P g s [] s
  | other {outs : List Out} {t : GHands} {op : GOp} : Run E S ident P g s outs t → SensibleG t op → P t op →
      op ≠ .next g → Run E S ident P g s outs (t.step E S ident op).1
  | turn {outs : List Out} {t : GHands} : Run E S ident P g s outs t → P t (.next g) →
      Run E S ident P g s (outs ++ [(t.step E S ident (.next g)).2]) (t.step E S ident (.next g)).1

/-- What the `k`-th `next` does, counted from 0, if the records are these. -/
def expected : Except Exc (List (List Char) × List (List Val)) → Nat → Out
  | .error e, 0 => .raised e
  | .error _, _ + 1 => .stop
  | .ok (names, rows), k =>
    match rows[k]? with
    | some row => .record names row
    | none => .stop

/-- The step makes the array object a mask. -/
def MakesMask (l : Nat) : GOp → Prop
  | .hands (.world (.act _ (.setMask s))) => Src.is l s
  | _ => False

/-- The step of client code writes to the array object. -/
def WritesG (l : Nat) (s : GHands) : GOp → Prop
  | .hands op => Writes l s.hands op
  | _ => False

/-- The arrays that pack `i` had as channels in state `t` are not written to by the step, nor made a mask
(to which the methods of packs write). -/
def Undisturbed (t : GHands) (i : Nat) (s : GHands) (op : GOp) : Prop :=
  ∀ key l, channelObj t.hands.world i key = some l → ¬ MakesMask l op ∧ ¬ WritesG l s op

end CP.Spec
