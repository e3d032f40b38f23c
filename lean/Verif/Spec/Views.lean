import Verif.Model.Views
import Verif.Spec.World
import Verif.Spec.Runs
/-!
# What becomes of arrays that a pack hands out
-/

namespace CP.Spec
open CP

/-- Sensible steps, see `Sensible`. -/
def SensibleH (s : Hands) : HOp → Prop
  | .world op => Sensible s.world op
  | .call i _ _ _ => i < s.world.n
  | .maskOf i => i < s.world.n
  | _ => True

/-- States of programs that also write to arrays they got from packs. -/
inductive HPrograms (E : NpEnv) (S : Store) : Hands → Prop
  | start : HPrograms E S ⟨World.empty, []⟩
  | next {s : Hands} {op : HOp} : HPrograms E S s → SensibleH s op → HPrograms E S (s.step E S op).1

/-- `t` comes after `s` by sensible steps, each of them such that `P`. -/
inductive Later (E : NpEnv) (S : Store) (P : Hands → HOp → Prop) (s : Hands) : Hands → Prop
  | here : Later E S P s s
  | next {t : Hands} {op : HOp} : Later E S P s t → SensibleH t op → P t op →
      Later E S P s (t.step E S op).1

/-- The value that is handed over is this array object. -/
def Src.is (l : Nat) : Src → Prop
  | .new _ => False
  | .old l' => l' = l

/-- The step makes the array object a channel or the mask of a pack. -/
def Gives (l : Nat) : HOp → Prop
  | .world (.make d _) => ∃ p ∈ d, Src.is l p.2
  | .world (.act _ (.setMask s)) => Src.is l s
  | .world (.act _ (.setData d)) => ∃ p ∈ d, Src.is l p.2
  | .world (.act _ (.setDataNp d)) => ∃ p ∈ d, Src.is l p.2
  | .world (.act _ (.dataItem _ s)) => Src.is l s
  | _ => False

/-- The step writes to an array in hand that shares the memory of the array object. -/
def Writes (l : Nat) (s : Hands) : HOp → Prop
  | .write k _ _ => ∃ r, s.held[k]? = some r ∧ r.arr = l
  | _ => False

/-- The call is one for data as masked: by `nan` or `filter`, from the argument or else the
attribute. -/
def Masking (p : Pack) (part : Option Int) (nof : Option String) : Prop :=
  part = none ∧ (nof = some "nan" ∨ nof = some "filter" ∨
    (nof ≠ some "ignore" ∧ (p.nof = some "nan" ∨ p.nof = some "filter")))

/-- The array object that is channel `key` of pack `i`. -/
def channelObj (w : World) (i : Nat) (key : Int) : Option Nat := dget (w.heap.dicts (w.packs i).data) key

/-- The array in hand number `k` and what it holds. -/
def Hands.holds (s : Hands) (k : Nat) : Option Arr := (s.held[k]?).map (Win.read s.world.heap)

/-- Parts and mindur are right for the mask, as C09 and C10 say. -/
structure InTune (p : Pack) : Prop where
  parts : ∃ runs : List (Nat × Nat), (∀ s t, (s, t) ∈ runs ↔ IsRun p.mask.bits s t) ∧
    runs.Pairwise (fun x y => x.2 < y.1) ∧ p.parts = List.range runs.length ∧
    ∀ (ch : Ch) (a : Arr) (nof : Option String), p.call ch none (some "ignore") = .ok a →
      ∀ (i s t : Nat), runs[i]? = some (s, t) →
        p.call ch (some (i : Int)) nof = .ok ⟨a.kind, (a.els.drop s).take (t - s)⟩
  mindur : ∀ m, p.mindur = some m → ∀ s t, IsRun p.mask.bits s t → m ≤ (t : Int) - s

/-- The step writes to the mask of a pack. -/
def WritesMask (s : Hands) (op : HOp) : Prop := ∃ i, i < s.world.n ∧ Writes (s.world.packs i).mask s op

end CP.Spec
