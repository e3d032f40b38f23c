/-!
# Specification: maximal True runs and start/stop triggers

Independent of the model: only lists of booleans and indices.
-/

namespace CP.Spec

/-- `[s, t)` is a maximal run of `true` in `b`. -/
def IsRun (b : List Bool) (s t : Nat) : Prop :=
  s < t ∧ t ≤ b.length ∧
  (∀ k, s ≤ k → k < t → b[k]? = some true) ∧
  (∀ k, k + 1 = s → b[k]? = some false) ∧
  (b[t]? = none ∨ b[t]? = some false)

/-- Position `i` is in a maximal run of `true` whose length satisfies `ok`. -/
def InRunWith (ok : Nat → Prop) (b : List Bool) (i : Nat) : Prop :=
  ∃ s t, IsRun b s t ∧ s ≤ i ∧ i < t ∧ ok (t - s)

/-- The trigger is on at sample `i`: no stop at `i`, and some start at `j ≤ i`
with no stop from `j` to `i`. -/
def TriggerOn (startb stopb : List Bool) (i : Nat) : Prop :=
  ∃ j, j ≤ i ∧ startb[j]? = some true ∧
    ∀ k, j ≤ k → k ≤ i → stopb[k]? = some false

end CP.Spec
