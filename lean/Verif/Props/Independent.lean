import Verif.Props.World

/-!
# C14: exactly which packs are independent
-/

namespace CP
open Spec

/-- Pack `j` is left alone by whatever is done next to pack `i`. -/
def LeftAlone (E : NpEnv) (w : World) (i j : Nat) : Prop :=
  ∀ a, Sensible w (.act i a) → World.view (w.step E (.act i a)).1 j = World.view w j

/-- In every state that a program can reach, a pack is left alone by whatever is done to
another one exactly if they have neither the data nor the names dict in common. -/
theorem C14_exact (E : NpEnv) (w : World) (hw : Programs E w) (i j : Nat) (hi : i < w.n) (hj : j < w.n) (hne : j ≠ i) :
    LeftAlone E w i j ↔ (w.packs j).data ≠ (w.packs i).data ∧ (w.packs j).names ≠ (w.packs i).names := by
  constructor
  · intro h
    refine ⟨fun hd => ?_, fun hd => ?_⟩
    · have key : ∀ a : Arr, dget (World.view w j).data 0 = some a := by
        intro a
        rw [← h (.dataItem 0 (.new a)) ⟨hi, trivial⟩]
        show dget ((updAt w.heap.dicts (w.packs i).data (dset (w.heap.dicts (w.packs i).data) 0 w.heap.nArrs)
          (updAt w.packs i (w.packs i) j).data).map fun p => (p.1, updAt w.heap.arrs w.heap.nArrs a p.2)) 0 = some a
        rw [updAt_ne _ _ hne, hd, updAt_same]
        rw [dget_map, dget_dset_same]
        simp [updAt]
      have h1 := key ⟨.i, []⟩
      rw [key ⟨.i, [.none]⟩] at h1
      cases h1
    · have key : ∀ v : Val, dget (World.view w j).names 0 = some v := by
        intro v
        rw [← h (.nameItem 0 v) ⟨hi, trivial⟩]
        show dget (updAt w.heap.tabs (w.packs i).names (dset (w.heap.tabs (w.packs i).names) 0 v)
          (updAt w.packs i (w.packs i) j).names) 0 = some v
        rw [updAt_ne _ _ hne, hd, updAt_same, dget_dset_same]
      have h1 := key .none
      rw [key (.int 0)] at h1
      cases h1
  · rintro ⟨h1, h2⟩ a hs
    obtain ⟨⟨d, n, h3⟩, h4, h5⟩ := C14_others E w i a hw hs j hj hne
    have h4 := h4 h1
    have h5 := h5 h2
    rw [h3] at h4 h5 ⊢
    dsimp only at h4 h5
    rw [h4, h5]

/-- The hypotheses can be met, and both sides occur: the packs `total` and `a` share their data
after the append, `total` and `b` do not. -/
example : ¬ LeftAlone exEnv (runWorld exEnv World.empty exGather) 0 1 ∧
    LeftAlone exEnv (runWorld exEnv World.empty exGather) 0 2 := by
  refine ⟨?_, ?_⟩
  · rw [C14_exact exEnv _ (exGather_programs exEnv) 0 1 (by show 0 < 3; omega) (by show 1 < 3; omega) (by omega)]
    exact fun h => h.1 (by decide +kernel)
  · rw [C14_exact exEnv _ (exGather_programs exEnv) 0 2 (by show 0 < 3; omega) (by show 2 < 3; omega) (by omega)]
    exact ⟨by decide +kernel, by decide +kernel⟩

end CP
