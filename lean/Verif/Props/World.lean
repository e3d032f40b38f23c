import Verif.Lemmas.World
import Verif.Props.Pack
/-!
# C14: packs are independent

As stated it is false: `append_pack` into a pack without data makes both packs
hold the same dict, and the next append shows in both.
-/

namespace CP
open Spec

/-- An action on pack `i` does to it what the operation does to a value, whatever
the packs share. -/
theorem C14_receiver (E : NpEnv) (w : World) (i : Nat) (a : Act) (hw : Programs E w)
    (hs : Sensible w (.act i a)) :
    (World.view (w.step E (.act i a)).1 i, (w.step E (.act i a)).2) =
      (World.view w i).step E (meaning w a) := by
  obtain ⟨h', o', e, h1, h2, -⟩ := act_step (E := E) (programs_inv hw) hs
  rw [h1]
  have := h2.view
  unfold World.view
  dsimp only
  rw [updAt_same]
  exact this

/-- An action on pack `i` leaves the mask and the attributes of the other packs
alone; their data and names too, unless they are the same dict objects. -/
theorem C14_others (E : NpEnv) (w : World) (i : Nat) (a : Act) (hw : Programs E w)
    (hs : Sensible w (.act i a)) (j : Nat) (hj : j < w.n) (hne : j ≠ i) :
    (∃ d n, World.view (w.step E (.act i a)).1 j = { World.view w j with data := d, names := n }) ∧
    ((w.packs j).data ≠ (w.packs i).data →
      (World.view (w.step E (.act i a)).1 j).data = (World.view w j).data) ∧
    ((w.packs j).names ≠ (w.packs i).names →
      (World.view (w.step E (.act i a)).1 j).names = (World.view w j).names) := by
  obtain ⟨h', o', e, h1, h2, -⟩ := act_step (E := E) (programs_inv hw) hs
  obtain ⟨k1, k2, k3⟩ := h2.keeps.view (programs_inv hw) hj hne
  have e1 : World.view (w.step E (.act i a)).1 j = Spec.view h' (w.packs j) := by
    rw [h1]; unfold World.view; dsimp only; rw [updAt_ne _ _ hne]
  rw [e1]
  exact ⟨⟨_, _, k1⟩, k2, k3⟩

/-- A new pack leaves all others alone, and is what its arguments say. -/
theorem C14_new (E : NpEnv) (w : World) (d : List (Int × Src)) (n : List (Int × Val))
    (hw : Programs E w) (hs : Sensible w (.make d n)) :
    (∀ j, j < w.n → World.view (w.step E (.make d n)).1 j = World.view w j) ∧
    World.view (w.step E (.make d n)).1 w.n =
      Pack.init (dictOf (d.map fun p => (p.1, srcValue w.heap p.2))) (dictOf n) := by
  obtain ⟨h', o', h1, h2, h3, -⟩ := make_step (E := E) (programs_inv hw) hs
  rw [h1]
  refine ⟨?_, ?_⟩
  · intro j hj
    have hp := (programs_inv hw).pack hj
    unfold World.view
    dsimp only
    rw [updAt_ne _ _ (by omega)]
    exact view_keeps h2 hp.data hp.names hp.mask
      (fun p hpm => ⟨(hp.arr _ hp.data p hpm).1, fun h => h⟩) (fun h => h) (fun h => h) (fun h => h)
  · unfold World.view
    dsimp only
    rw [updAt_same]
    exact h3

/-- Two packs get to share a dict in these ways only: by appending to a pack where
it is empty, or by assigning the dict of one to the other. -/
theorem C14_sharing (E : NpEnv) (w : World) (i : Nat) (a : Act) (hw : Programs E w)
    (hs : Sensible w (.act i a)) (j : Nat) (hj : j < w.n) (hne : j ≠ i) :
    (((w.step E (.act i a)).1.packs j).data = ((w.step E (.act i a)).1.packs i).data →
      (w.packs j).data = (w.packs i).data ∨
      ∃ k, (w.packs k).data = (w.packs j).data ∧
        ((a = .append k ∧ (World.view w i).data = []) ∨ a = .shareData k)) ∧
    (((w.step E (.act i a)).1.packs j).names = ((w.step E (.act i a)).1.packs i).names →
      (w.packs j).names = (w.packs i).names ∨
      ∃ k, (w.packs k).names = (w.packs j).names ∧
        ((a = .append k ∧ (World.view w i).names = []) ∨ a = .shareNames k)) := by
  have hi := programs_inv hw
  obtain ⟨h', o', e, h1, h2, -⟩ := act_step (E := E) hi hs
  rw [h1]
  dsimp only
  rw [updAt_same, updAt_ne _ _ hne]
  refine ⟨?_, ?_⟩
  · intro he
    rcases h2.data with g | g | ⟨k, g1, g2⟩
    · left; rw [he, g]
    · have := hi.data j hj; omega
    · right
      refine ⟨k, by rw [he, g1], ?_⟩
      rcases g2 with ⟨g2, g3⟩ | g2
      · exact .inl ⟨g2, by unfold World.view; exact dataView_nil.2 g3⟩
      · exact .inr g2
  · intro he
    rcases h2.names with g | g | ⟨k, g1, g2⟩
    · left; rw [he, g]
    · have := hi.names j hj; omega
    · right
      exact ⟨k, by rw [he, g1], g2⟩

/-- Whatever the packs share, every pack has the parts of its own mask, and the
mask satisfies `mindur`. -/
theorem C14_masks (E : NpEnv) (w : World) (hw : Programs E w) (i : Nat) (hi : i < w.n) :
    Inv (World.view w i) := by
  induction hw generalizing i with
  | start => exact absurd hi (Nat.not_lt_zero _)
  | @next w op hw hs ih =>
    cases op with
    | make d n =>
      obtain ⟨h1, h2⟩ := C14_new E w d n hw hs
      have hn : i < w.n + 1 := by
        obtain ⟨h', o', h3, -⟩ := make_step (E := E) (programs_inv hw) hs
        rw [h3] at hi; exact hi
      by_cases e : i = w.n
      · rw [e, h2]; exact inv_init _ _
      · rw [h1 i (by omega)]; exact ih i (by omega)
    | act k a =>
      have hn : i < w.n := by
        obtain ⟨h', o', e, h3, -⟩ := act_step (E := E) (programs_inv hw) hs
        rw [h3] at hi; exact hi
      by_cases e : i = k
      · subst e
        have := C14_receiver E w i a hw hs
        have e : World.view (w.step E (.act i a)).1 i = ((World.view w i).step E (meaning w a)).1 :=
          congrArg Prod.fst this
        rw [e]
        exact inv_step E (ih i hn) _
      · obtain ⟨⟨d, n, h1⟩, -⟩ := C14_others E w k a hw hs i hn e
        rw [h1]
        have := ih i hn
        exact ⟨this.cache, this.dur⟩

/-- No two packs share a dict. -/
def Apart (w : World) : Prop :=
  ∀ i j, i < w.n → j < w.n → i ≠ j →
    (w.packs i).data ≠ (w.packs j).data ∧ (w.packs i).names ≠ (w.packs j).names

theorem apart_step {E : NpEnv} {w : World} {op : WOp} (hw : Programs E w) (ha : Apart w)
    (hs : Sensible w op) (hn : NotSharing w op) : Apart (w.step E op).1 := by
  have hi := programs_inv hw
  cases op with
  | make d n =>
    obtain ⟨h', o', h1, h2, h3, h4, h5, -⟩ := make_step (E := E) hi hs
    rw [h1]
    intro i j hi' hj' hne
    dsimp only at hi' hj' ⊢
    by_cases e1 : i = w.n
    · have e2 : j ≠ w.n := by omega
      have := hi.data j (by omega)
      have := hi.names j (by omega)
      rw [e1, updAt_same, updAt_ne _ _ e2, h4, h5]
      omega
    · by_cases e2 : j = w.n
      · have := hi.data i (by omega)
        have := hi.names i (by omega)
        rw [e2, updAt_same, updAt_ne _ _ e1, h4, h5]
        omega
      · rw [updAt_ne _ _ e1, updAt_ne _ _ e2]
        exact ha i j (by omega) (by omega) hne
  | act k a =>
    have key : ∀ j, j < w.n → j ≠ k →
        ((w.step E (.act k a)).1.packs j).data ≠ ((w.step E (.act k a)).1.packs k).data ∧
        ((w.step E (.act k a)).1.packs j).names ≠ ((w.step E (.act k a)).1.packs k).names := by
      intro j hj hne
      obtain ⟨h1, h2⟩ := C14_sharing E w k a hw hs j hj hne
      refine ⟨?_, ?_⟩
      · intro he
        rcases h1 he with g | ⟨k', g1, g2⟩
        · exact (ha j k hj hs.1 hne).1 g
        · have hk' : k' < w.n ∧ k' = k := by
            rcases g2 with ⟨g2, g3⟩ | g2
            · subst g2
              refine ⟨hs.2, ?_⟩
              rcases hn with hn | hn
              · exact hn.symm
              · exact absurd g3 hn.1
            · subst g2; exact ⟨hs.2, hn.symm⟩
          rw [hk'.2] at g1
          exact (ha j k hj hs.1 hne).1 g1.symm
      · intro he
        rcases h2 he with g | ⟨k', g1, g2⟩
        · exact (ha j k hj hs.1 hne).2 g
        · have hk' : k' < w.n ∧ k' = k := by
            rcases g2 with ⟨g2, g3⟩ | g2
            · subst g2
              refine ⟨hs.2, ?_⟩
              rcases hn with hn | hn
              · exact hn.symm
              · exact absurd g3 hn.2
            · subst g2; exact ⟨hs.2, hn.symm⟩
          rw [hk'.2] at g1
          exact (ha j k hj hs.1 hne).2 g1.symm
    obtain ⟨h', o', e, h1, -⟩ := act_step (E := E) hi hs
    rw [h1] at key ⊢
    intro i j hi' hj' hne
    dsimp only at hi' hj' key ⊢
    by_cases e1 : i = k
    · subst e1
      have := key j hj' (Ne.symm hne)
      exact ⟨this.1.symm, this.2.symm⟩
    · by_cases e2 : j = k
      · subst e2; exact key i hi' e1
      · rw [updAt_ne _ _ e1, updAt_ne _ _ e2]
        exact ha i j hi' hj' hne

theorem separate_apart {E : NpEnv} {w : World} (h : Separate E w) : Apart w := by
  induction h with
  | start => exact fun i _ hi => absurd hi (Nat.not_lt_zero _)
  | next h hs hn ih => exact apart_step (separate_programs h) ih hs hn

/-- As long as no pack is appended to a pack without data or names, and no dict
assigned from one pack to another, packs are independent: a step changes the pack
it is about, as an operation on a value, and no other.

The full property would have no hypothesis `NotSharing`. -/
theorem C14_independent_partial (E : NpEnv) (w : World) (op : WOp) (hw : Separate E w)
    (hs : Sensible w op) :
    (∀ j, j < w.n → (∀ a, op ≠ .act j a) → World.view (w.step E op).1 j = World.view w j) ∧
    (∀ i a, op = .act i a →
      (World.view (w.step E op).1 i, (w.step E op).2) = (World.view w i).step E (meaning w a)) := by
  have hp := separate_programs hw
  refine ⟨?_, ?_⟩
  · intro j hj hno
    cases op with
    | make d n => exact (C14_new E w d n hp hs).1 j hj
    | act i a =>
      have hne : j ≠ i := by rintro rfl; exact hno a rfl
      obtain ⟨⟨d, n, h1⟩, h2, h3⟩ := C14_others E w i a hp hs j hj hne
      have ha := separate_apart hw j i hj hs.1 hne
      have h2 := h2 ha.1
      have h3 := h3 ha.2
      rw [h1] at h2 h3 ⊢
      dsimp only at h2 h3
      rw [h2, h3]
  · rintro i a rfl
    exact C14_receiver E w i a hp hs

/-- What is proved about packs on their own holds for the packs of such a program. -/
theorem C14_reachable (E : NpEnv) (w : World) (hw : Separate E w) (i : Nat) (hi : i < w.n) :
    Reachable E (World.view w i) := by
  induction hw generalizing i with
  | start => exact absurd hi (Nat.not_lt_zero _)
  | @next w op hw hs hn ih =>
    have hp := separate_programs hw
    cases op with
    | make d n =>
      have hn : i < w.n + 1 := by
        obtain ⟨h', o', h3, -⟩ := make_step (E := E) (programs_inv hp) hs
        rw [h3] at hi; exact hi
      obtain ⟨h1, h2⟩ := C14_new E w d n hp hs
      by_cases e : i = w.n
      · rw [e, h2]; exact Reachable.init _ _ _
      · rw [h1 i (by omega)]; exact ih i (by omega)
    | act k a =>
      have hn' : i < w.n := by
        obtain ⟨h', o', e, h3, -⟩ := act_step (E := E) (programs_inv hp) hs
        rw [h3] at hi; exact hi
      obtain ⟨h1, h2⟩ := C14_independent_partial E w (.act k a) hw hs
      by_cases e : i = k
      · subst e
        obtain ⟨d, n, ops, ho⟩ := ih i hn'
        refine ⟨d, n, ops ++ [meaning w a], ?_⟩
        have e : World.view (w.step E (.act i a)).1 i = ((World.view w i).step E (meaning w a)).1 :=
          congrArg Prod.fst (h2 i a rfl)
        rw [e, ho]
        simp [Pack.run, List.foldl_append]
      · rw [h1 i hn' (fun a' h => e (by injection h with h _; exact h.symm))]
        exact ih i hn'

/-! ### The counterexamples -/

/-- Steps one after the other. -/
def runWorld (E : NpEnv) (w : World) (ops : List WOp) : World :=
  ops.foldl (fun w op => (w.step E op).1) w

/-- `total = ChannelPack(); a = ChannelPack({0: [1, 2]}); b = ChannelPack({0: [3]});
total.append_pack(a)` -/
def exGather : List WOp :=
  [.make [] [], .make [(0, .new ⟨.i, [.int 1, .int 2]⟩)] [], .make [(0, .new ⟨.i, [.int 3]⟩)] [],
   .act 0 (.append 1)]

theorem exGather_programs (E : NpEnv) : Programs E (runWorld E World.empty exGather) := by
  refine .next (.next (.next (.next .start ?_) ?_) ?_) ?_
  · intro p hp; simp at hp
  · intro p hp; simp at hp; rw [hp]; trivial
  · intro p hp; simp at hp; rw [hp]; trivial
  · exact ⟨by show 0 < 3; omega, by show 1 < 3; omega⟩

/-- Gathering packs in an empty one: `total.append_pack(b)` changes the pack `a`
that was appended before.  Its data grow, its mask does not, and getting at the
data with the mask raises IndexError. -/
theorem C14_counterexample :
    ∃ w : World, Programs exEnv w ∧ Sensible w (.act 0 (.append 2)) ∧
      (World.view w 1).call (.int 0) none (some "filter") = .ok ⟨.i, [.int 1, .int 2]⟩ ∧
      (World.view (w.step exEnv (.act 0 (.append 2))).1 1).call (.int 0) none none =
        .ok ⟨.i, [.int 1, .int 2, .int 3]⟩ ∧
      (World.view (w.step exEnv (.act 0 (.append 2))).1 1).call (.int 0) none (some "filter") =
        .error .indexError :=
  ⟨runWorld exEnv World.empty exGather, exGather_programs exEnv,
    ⟨by show 0 < 3; omega, by show 2 < 3; omega⟩, by decide +kernel, by decide +kernel, by decide +kernel⟩

/-- Two packs, the second given the mask of the first (array 1) by
`q.mask = p.mask`. -/
def exMask : List WOp :=
  [.make [(0, .new ⟨.i, [.int 1, .int 2]⟩)] [], .make [(0, .new ⟨.i, [.int 3, .int 4]⟩)] [],
   .act 1 (.setMask (.old 1))]

/-- A mask given to two packs (this is not `Sensible`): `p.duration(3)` falsifies it
for both, but the other one still believes in its part. -/
theorem C14_mask_counterexample :
    ((runWorld exEnv World.empty exMask).packs 0).mask = 1 ∧
    (World.view ((runWorld exEnv World.empty exMask).step exEnv (.act 0 (.duration 3 true))).1 1).mask.bits =
      [false, false] ∧
    (World.view ((runWorld exEnv World.empty exMask).step exEnv (.act 0 (.duration 3 true))).1 1).parts = [0] :=
  ⟨by decide +kernel, by decide +kernel, by decide +kernel⟩

/-- Hypotheses can be met: packs with data and names, one appended to the other. -/
example : ∃ w, Separate exEnv w ∧ Sensible w (.act 0 (.append 1)) ∧
    NotSharing w (.act 0 (.append 1)) := by
  refine ⟨runWorld exEnv World.empty
    [.make [(0, .new ⟨.i, [.int 1, .int 2]⟩)] [(0, .str ['A'])],
     .make [(0, .new ⟨.i, [.int 3]⟩)] [(0, .str ['A'])]], ?_, ?_, ?_⟩
  · refine .next (.next .start ?_ trivial) ?_ trivial
    · intro p hp; simp at hp; rw [hp]; trivial
    · intro p hp; simp at hp; rw [hp]; trivial
  · exact ⟨by show 0 < 2; omega, by show 1 < 2; omega⟩
  · right
    exact ⟨by decide +kernel, by decide +kernel⟩

end CP
