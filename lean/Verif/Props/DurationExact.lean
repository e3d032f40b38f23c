import Verif.Props.Duration
/-!
# C82: exactly when durations in seconds are right
-/

namespace CP
open Spec

/-- A pack of `n` samples that are all valid. -/
def allValid (n : Nat) : Pack := Pack.init [(0, ⟨.i, List.replicate n (.int 0)⟩)] []

theorem allValid_mask (n : Nat) : (allValid n).mask.bits = List.replicate n true := by
  have h : ∀ q : Pack, q.mindur = none → ∀ w, (q.setMask w).mask = w := by
    intro q hq w
    simp [Pack.setMask, Pack.applyMindur, hq]
  show (Pack.setMask _ ⟨true, (List.replicate n (Val.int 0)).map selfEq⟩).mask.bits = _
  rw [h _ rfl]
  simp [selfEq]

theorem inRun_allValid {f : Nat → Prop} {n : Nat} (hn : 0 < n) : InRunWith f (List.replicate n true) 0 ↔ f n := by
  constructor
  · rintro ⟨s, t, ⟨h1, h2, h3, h4, h5⟩, h6, h7, h8⟩
    have hs : s = 0 := by omega
    subst hs
    have ht : t = n := by
      simp only [List.length_replicate] at h2
      rcases Nat.lt_or_ge t n with h | h
      · exact absurd h5 (by simp [h])
      · omega
    subst ht
    exact h8
  · intro h
    refine ⟨0, n, ⟨hn, by simp, fun i _ hi => ?_, by omega, ?_⟩, by omega, hn, h⟩
    · simp [hi]
    · simp

/-- C82, exactly: for positive durations and rates, whatever numbers they are for python (with a product that is not negative),
`duration` is right for all packs if and only if the number of samples worked out is the one there is, cut, and this is whole or at
most one. -/
theorem C82_exact {d r : Rat} {x y : Number} (d0 : 0 < d) (r0 : 0 < r) (t0 : 0 ≤ x.times y) :
    DurationInSeconds d r x y ↔ (x.times y).floor = (d * r).floor ∧ (d * r ≤ 1 ∨ ∃ N : Nat, d * r = N) := by
  have hdr := Rat.mul_pos d0 r0
  have f1 := Rat.floor_le (d * r)
  have f2 := Rat.lt_floor_add_one (d * r)
  have T0 : 0 ≤ (x.times y).floor := by
    have h1 := Rat.lt_floor_add_one (x.times y)
    have : ((0 : Int) : Rat) < (((x.times y).floor + 1 : Int) : Rat) := by
      have : ((0 : Int) : Rat) = 0 := rfl
      grind
    have := Rat.intCast_lt_intCast.1 this
    omega
  have key : DurationInSeconds d r x y ↔ ∀ n : Nat, 0 < n →
      (((x.times y).floor ≤ (n : Int) ↔ d * r ≤ (n : Rat)) ∧ ((n : Int) ≤ (x.times y).floor ↔ (n : Rat) ≤ d * r)) := by
    constructor
    · intro h n hn
      have hr : Reachable (⟨fun _ _ => none, fun _ v => v⟩ : NpEnv) (allValid n) := Reachable.init _ _ _
      obtain ⟨h1, h2⟩ := h _ _ hr 0
      have h5 := (C05_min_duration _ _ hr (x.times y)).2.2.1 0
      have h6 := (C06_max_duration _ _ hr (x.times y)).2.2.1 0
      unfold Pack.durationOf at h1 h2
      rw [h5, allValid_mask, inRun_allValid hn, inRun_allValid hn, truncRat_of_nonneg t0, le_div_iff_rat r0] at h1
      rw [h6, allValid_mask, inRun_allValid hn, inRun_allValid hn, truncRat_of_nonneg t0, div_le_iff_rat r0] at h2
      exact ⟨h1, h2⟩
    · intro h E p hp i
      have h5 := (C05_min_duration E p hp (x.times y)).2.2.1 i
      have h6 := (C06_max_duration E p hp (x.times y)).2.2.1 i
      unfold Pack.durationOf
      rw [h5, h6, truncRat_of_nonneg t0]
      have imp : ∀ {f g : Nat → Prop}, (∀ n, 0 < n → (f n → g n)) → ∀ {b : List Bool} {i : Nat}, InRunWith f b i → InRunWith g b i := by
        rintro f g h b i ⟨s, t, h1, h2, h3, h4⟩
        exact ⟨s, t, h1, h2, h3, h _ (by have := h1.1; omega) h4⟩
      constructor
      · constructor
        · exact imp fun n hn h3 => (le_div_iff_rat r0).2 ((h n hn).1.1 h3)
        · exact imp fun n hn h3 => (h n hn).1.2 ((le_div_iff_rat r0).1 h3)
      · constructor
        · exact imp fun n hn h3 => (div_le_iff_rat r0).2 ((h n hn).2.1 h3)
        · exact imp fun n hn h3 => (h n hn).2.2 ((div_le_iff_rat r0).1 h3)
  rw [key]
  generalize (x.times y).floor = T at *
  generalize d * r = q at *
  have fl : ∀ n : Nat, (n : Rat) ≤ q ↔ (n : Int) ≤ q.floor := fun n => by
    rw [← Rat.intCast_natCast, Rat.le_floor_iff]
  have F0 : 0 ≤ q.floor := by
    have := (fl 0).1 (by simpa using Rat.le_of_lt hdr)
    omega
  constructor
  · intro h
    have hT : T = q.floor := by
      rcases Int.lt_trichotomy T q.floor with h1 | h1 | h1
      · have h2 := (h q.floor.toNat (by omega)).2.2 ((fl _).2 (by omega))
        omega
      · exact h1
      · have h2 := (fl _).1 ((h T.toNat (by omega)).2.1 (by omega))
        omega
    refine ⟨hT, ?_⟩
    by_cases hq : q ≤ 1
    · exact .inl hq
    · right
      have h1 : 0 < q.floor := by
        have := (fl 1).1 (by have : ((1 : Nat) : Rat) = 1 := rfl; grind)
        omega
      have h2 := (h q.floor.toNat (by omega)).1.1 (by omega)
      refine ⟨q.floor.toNat, Rat.le_antisymm h2 ((fl _).2 (by omega))⟩
  · rintro ⟨rfl, h1⟩ n hn
    refine ⟨?_, (fl n).symm⟩
    rcases h1 with h1 | ⟨N, rfl⟩
    · have hn1 : (1 : Rat) ≤ (n : Rat) := by
        have := (Rat.natCast_le_natCast (a := 1) (b := n)).2 hn
        exact this
      have h2 : (q.floor : Rat) ≤ ((1 : Int) : Rat) := by
        have : ((1 : Int) : Rat) = 1 := rfl
        grind
      have h3 := Rat.intCast_le_intCast.1 h2
      exact ⟨fun _ => Rat.le_trans h1 hn1, fun _ => by omega⟩
    · rw [Rat.natCast_le_natCast]
      have : ((N : Rat)).floor = (N : Int) := by
        rw [← Rat.intCast_natCast, Rat.floor_intCast]
      rw [this]
      omega

/-- C82_exact: a quarter of a second at 10 samples a second, 2.5 samples; parts of 2 samples stay. -/
example : ¬ DurationInSeconds (1 / 4) 10 (.float (1 / 4)) (.int 10) := by
  rw [C82_exact (by decide +kernel) (by decide +kernel) (by decide +kernel)]
  rintro ⟨-, h | ⟨N, h⟩⟩
  · revert h; decide +kernel
  · have h1 : (5 : Rat) = ((2 * N : Nat) : Rat) := by
      rw [Rat.natCast_mul]
      have : ((2 : Nat) : Rat) = 2 := rfl
      grind
    have h2 : ((5 : Nat) : Rat) = ((2 * N : Nat) : Rat) := h1
    have := Rat.natCast_inj.1 h2
    omega

/-- C82_exact: half a second at one sample a second. -/
example : DurationInSeconds (1 / 2) 1 (.float (1 / 2)) (.int 1) :=
  (C82_exact (by decide +kernel) (by decide +kernel) (by decide +kernel)).2 ⟨by decide +kernel, .inl (by decide +kernel)⟩

end CP
