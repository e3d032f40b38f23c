import Verif.Model.Duration
import Verif.Lemmas.Float64
import Verif.Props.Pack
/-!
# C82: durations in seconds
-/

namespace CP
open Spec

/-- What python makes of a number in a program: an int, or the float nearest to it. -/
def Written (w : Rat) (x : Number) : Prop := (∃ i : Int, w = i ∧ x = .int i) ∨ x = .float (f64 w)

/-- C82 as a user would have it: with a duration of `d` seconds at `r` samples a second, an element
stays True exactly if its part of the mask lasts at least (with mindur=False, at most) `d` seconds. -/
def DurationInSeconds (d r : Rat) (x y : Number) : Prop :=
  ∀ (E : NpEnv) (p : Pack), Reachable E p → ∀ i : Nat,
    ((p.durationOf x y true).mask.bits[i]? = some true ↔ InRunWith (fun n => d ≤ (n : Rat) / r) p.mask.bits i) ∧
    ((p.durationOf x y false).mask.bits[i]? = some true ↔ InRunWith (fun n => (n : Rat) / r ≤ d) p.mask.bits i)

/-! ### The product -/

theorem f64_rel {q : Rat} (h : (2 : Rat) ^ (-1022 : Int) ≤ q) : f64 q ≤ q + q / 2 ^ 53 ∧ q ≤ f64 q + q / 2 ^ 53 := by
  have h0 : 0 < q := by have := two_zpow_pos (-1022); grind
  obtain ⟨h1, h2⟩ := log2Rat_spec h0
  have h3 : -1022 ≤ log2Rat q := by
    rcases Int.lt_or_le (log2Rat q) (-1022) with h4 | h4
    · have := two_zpow_mono (show log2Rat q + 1 ≤ -1022 by omega); grind
    · exact h4
  have h4 := f64_error (q := q) (e := log2Rat q - 52) (Rat.le_of_lt h0)
    (by rw [show 53 + (log2Rat q - 52) = log2Rat q + 1 by omega]; exact h2) (by omega)
  have h5 : (2 : Rat) ^ (log2Rat q - 52) = 2 ^ log2Rat q / 2 ^ 52 := by
    rw [Int.sub_eq_add_neg, two_zpow_add, show (2 : Rat) ^ (-52 : Int) = 1 / 2 ^ 52 by decide +kernel]; grind
  rw [h5] at h4
  rcases abs_cases (f64 q - q) with ⟨c1, c2⟩ | ⟨c1, c2⟩ <;> rw [c2] at h4 <;> constructor <;> grind

/-- A written number as a float. -/
theorem written_rel {w : Rat} {x : Number} (h : Written w x) (hw : (2 : Rat) ^ (-1022 : Int) ≤ w) :
    x.toFloat ≤ w + w / 2 ^ 53 ∧ w ≤ x.toFloat + w / 2 ^ 53 := by
  rcases h with ⟨i, rfl, rfl⟩ | rfl
  · exact f64_rel hw
  · exact f64_rel hw

theorem times_close {d r : Rat} {x y : Number} (hx : Written d x) (hy : Written r y) (hd : (2 : Rat) ^ (-1022 : Int) ≤ d)
    (hr : (2 : Rat) ^ (-1022 : Int) ≤ r) (hs : d * r ≤ 2 ^ 50) :
    0 ≤ x.times y ∧ x.times y < d * r + 1 / 2 ∧ d * r < x.times y + 1 / 2 := by
  have hp := two_zpow_pos (-1022)
  have d0 : 0 ≤ d := by grind
  have r0 : 0 ≤ r := by grind
  have hdr := Rat.mul_nonneg d0 r0
  have hfl : 0 ≤ f64 (x.toFloat * y.toFloat) ∧ f64 (x.toFloat * y.toFloat) < d * r + 1 / 2 ∧
      d * r < f64 (x.toFloat * y.toFloat) + 1 / 2 := by
    obtain ⟨a1, a2⟩ := written_rel hx hd
    obtain ⟨b1, b2⟩ := written_rel hy hr
    generalize x.toFloat = D at *
    generalize y.toFloat = R at *
    have D0 : 0 ≤ D := by grind
    have R0 : 0 ≤ R := by grind
    have u1 : D * R ≤ (d + d / 2 ^ 53) * (r + r / 2 ^ 53) :=
      Rat.le_trans (Rat.mul_le_mul_of_nonneg_right a1 R0) (Rat.mul_le_mul_of_nonneg_left b1 (by grind))
    have u2 : (d - d / 2 ^ 53) * (r - r / 2 ^ 53) ≤ D * R :=
      Rat.le_trans (Rat.mul_le_mul_of_nonneg_right (show d - d / 2 ^ 53 ≤ D by grind) (by grind))
        (Rat.mul_le_mul_of_nonneg_left (show r - r / 2 ^ 53 ≤ R by grind) D0)
    have e1 : (d + d / 2 ^ 53) * (r + r / 2 ^ 53) = d * r + (d * r) / 2 ^ 52 + (d * r) / 2 ^ 106 := by grind
    have e2 : (d - d / 2 ^ 53) * (r - r / 2 ^ 53) = d * r - (d * r) / 2 ^ 52 + (d * r) / 2 ^ 106 := by grind
    rw [e1] at u1
    rw [e2] at u2
    have DR0 := Rat.mul_nonneg D0 R0
    generalize D * R = P at *
    generalize d * r = t at *
    have p1 := f64_close (q := P) (B := 2 ^ 51) (c := 1 / 8) (-2) (by decide +kernel) (by decide +kernel) (by decide) (by grind) (by grind)
    refine ⟨f64_nonneg DR0, ?_, ?_⟩ <;> grind
  unfold Number.times
  split
  · rename_i a b
    rcases hx with ⟨i, rfl, hi⟩ | hi
    · rcases hy with ⟨j, rfl, hj⟩ | hj
      · cases hi; cases hj
        rw [Rat.intCast_mul]
        exact ⟨hdr, by grind, by grind⟩
      · cases hj
    · cases hi
  · exact hfl

theorem truncRat_of_nonneg {q : Rat} (h : 0 ≤ q) : truncRat q = q.floor := by unfold truncRat; rw [if_pos h]

theorem inRun_imp {f g : Nat → Prop} (h : ∀ n, f n → g n) {b : List Bool} {i : Nat} (hr : InRunWith f b i) : InRunWith g b i := by
  obtain ⟨s, t, h1, h2, h3, h4⟩ := hr
  exact ⟨s, t, h1, h2, h3, h _ h4⟩

theorem div_le_iff_rat {a b c : Rat} (hb : 0 < b) : a / b ≤ c ↔ a ≤ c * b := by
  rw [← Rat.not_lt, ← Rat.not_lt, Rat.lt_div_iff hb]

theorem le_div_iff_rat {a b c : Rat} (hb : 0 < b) : c ≤ a / b ↔ c * b ≤ a := by
  rw [← Rat.not_lt, ← Rat.not_lt, Rat.div_lt_iff hb]

/-- C82, the part that holds: parts that last the duration stay, parts that are shorter by more than a sample and a half
go.  (Missing: parts shorter by less.)  With mindur=False parts shorter than the duration by half a sample stay, parts
longer by half a sample go.  For durations and rates from 2 ^ -1022 on, and up to 2 ^ 50 samples. -/
theorem C82_duration_partial {d r : Rat} {x y : Number} (hx : Written d x) (hy : Written r y)
    (hd : (2 : Rat) ^ (-1022 : Int) ≤ d) (hr : (2 : Rat) ^ (-1022 : Int) ≤ r) (hs : d * r ≤ 2 ^ 50) (E : NpEnv) (p : Pack)
    (hp : Reachable E p) (i : Nat) :
    (InRunWith (fun n => d ≤ (n : Rat) / r) p.mask.bits i → (p.durationOf x y true).mask.bits[i]? = some true) ∧
    ((p.durationOf x y true).mask.bits[i]? = some true → InRunWith (fun n => d < ((n : Rat) + 3 / 2) / r) p.mask.bits i) ∧
    (InRunWith (fun n => ((n : Rat) + 1 / 2) / r ≤ d) p.mask.bits i → (p.durationOf x y false).mask.bits[i]? = some true) ∧
    ((p.durationOf x y false).mask.bits[i]? = some true → InRunWith (fun n => ((n : Rat) - 1 / 2) / r < d) p.mask.bits i) := by
  obtain ⟨t0, t1, t2⟩ := times_close hx hy hd hr hs
  have r0 : 0 < r := by have := two_zpow_pos (-1022); grind
  have h5 := (C05_min_duration E p hp (x.times y)).2.2.1 i
  have h6 := (C06_max_duration E p hp (x.times y)).2.2.1 i
  unfold Pack.durationOf
  rw [h5, h6, truncRat_of_nonneg t0]
  generalize x.times y = P at *
  have f1 := Rat.floor_le P
  have f2 := Rat.lt_floor_add_one P
  rw [Rat.intCast_add, show ((1 : Int) : Rat) = 1 from rfl] at f2
  refine ⟨inRun_imp fun n hn => ?_, inRun_imp fun n hn => ?_, inRun_imp fun n hn => ?_, inRun_imp fun n hn => ?_⟩
  · rw [le_div_iff_rat r0] at hn
    have : (P.floor : Rat) < ((n + 1 : Int) : Rat) := by
      rw [Rat.intCast_add, Rat.intCast_natCast, show ((1 : Int) : Rat) = 1 from rfl]; grind
    have := Rat.intCast_lt_intCast.1 this; omega
  · rw [Rat.lt_div_iff r0]
    have h1 : (P.floor : Rat) ≤ (n : Rat) := by
      rw [← Rat.intCast_natCast]; exact Rat.intCast_le_intCast.2 hn
    grind
  · rw [div_le_iff_rat r0] at hn
    have : ((n : Int) : Rat) < ((P.floor + 1 : Int) : Rat) := by
      rw [Rat.intCast_add, Rat.intCast_natCast, show ((1 : Int) : Rat) = 1 from rfl]; grind
    have := Rat.intCast_lt_intCast.1 this; omega
  · rw [Rat.div_lt_iff r0]
    have h1 : (n : Rat) ≤ (P.floor : Rat) := by
      rw [← Rat.intCast_natCast]; exact Rat.intCast_le_intCast.2 hn
    grind

theorem written_exact {w : Rat} {x : Number} (h : Written w x) (hw : IsDouble w) : x.toFloat = w := by
  rcases h with ⟨i, rfl, rfl⟩ | rfl <;> exact f64_of_double hw

/-- C82 holds if duration and rate are floats themselves (as whole numbers up to 2 ^ 53, halves and the like are) and their product is
a whole number of samples. -/
theorem C82_whole {d r : Rat} {x y : Number} (hx : Written d x) (hy : Written r y) (hd : IsDouble d) (hr : IsDouble r)
    (r0 : 0 < r) {N : Nat} (hN : d * r = N) (hs : N ≤ 2 ^ 53) : DurationInSeconds d r x y := by
  have ht : x.times y = ((N : Int) : Rat) := by
    have h1 : f64 (x.toFloat * y.toFloat) = ((N : Int) : Rat) := by
      rw [written_exact hx hd, written_exact hy hr, hN]
      exact f64_int (i := (N : Int)) (by omega)
    unfold Number.times
    split
    · rcases hx with ⟨i, rfl, hi⟩ | hi
      · rcases hy with ⟨j, rfl, hj⟩ | hj
        · cases hi; cases hj
          rw [Rat.intCast_mul, hN]; rfl
        · cases hj
      · cases hi
    · exact h1
  intro E p hp i
  have h5 := (C05_min_duration E p hp (x.times y)).2.2.1 i
  have h6 := (C06_max_duration E p hp (x.times y)).2.2.1 i
  unfold Pack.durationOf
  rw [h5, h6, ht, truncRat_int]
  have k1 : ∀ n : Nat, (N : Int) ≤ (n : Int) ↔ d ≤ (n : Rat) / r := fun n => by
    rw [le_div_iff_rat r0, hN, Rat.natCast_le_natCast]; omega
  have k2 : ∀ n : Nat, (n : Int) ≤ (N : Int) ↔ (n : Rat) / r ≤ d := fun n => by
    rw [div_le_iff_rat r0, hN, Rat.natCast_le_natCast]; omega
  exact ⟨⟨inRun_imp fun n h => (k1 n).1 h, inRun_imp fun n h => (k1 n).2 h⟩, ⟨inRun_imp fun n h => (k2 n).1 h, inRun_imp fun n h => (k2 n).2 h⟩⟩

/-- The example of the documentation: 1 s at 10 samples a second. -/
example : DurationInSeconds 1 10 (.int 1) (.int 10) :=
  C82_whole (N := 10) (.inl ⟨1, rfl, rfl⟩) (.inl ⟨10, rfl, rfl⟩) (isDouble_int (i := 1) (by decide)) (isDouble_int (i := 10) (by decide))
    (by decide +kernel) (by decide +kernel) (by decide)

/-- Half a second at 1000 samples a second. -/
example : DurationInSeconds (1 / 2) 1000 (.float (1 / 2)) (.int 1000) :=
  C82_whole (N := 500) (.inr (by decide +kernel)) (.inl ⟨1000, rfl, rfl⟩) ⟨1, -1, by decide, by decide, by decide +kernel⟩
    (isDouble_int (i := 1000) (by decide)) (by decide +kernel) (by decide +kernel) (by decide)

/-- A pack with 28 samples that are all valid. -/
def ex28 : Pack := Pack.init [(0, ⟨.i, List.replicate 28 (.int 0)⟩)] []

/-- C82 as stated is false: with duration(0.29, samplerate=100), a part of 28 samples, 0.28 s, stays, since 0.29 * 100 is
28.999999999999996 in floats; with mindur=False a part of 29 samples goes. -/
theorem C82_counterexample :
    ¬ ∀ (d r : Rat) (x y : Number), Written d x → Written r y → (2 : Rat) ^ (-1022 : Int) ≤ d → (2 : Rat) ^ (-1022 : Int) ≤ r →
      d * r ≤ 2 ^ 50 → DurationInSeconds d r x y := by
  intro h
  have h1 := (h (29 / 100) 100 (.float (f64 (29 / 100))) (.int 100) (.inr rfl) (.inl ⟨100, rfl, rfl⟩) (by decide +kernel) (by decide +kernel)
    (by decide +kernel) ⟨fun _ _ => none, fun _ v => v⟩ ex28 (Reachable.init _ _ _) 0).1.1 (by decide +kernel)
  obtain ⟨s, t, ⟨-, h3, -⟩, -, -, h8⟩ := h1
  have h9 : ex28.mask.bits.length = 28 := by decide +kernel
  rw [h9] at h3
  rw [le_div_iff_rat (by decide +kernel), show (29 / 100 : Rat) * 100 = ((29 : Nat) : Rat) by decide +kernel, Rat.natCast_le_natCast] at h8
  omega

end CP
