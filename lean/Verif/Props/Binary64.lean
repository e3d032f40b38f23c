import Verif.Lemmas.Float64
import Verif.Lemmas.PyNum
import Verif.Props.Biff
/-!
# C65, C78: numbers of xls files in binary64
-/

namespace CP
open Spec

theorem div_two_pow (a : Rat) (k : Nat) : a / ((2 ^ k : Nat) : Rat) = a * 2 ^ (-(k : Int)) := by
  have h : (2 : Rat) ^ (-(k : Int)) * 2 ^ (k : Int) = 1 := by
    rw [← two_zpow_add, show -(k : Int) + k = 0 by omega, Rat.zpow_zero]
  rw [two_zpow_nat] at h
  generalize ((2 ^ k : Nat) : Rat) = P at *
  generalize (2 : Rat) ^ (-(k : Int)) = Q at *
  have : P ≠ 0 := by rintro rfl; grind
  rw [Rat.div_def, show Q = P⁻¹ by grind]

theorem int_of_sign (neg : Bool) (m : Nat) : (if neg then (-1 : Rat) else 1) * (m : Rat) = ((if neg then -(m : Int) else m : Int) : Rat) := by
  cases neg
  · rw [if_neg (by decide), if_neg (by decide), Rat.intCast_natCast]; grind
  · rw [if_pos rfl, if_pos rfl, Rat.intCast_neg, Rat.intCast_natCast]; grind

/-- A significand and an exponent, for the sign and the fields of a float. -/
theorem ieee_form (neg : Bool) {e m : Nat} (he : e < 2047) :
    ieee neg e m = .flt (((if neg then -((if e = 0 then m else 2 ^ 52 + m : Nat) : Int) else (if e = 0 then m else 2 ^ 52 + m : Nat) : Int) : Rat) *
      2 ^ (if e = 0 then (-1074 : Int) else (e : Int) - 1075)) := by
  unfold ieee
  dsimp only
  rw [if_neg (by omega)]
  by_cases h : e = 0
  · rw [if_pos h, if_pos h, if_pos h, div_two_pow, int_of_sign]; rfl
  · rw [if_neg h, if_neg h, if_neg h, div_two_pow, int_of_sign, ← two_zpow_nat e, Rat.mul_assoc, ← two_zpow_add]; rfl

theorem abs_signed (neg : Bool) (k : Nat) : ((if neg then -(k : Int) else k : Int) : Rat).abs = k := by
  have : (0 : Rat) ≤ k := Rat.natCast_nonneg
  cases neg
  · rw [if_neg (by decide), Rat.intCast_natCast, Rat.abs_of_nonneg this]
  · rw [if_pos rfl, Rat.intCast_neg, Rat.intCast_natCast, Rat.abs_neg, Rat.abs_of_nonneg this]

theorem ieee_isDouble {neg : Bool} {e m : Nat} {x : Rat} (he : e < 2 ^ 11) (hm : m < 2 ^ 52) (h : ieee neg e m = .flt x) :
    IsDouble x ∧ x.abs < 2 ^ 1024 := by
  have he' : e < 2047 := by
    rcases Nat.lt_or_ge e 2047 with h1 | h1
    · exact h1
    · have : e = 2047 := by omega
      unfold ieee at h
      dsimp only at h
      rw [if_pos this] at h
      split at h <;> simp at h
  rw [ieee_form neg he'] at h
  simp only [Val.flt.injEq] at h
  have hk : (if e = 0 then m else 2 ^ 52 + m : Nat) < 2 ^ 53 := by split <;> omega
  generalize (if e = 0 then m else 2 ^ 52 + m : Nat) = k at *
  have hE : (if e = 0 then (-1074 : Int) else (e : Int) - 1075) ≤ 971 ∧ -1074 ≤ (if e = 0 then (-1074 : Int) else (e : Int) - 1075) := by
    split <;> omega
  generalize (if e = 0 then (-1074 : Int) else (e : Int) - 1075) = E at *
  subst h
  refine ⟨⟨_, E, by split <;> omega, hE.2, rfl⟩, ?_⟩
  rw [abs_mul_pos (two_zpow_pos E), abs_signed]
  have h1 : (k : Rat) < ((2 ^ 53 : Nat) : Rat) := Rat.natCast_lt_natCast.2 hk
  have h2 := Rat.mul_lt_mul_of_pos_right h1 (two_zpow_pos E)
  have h3 := Rat.mul_le_mul_of_nonneg_left (two_zpow_mono hE.1) (show (0 : Rat) ≤ ((2 ^ 53 : Nat) : Rat) from Rat.natCast_nonneg)
  rw [show (((2 ^ 53 : Nat) : Rat) * 2 ^ (971 : Int)) = 2 ^ 1024 by decide +kernel] at h3
  exact Std.lt_of_lt_of_le h2 h3

theorem double_ieee_pos {x : Rat} (hx : IsDouble x) (h0 : 0 < x) (h : x < 2 ^ 1024) :
    ∃ e m, e < 2047 ∧ m < 2 ^ 52 ∧ ∀ neg, ieee neg e m = .flt (if neg then -x else x) := by
  obtain ⟨r, E, hE, hf, -⟩ := f64_pos_form h0
  rw [f64_of_double hx] at hf
  have hP := two_zpow_pos E
  have hhi := ulpExp_hi h0
  rw [← hE, hf, show (2 : Rat) ^ (53 : Int) = ((2 ^ 53 : Int) : Rat) from by decide +kernel] at hhi
  have hr : r < 2 ^ 53 := by
    rcases Int.lt_or_le r (2 ^ 53) with h | h
    · exact h
    · have := Rat.mul_le_mul_of_nonneg_right (Rat.intCast_le_intCast.2 h) (Rat.le_of_lt hP)
      exact absurd hhi (Rat.not_lt.2 this)
  have hr0 : 0 < r := by
    rcases Int.lt_or_le 0 r with h | h
    · exact h
    · have := Rat.mul_le_mul_of_nonneg_right (Rat.intCast_le_intCast.2 h) (Rat.le_of_lt hP)
      rw [← hf] at this
      exact absurd h0 (Rat.not_lt.2 (by simpa using this))
  have hge := ulpExp_ge x
  rw [← hE] at hge
  obtain ⟨k, rfl⟩ : ∃ k : Nat, r = k := ⟨r.toNat, by omega⟩
  have fin : ∀ e m : Nat, e < 2047 → (if e = 0 then m else 2 ^ 52 + m : Nat) = k → (if e = 0 then (-1074 : Int) else (e : Int) - 1075) = E →
      ∀ neg, ieee neg e m = .flt (if neg then -x else x) := by
    intro e m he hk hE' neg
    rw [ieee_form neg he, hk, hE', hf]
    cases neg
    · rfl
    · simp only [if_true, Val.flt.injEq]
      rw [Rat.intCast_neg, Rat.neg_mul]
  by_cases hk : k < 2 ^ 52
  · have hE2 : E = -1074 := by
      by_cases hE2 : E = -1074
      · exact hE2
      · exfalso
        have := ulpExp_lo h0 (by omega)
        rw [← hE, hf, show (2 : Rat) ^ (52 : Int) = ((2 ^ 52 : Int) : Rat) from by decide +kernel] at this
        have h2 := Rat.mul_lt_mul_of_pos_right (Rat.intCast_lt_intCast.2 (show (k : Int) < 2 ^ 52 by omega)) hP
        exact absurd h2 (Rat.not_lt.2 this)
    exact ⟨0, k, by omega, hk, fin 0 k (by omega) rfl hE2.symm⟩
  · have hE2 : E ≤ 971 := by
      rcases Int.lt_or_le 971 E with h1 | h1
      · exfalso
        have h2 := two_zpow_mono (show (972 : Int) ≤ E by omega)
        have h3 := Rat.mul_le_mul_of_nonneg_left h2 (show (0 : Rat) ≤ ((2 ^ 52 : Int) : Rat) by decide +kernel)
        have h4 := Rat.mul_le_mul_of_nonneg_right (Rat.intCast_le_intCast.2 (show (2 ^ 52 : Int) ≤ (k : Int) by omega)) (Rat.le_of_lt hP)
        rw [show (((2 ^ 52 : Int) : Rat) * 2 ^ (972 : Int)) = 2 ^ 1024 by decide +kernel] at h3
        rw [← hf] at h4
        exact absurd h (Rat.not_lt.2 (Rat.le_trans h3 h4))
      · exact h1
    exact ⟨(E + 1075).toNat, k - 2 ^ 52, by omega, by omega, fin (E + 1075).toNat (k - 2 ^ 52) (by omega) (by rw [if_neg (by omega)]; omega)
      (by rw [if_neg (by omega)]; omega)⟩

theorem double_ieee {x : Rat} (hx : IsDouble x) (h : x.abs < 2 ^ 1024) :
    ∃ neg e m, e < 2 ^ 11 ∧ m < 2 ^ 52 ∧ ieee neg e m = .flt x := by
  by_cases h0 : x = 0
  · subst h0
    exact ⟨false, 0, 0, by decide, by decide, by rw [ieee_form false (by decide)]; simp⟩
  rcases abs_cases x with ⟨c1, c2⟩ | ⟨c1, c2⟩ <;> rw [c2] at h
  · obtain ⟨e, m, he, hm, hi⟩ := double_ieee_pos hx (by grind) h
    exact ⟨false, e, m, by omega, hm, hi false⟩
  · obtain ⟨e, m, he, hm, hi⟩ := double_ieee_pos (isDouble_neg hx) (by grind) h
    refine ⟨true, e, m, by omega, hm, ?_⟩
    rw [hi true, if_pos rfl, Rat.neg_neg]

/-- C65: the eight bytes are those of the floats: every pattern but those of infinities and NaN is one, and
every float has a pattern. -/
theorem C65_doubles (x : Rat) : (∃ n < 2 ^ 64, unpackDouble (leBytes 8 n) = .ok (.flt x)) ↔ IsDouble x ∧ x.abs < 2 ^ 1024 := by
  constructor
  · rintro ⟨n, hn, h⟩
    obtain ⟨neg, e, m, he, hm, -, h⟩ := (C65_double hn _).1 h
    exact ieee_isDouble he hm h.symm
  · rintro ⟨h1, h2⟩
    obtain ⟨neg, e, m, he, hm, h⟩ := double_ieee h1 h2
    have hlt : (if neg then 2 ^ 63 else 0) + e * 2 ^ 52 + m < 2 ^ 64 := by
      have : (if neg then 2 ^ 63 else 0) ≤ 2 ^ 63 := by split <;> omega
      omega
    exact ⟨_, hlt, (C65_double hlt _).2 ⟨neg, e, m, he, hm, rfl, h.symm⟩⟩

/-- C65: an RK number that stands for `q` is read as the float nearest to `q` (such as that of a literal 12.34 for
the integer 1234 over 100). -/
theorem C65_rk_nearest {n : Nat} (h : n < 2 ^ 32) {q y : Rat} (hq : RkIs id n (.flt q)) :
    unpackRK f64 (leBytes 4 n) = .ok (.flt y) ↔ NearestDouble y q := by
  obtain ⟨hundred, int, k, w, hk, hn, hi, hd, h0, h1⟩ := hq
  have : RkIs f64 n (.flt (f64 q)) := by
    refine ⟨hundred, int, k, w, hk, hn, hi, hd, fun e => ?_, fun e => ?_⟩
    · rw [← h0 e]
      have hdq : IsDouble q := by
        cases int with
        | true =>
          have hw := hi rfl
          rw [← h0 e] at hw
          simp only [Val.flt.injEq] at hw
          rw [hw]
          exact isDouble_int (by split <;> omega)
        | false =>
          obtain ⟨neg, ex, m, he, hm, -, h⟩ := hd rfl
          rw [← h0 e] at h
          exact (ieee_isDouble he hm h.symm).1
      rw [f64_of_double hdq]
    · have h2 := h1 e
      cases w <;> simp_all
  have h3 := (C65_rk f64 h _).2 this
  rw [h3]
  simp only [Except.ok.injEq, Val.flt.injEq]
  exact f64_eq_iff

/-- 12.34 -/
example : unpackRK f64 (leBytes 4 (1234 * 4 + 3)) = .ok (.flt (f64 (1234 / 100))) :=
  (C65_rk_nearest (by decide) ((C65_rk id (by decide) _).1 (by decide +kernel))).2 (f64_nearest _)

example : IsDouble (1 / 2) ∧ (1 / 2 : Rat).abs < 2 ^ 1024 := ⟨⟨1, -1, by decide, by decide, by decide +kernel⟩, by decide +kernel⟩

/-- The arithmetic of python meets what C78 and C80 ask of it. -/
theorem rndOk_f64 {P : PyOps} (h : P.rnd = f64Val) : RndOk P where
  float q := by
    rw [h]; unfold f64Val; split <;> trivial

end CP
