import Verif.Lemmas.Calendar
import Verif.Spec.Float64
/-!
# Lemmas: `f64` rounds to the nearest binary64 number
-/

namespace CP
open Spec

/-! ### Powers of two -/

theorem two_zpow_pos (e : Int) : (0 : Rat) < 2 ^ e := Rat.zpow_pos (by decide)

theorem two_zpow_add (a b : Int) : (2 : Rat) ^ (a + b) = 2 ^ a * 2 ^ b := Rat.zpow_add (by decide) a b

theorem two_zpow_nat (n : Nat) : (2 : Rat) ^ (n : Int) = ((2 ^ n : Nat) : Rat) := by
  rw [Rat.zpow_natCast, Rat.natCast_pow]; rfl

theorem two_zpow_mono {a b : Int} (h : a ≤ b) : (2 : Rat) ^ a ≤ 2 ^ b := by
  obtain ⟨n, rfl⟩ : ∃ n : Nat, b = a + n := ⟨(b - a).toNat, by omega⟩
  rw [two_zpow_add, two_zpow_nat]
  have h1 : ((1 : Nat) : Rat) ≤ ((2 ^ n : Nat) : Rat) := Rat.natCast_le_natCast.2 (Nat.one_le_two_pow)
  have h2 := Rat.mul_le_mul_of_nonneg_left h1 (Rat.le_of_lt (two_zpow_pos a))
  have h3 : (2 : Rat) ^ a * ((1 : Nat) : Rat) = 2 ^ a := by rw [show ((1 : Nat) : Rat) = 1 from rfl]; grind
  rw [h3] at h2; exact h2

theorem two_zpow_succ (a : Int) : (2 : Rat) ^ (a + 1) = 2 * 2 ^ a := by
  rw [two_zpow_add, Rat.zpow_one]; grind

theorem log2Rat_spec {q : Rat} (hq : 0 < q) : (2 : Rat) ^ log2Rat q ≤ q ∧ q < 2 ^ (log2Rat q + 1) := by
  have hn : 0 < q.num := by
    have := Rat.num_nonneg.2 (Rat.le_of_lt hq)
    have h0 : q.num ≠ 0 := fun h => by
      rw [Rat.num_eq_zero] at h; rw [h] at hq; exact Rat.lt_irrefl hq
    omega
  obtain ⟨N, hN⟩ : ∃ N : Nat, q.num = N := ⟨q.num.natAbs, by omega⟩
  have hN0 : N ≠ 0 := by omega
  have hD0 : q.den ≠ 0 := q.den_nz
  have hqd : q * (q.den : Rat) = (N : Rat) := by
    have h1 : (q.den : Rat) ≠ 0 := fun h => hD0 (Rat.natCast_eq_zero_iff.1 h)
    have h2 : q = (q.num : Rat) / (q.den : Rat) := by rw [← Rat.mkRat_eq_div, Rat.mkRat_self]
    have h3 : q * (q.den : Rat) = (q.num : Rat) / (q.den : Rat) * (q.den : Rat) := by rw [← h2]
    rw [h3, Rat.div_mul_cancel h1, hN]; rfl
  have a1 := (Nat.log2_eq_iff hN0 (k := N.log2)).1 rfl
  have b1 := (Nat.log2_eq_iff hD0 (k := q.den.log2)).1 rfl
  unfold log2Rat
  rw [hN]
  simp only [Int.natAbs_natCast]
  generalize N.log2 = a at *
  generalize q.den.log2 = b at *
  have a2 : (2 : Rat) ^ (a : Int) ≤ N := by rw [two_zpow_nat]; exact Rat.natCast_le_natCast.2 a1.1
  have a3 : (N : Rat) < 2 ^ ((a + 1 : Nat) : Int) := by rw [two_zpow_nat]; exact Rat.natCast_lt_natCast.2 a1.2
  have b2 : (2 : Rat) ^ (b : Int) ≤ q.den := by rw [two_zpow_nat]; exact Rat.natCast_le_natCast.2 b1.1
  have b3 : (q.den : Rat) < 2 ^ ((b + 1 : Nat) : Int) := by rw [two_zpow_nat]; exact Rat.natCast_lt_natCast.2 b1.2
  have hi : q < 2 ^ ((a : Int) - b + 1) := by
    have h1 := Rat.mul_le_mul_of_nonneg_left b2 (Rat.le_of_lt hq)
    have h2 : ((a + 1 : Nat) : Int) = ((a : Int) - b + 1) + b := by omega
    rw [h2, two_zpow_add] at a3
    refine Rat.lt_of_mul_lt_mul_right (c := (2 : Rat) ^ (b : Int)) ?_ (Rat.le_of_lt (two_zpow_pos _))
    grind
  have lo : (2 : Rat) ^ ((a : Int) - b - 1) < q := by
    have hd : (0 : Rat) < q.den := Rat.natCast_pos.2 (by omega)
    have h1 := Rat.mul_lt_mul_of_pos_left b3 (two_zpow_pos ((a : Int) - b - 1))
    rw [← two_zpow_add, show (a : Int) - b - 1 + ((b + 1 : Nat) : Int) = a by omega] at h1
    refine Rat.lt_of_mul_lt_mul_right (c := (q.den : Rat)) ?_ (Rat.le_of_lt hd)
    grind
  split
  · exact ⟨‹_›, hi⟩
  · exact ⟨Rat.le_of_lt lo, by rw [show (a : Int) - b - 1 + 1 = a - b by omega]; exact Rat.not_le.1 ‹_›⟩

/-! ### Absolute values -/

theorem _root_.Rat.le_of_eq {a b : Rat} (h : a = b) : a ≤ b := h ▸ Rat.le_refl

theorem abs_cases (x : Rat) : (0 ≤ x ∧ x.abs = x) ∨ (x ≤ 0 ∧ x.abs = -x) := by
  rcases Rat.le_total (a := 0) (b := x) with h | h
  · exact .inl ⟨h, Rat.abs_of_nonneg h⟩
  · exact .inr ⟨h, Rat.abs_of_nonpos h⟩

/-! ### Doubles -/

theorem isDouble_neg {x : Rat} (h : IsDouble x) : IsDouble (-x) := by
  obtain ⟨m, e, h1, h2, h3⟩ := h
  exact ⟨-m, e, by omega, h2, by rw [h3, Rat.intCast_neg]; grind⟩

theorem isDouble_zero : IsDouble 0 := ⟨0, 0, by decide, by decide, by simp⟩

/-- The greatest factor may also be 2 ^ 53 itself. -/
theorem isDouble_of_le {m e : Int} (hm : m.natAbs ≤ 2 ^ 53) (he : -1074 ≤ e) : IsDouble ((m : Rat) * 2 ^ e) := by
  by_cases h : m.natAbs < 2 ^ 53
  · exact ⟨m, e, h, he, rfl⟩
  · refine ⟨m / 2, e + 1, by omega, by omega, ?_⟩
    have : m = m / 2 * 2 := by omega
    rw [two_zpow_succ]
    have h2 : (m : Rat) = ((m / 2 : Int) : Rat) * 2 := by
      have h3 := congrArg (fun i : Int => (i : Rat)) this
      simp only [Rat.intCast_mul] at h3
      exact h3
    rw [h2]; grind

theorem isDouble_int {i : Int} (h : i.natAbs ≤ 2 ^ 53) : IsDouble (i : Rat) := by
  have := isDouble_of_le (e := 0) h (by decide)
  rwa [Rat.zpow_zero, Rat.mul_one] at this

/-- Doubles with an exponent of at least `e` are multiples of `2 ^ e`. -/
theorem multiple {m e E : Int} (h : E ≤ e) : ∃ k : Int, (m : Rat) * 2 ^ e = (k : Rat) * 2 ^ E := by
  obtain ⟨n, rfl⟩ : ∃ n : Nat, e = n + E := ⟨(e - E).toNat, by omega⟩
  refine ⟨m * 2 ^ n, ?_⟩
  rw [two_zpow_add, two_zpow_nat, Rat.intCast_mul]
  have : (((2 : Int) ^ n : Int) : Rat) = ((2 ^ n : Nat) : Rat) := by
    rw [Rat.intCast_pow, Rat.natCast_pow]; rfl
  rw [this]; grind

theorem ulpExp_ge (q : Rat) : -1074 ≤ ulpExp q := by unfold ulpExp; omega

theorem ulpExp_neg (q : Rat) : ulpExp (-q) = ulpExp q := by unfold ulpExp; rw [Rat.abs_neg]

/-- `q` has at most 53 digits before its last place. -/
theorem ulpExp_hi {q : Rat} (h : 0 < q) : q < 2 ^ (53 : Int) * 2 ^ ulpExp q := by
  rw [← two_zpow_add]
  have h1 := (log2Rat_spec h).2
  have h2 : log2Rat q + 1 ≤ 53 + ulpExp q := by
    unfold ulpExp; rw [Rat.abs_of_nonneg (Rat.le_of_lt h)]; omega
  have h3 := two_zpow_mono h2
  grind

theorem ulpExp_lo {q : Rat} (h : 0 < q) (h1 : ulpExp q ≠ -1074) : (2 : Rat) ^ (52 : Int) * 2 ^ ulpExp q ≤ q := by
  rw [← two_zpow_add]
  have h2 := (log2Rat_spec h).1
  have h3 : 52 + ulpExp q = log2Rat q := by
    unfold ulpExp at *; rw [Rat.abs_of_nonneg (Rat.le_of_lt h)] at *; omega
  rw [h3]; exact h2

theorem roundHalfEven_neg (q : Rat) : roundHalfEven (-q) = -roundHalfEven q := by
  refine nearestEven_unique (roundHalfEven_nearest (-q)) ?_
  obtain ⟨h1, h2, h3⟩ := roundHalfEven_nearest q
  refine ⟨by rw [Rat.intCast_neg]; grind, by rw [Rat.intCast_neg]; grind, fun h => ?_⟩
  rw [Rat.intCast_neg] at h
  have := h3 (by rcases h with h | h
                 · right; grind
                 · left; grind)
  omega

theorem f64_neg (q : Rat) : f64 (-q) = -f64 q := by
  unfold f64
  by_cases h : q = 0
  · subst h; decide +kernel
  · have h2 : -q ≠ 0 := by intro h3; apply h; grind
    rw [if_neg h, if_neg h2, ulpExp_neg]
    have : -q / (2 : Rat) ^ ulpExp q = -(q / 2 ^ ulpExp q) := by rw [Rat.div_def, Rat.div_def, Rat.neg_mul]
    rw [this, roundHalfEven_neg, Rat.intCast_neg]; grind

theorem f64_zero : f64 0 = 0 := by unfold f64; rw [if_pos rfl]

/-- `f64` of a positive number, with the factor and the place. -/
theorem f64_pos_form {q : Rat} (h : 0 < q) : ∃ (r E : Int), E = ulpExp q ∧ f64 q = (r : Rat) * 2 ^ E ∧
    NearestEven r (q / 2 ^ E) := by
  refine ⟨_, _, rfl, ?_, roundHalfEven_nearest _⟩
  unfold f64; rw [if_neg (Rat.ne_of_gt h)]

theorem natAbs_le_of_rat {r : Int} {n : Nat} (h0 : 0 ≤ (r : Rat)) (h : (r : Rat) < ((n : Nat) : Rat) + 1) : r.natAbs ≤ n := by
  have h1 : (r : Rat) < ((n + 1 : Int) : Rat) := by rw [Rat.intCast_add]; exact h
  have h2 := Rat.intCast_lt_intCast.1 h1
  have h3 : 0 ≤ r := by
    have : ((0 : Int) : Rat) ≤ (r : Rat) := h0
    exact Rat.intCast_le_intCast.1 this
  omega

/-- Of integers, the one from rounding is the nearest. -/
theorem nearestEven_best {r : Int} {t : Rat} (h : NearestEven r t) (k : Int) :
    ((r : Rat) - t).abs ≤ ((k : Rat) - t).abs ∧
      (k ≠ r → ((r : Rat) - t).abs = ((k : Rat) - t).abs → ∃ j : Int, r = 2 * j * (k - r)) := by
  obtain ⟨h1, h2, h3⟩ := h
  by_cases hk : k = r
  · subst hk; exact ⟨Rat.le_refl, fun h => absurd rfl h⟩
  · have hd : k + 1 ≤ r ∨ r + 1 ≤ k := by omega
    have hd' : (k : Rat) + 1 ≤ r ∨ (r : Rat) + 1 ≤ k := by
      rcases hd with h | h
      · left; have := Rat.intCast_le_intCast.2 h; rwa [Rat.intCast_add] at this
      · right; have := Rat.intCast_le_intCast.2 h; rwa [Rat.intCast_add] at this
    refine ⟨?_, fun _ he => ?_⟩
    · rcases abs_cases ((r : Rat) - t) with ⟨c1, c2⟩ | ⟨c1, c2⟩ <;>
      rcases abs_cases ((k : Rat) - t) with ⟨c3, c4⟩ | ⟨c3, c4⟩ <;> rw [c2, c4] <;> grind
    · have ht : ((r : Rat) - t = 1 / 2 ∨ t - r = 1 / 2) ∧ (k = r + 1 ∨ k = r - 1) := by
        rcases abs_cases ((r : Rat) - t) with ⟨c1, c2⟩ | ⟨c1, c2⟩ <;>
        rcases abs_cases ((k : Rat) - t) with ⟨c3, c4⟩ | ⟨c3, c4⟩ <;> rw [c2, c4] at he
        · exfalso; grind
        · have e1 : (r : Rat) - t = 1 / 2 := by grind
          refine ⟨.inl e1, .inr ?_⟩
          have e2 : (k : Rat) = ((r - 1 : Int) : Rat) := by rw [Rat.intCast_sub]; grind
          exact Rat.intCast_inj.1 e2
        · have e1 : t - r = 1 / 2 := by grind
          refine ⟨.inr e1, .inl ?_⟩
          have e2 : (k : Rat) = ((r + 1 : Int) : Rat) := by rw [Rat.intCast_add]; grind
          exact Rat.intCast_inj.1 e2
        · exfalso; grind
      have hr := h3 ht.1
      rcases ht.2 with rfl | rfl
      · exact ⟨r / 2, by rw [show r + 1 - r = 1 by omega]; omega⟩
      · exact ⟨-(r / 2), by rw [show r - 1 - r = -1 by omega]; omega⟩

/-- Scaling by a positive number. -/
theorem abs_mul_pos {c : Rat} (h : 0 < c) (x : Rat) : (x * c).abs = x.abs * c := by
  rcases abs_cases x with ⟨c1, c2⟩ | ⟨c1, c2⟩
  · rw [c2, Rat.abs_of_nonneg (Rat.mul_nonneg c1 (Rat.le_of_lt h))]
  · have : 0 ≤ -x * c := Rat.mul_nonneg (by grind) (Rat.le_of_lt h)
    rw [c2, Rat.abs_of_nonpos (by grind)]; grind

theorem f64_nearest_pos {q : Rat} (hq : 0 < q) : NearestDouble (f64 q) q := by
  obtain ⟨r, E, hE, hf, hr⟩ := f64_pos_form hq
  have hP := two_zpow_pos E
  have hP0 : (2 : Rat) ^ E ≠ 0 := Rat.ne_of_gt hP
  obtain ⟨t, ht⟩ : ∃ t, t = q / 2 ^ E := ⟨_, rfl⟩
  have hqt : q = t * 2 ^ E := by rw [ht, Rat.div_mul_cancel hP0]
  rw [← ht] at hr
  have ht0 : 0 < t := by
    refine Rat.lt_of_mul_lt_mul_right (c := (2 : Rat) ^ E) ?_ (Rat.le_of_lt hP)
    rw [← hqt]; grind
  have ht1 : t < (2 ^ 53 : Nat) := by
    have := ulpExp_hi hq
    rw [← hE, show (53 : Int) = ((53 : Nat) : Int) from rfl, two_zpow_nat] at this
    refine Rat.lt_of_mul_lt_mul_right (c := (2 : Rat) ^ E) ?_ (Rat.le_of_lt hP)
    rw [← hqt]; exact this
  have hr0 : 0 ≤ r := by
    have h1 : (-1 : Rat) < (r : Rat) := by have := hr.2.1; grind
    have h2 : ((-1 : Int) : Rat) < (r : Rat) := by simpa using h1
    have := Rat.intCast_lt_intCast.1 h2; omega
  have hr1 : r.natAbs ≤ 2 ^ 53 := by
    refine natAbs_le_of_rat ?_ ?_
    · exact (Rat.intCast_le_intCast (a := 0)).2 hr0
    · have := hr.1; grind
  -- multiples of the unit
  have hmul : ∀ k : Int, ((r : Rat) * 2 ^ E - q).abs ≤ ((k : Rat) * 2 ^ E - q).abs ∧
      (k ≠ r → ((r : Rat) * 2 ^ E - q).abs = ((k : Rat) * 2 ^ E - q).abs → ∃ j : Int, r = 2 * j * (k - r)) := by
    intro k
    have e1 : ∀ i : Int, ((i : Rat) * 2 ^ E - q).abs = ((i : Rat) - t).abs * 2 ^ E := by
      intro i
      rw [← abs_mul_pos hP, hqt]; congr 1; grind
    rw [e1, e1]
    obtain ⟨b1, b2⟩ := nearestEven_best hr k
    refine ⟨Rat.mul_le_mul_of_nonneg_right b1 (Rat.le_of_lt hP), fun h1 h2 => b2 h1 ?_⟩
    have h3 := congrArg (· / (2 : Rat) ^ E) h2
    simpa only [Rat.mul_div_cancel hP0] using h3
  rw [hf]
  refine ⟨isDouble_of_le hr1 (by rw [hE]; exact ulpExp_ge q), fun z hz => ?_⟩
  obtain ⟨m, e, hm, he, rfl⟩ := hz
  by_cases hle : E ≤ e
  · obtain ⟨k, hk⟩ := multiple (m := m) hle
    rw [hk]
    obtain ⟨b1, b2⟩ := hmul k
    refine ⟨b1, fun h1 h2 => ?_⟩
    obtain ⟨j, hj⟩ := b2 (fun h => h1 (by rw [h])) h2
    refine ⟨j, ?_⟩
    have hj' := congrArg (fun i : Int => (i : Rat)) hj
    simp only [Rat.intCast_mul, Rat.intCast_sub] at hj'
    have hj2 : (r : Rat) = 2 * (j : Rat) * ((k : Rat) - r) := hj'
    rw [show (k : Rat) * 2 ^ E - (r : Rat) * 2 ^ E = ((k : Rat) - r) * 2 ^ E by grind, ← Rat.mul_assoc, ← hj2]
  · -- smaller units: the power of two below `q` is nearer
    have hlo := ulpExp_lo hq (by rw [← hE]; omega)
    rw [← hE] at hlo
    have hz : (m : Rat) * 2 ^ e < 2 ^ (52 : Int) * 2 ^ E := by
      have h1 : (m : Rat) < ((2 ^ 53 : Nat) : Rat) := by
        rw [← Rat.intCast_natCast]; exact Rat.intCast_lt_intCast.2 (by omega)
      have h2 := Rat.mul_lt_mul_of_pos_right h1 (two_zpow_pos e)
      rw [← two_zpow_nat, ← two_zpow_add] at h2
      have h3 : (2 : Rat) ^ (((53 : Nat) : Int) + e) ≤ 2 ^ ((52 : Int) + E) := two_zpow_mono (by omega)
      rw [two_zpow_add 52 E] at h3
      grind
    obtain ⟨b1, -⟩ := hmul (2 ^ 52)
    have h52 : (((2 : Int) ^ 52 : Int) : Rat) = 2 ^ (52 : Int) := by
      rw [show (52 : Int) = ((52 : Nat) : Int) from rfl, two_zpow_nat]; rfl
    rw [h52] at b1
    have b3 : ((2 : Rat) ^ (52 : Int) * 2 ^ E - q).abs = q - 2 ^ (52 : Int) * 2 ^ E := by
      rw [Rat.abs_of_nonpos (by grind)]; grind
    have b4 : ((m : Rat) * 2 ^ e - q).abs = q - (m : Rat) * 2 ^ e := by
      rw [Rat.abs_of_nonpos (by grind)]; grind
    rw [b3] at b1
    rw [b4]
    exact ⟨by grind, fun _ h => by exfalso; grind⟩

/-- `f64` is rounding to nearest. -/
theorem f64_nearest (q : Rat) : NearestDouble (f64 q) q := by
  have htri : q < 0 ∨ q = 0 ∨ 0 < q := by
    rcases Rat.le_total (a := q) (b := 0) with h | h
    · rcases Rat.le_iff_lt_or_eq.1 h with h | h
      · exact .inl h
      · exact .inr (.inl h)
    · rcases Rat.le_iff_lt_or_eq.1 h with h | h
      · exact .inr (.inr h)
      · exact .inr (.inl h.symm)
  rcases htri with h | h | h
  · have hn := f64_nearest_pos (q := -q) (by grind)
    rw [f64_neg] at hn
    refine ⟨by have := isDouble_neg hn.1; rwa [Rat.neg_neg] at this, fun z hz => ?_⟩
    obtain ⟨h1, h2⟩ := hn.2 (-z) (isDouble_neg hz)
    have e1 : ∀ a : Rat, (-a - -q).abs = (a - q).abs := fun a => by
      rw [← Rat.abs_neg]; congr 1; grind
    rw [e1, e1] at *
    refine ⟨h1, fun h3 h4 => ?_⟩
    obtain ⟨k, hk⟩ := h2 (fun h5 => h3 (by grind)) h4
    exact ⟨k, by grind⟩
  · subst h
    rw [f64_zero]
    refine ⟨isDouble_zero, fun z _ => ⟨?_, fun h1 h2 => ?_⟩⟩
    · rw [show (0 : Rat) - 0 = 0 from by grind, Rat.abs_zero]; exact Rat.abs_nonneg
    · exact ⟨0, by simp⟩
  · exact f64_nearest_pos h

theorem nearestDouble_unique {x y q : Rat} (hx : NearestDouble x q) (hy : NearestDouble y q) : x = y := by
  by_cases h : x = y
  · exact h
  · exfalso
    obtain ⟨a1, a2⟩ := hx.2 y hy.1
    obtain ⟨b1, b2⟩ := hy.2 x hx.1
    have he := Rat.le_antisymm a1 b1
    obtain ⟨j, hj⟩ := a2 (fun h' => h h'.symm) he
    obtain ⟨k, hk⟩ := b2 h he.symm
    have hd : y - x ≠ 0 := fun h' => h (by grind)
    have h1 : (y - x) * 1 = (y - x) * (((-2 * (j + k)) : Int) : Rat) := by
      rw [Rat.intCast_mul, Rat.intCast_add]
      have : ((-2 : Int) : Rat) = -2 := rfl
      rw [this]; grind
    have h2 : (((-2 * (j + k)) : Int) : Rat) = ((1 : Int) : Rat) := by
      have h3 := congrArg ((y - x)⁻¹ * ·) h1
      simp only [← Rat.mul_assoc, Rat.inv_mul_cancel _ hd, Rat.one_mul] at h3
      exact h3.symm
    have := Rat.intCast_inj.1 h2
    omega

/-- The specification determines the value. -/
theorem f64_eq_iff {y q : Rat} : f64 q = y ↔ NearestDouble y q :=
  ⟨fun h => h ▸ f64_nearest q, fun h => nearestDouble_unique (f64_nearest q) h⟩

theorem f64_of_double {x : Rat} (h : IsDouble x) : f64 x = x := by
  have h1 := ((f64_nearest x).2 x h).1
  rw [show x - x = 0 by grind, Rat.abs_zero] at h1
  have h2 := Rat.abs_nonneg (x := f64 x - x)
  have h3 : (f64 x - x).abs = 0 := Rat.le_antisymm h1 h2
  rw [Rat.abs_eq_zero_iff] at h3
  grind

theorem f64_isDouble (q : Rat) : IsDouble (f64 q) := (f64_nearest q).1

theorem f64_int {i : Int} (h : i.natAbs ≤ 2 ^ 53) : f64 (i : Rat) = i := f64_of_double (isDouble_int h)

theorem f64_mono {p q : Rat} (h : p ≤ q) : f64 p ≤ f64 q := by
  rcases Rat.le_total (a := f64 p) (b := f64 q) with h1 | h1
  · exact h1
  · by_cases he : f64 p = f64 q
    · rw [he]; exact Rat.le_refl
    · have a := ((f64_nearest p).2 _ (f64_isDouble q)).1
      have b := ((f64_nearest q).2 _ (f64_isDouble p)).1
      have hpq : p = q := by
        rcases abs_cases (f64 p - p) with ⟨c1, c2⟩ | ⟨c1, c2⟩ <;>
        rcases abs_cases (f64 q - p) with ⟨c3, c4⟩ | ⟨c3, c4⟩ <;>
        rcases abs_cases (f64 p - q) with ⟨c5, c6⟩ | ⟨c5, c6⟩ <;>
        rcases abs_cases (f64 q - q) with ⟨c7, c8⟩ | ⟨c7, c8⟩ <;>
        rw [c2, c4] at a <;> rw [c6, c8] at b <;> first | grind | (exfalso; grind)
      rw [hpq]; exact Rat.le_refl

/-- The error is at most half a unit in the last place. -/
theorem f64_error {q : Rat} {e : Int} (h0 : 0 ≤ q) (h : q < 2 ^ (53 + e)) (he : -1074 ≤ e) :
    (f64 q - q).abs ≤ 2 ^ e / 2 := by
  by_cases hq : q = 0
  · subst hq
    rw [f64_zero, show (0 : Rat) - 0 = 0 from by grind, Rat.abs_zero]
    have := two_zpow_pos e; grind
  · have hq0 : 0 < q := by grind
    obtain ⟨r, E, hE, hf, hr⟩ := f64_pos_form hq0
    have hP := two_zpow_pos E
    have hEe : E ≤ e := by
      rw [hE]; unfold ulpExp; rw [Rat.abs_of_nonneg h0]
      have h1 := (log2Rat_spec hq0).1
      have h2 : log2Rat q < 53 + e := by
        rcases Int.lt_or_le (log2Rat q) (53 + e) with h3 | h3
        · exact h3
        · have := two_zpow_mono h3; grind
      omega
    have h2 := two_zpow_mono hEe
    have e1 : (f64 q - q).abs = ((r : Rat) - q / 2 ^ E).abs * 2 ^ E := by
      rw [hf, ← abs_mul_pos hP]; congr 1
      have := Rat.div_mul_cancel (a := q) (Rat.ne_of_gt hP)
      grind
    have e2 : ((r : Rat) - q / 2 ^ E).abs ≤ 1 / 2 := by
      have h3 := hr.1
      have h4 := hr.2.1
      rcases abs_cases ((r : Rat) - q / 2 ^ E) with ⟨c1, c2⟩ | ⟨c1, c2⟩ <;> rw [c2] <;> grind
    have e3 := Rat.mul_le_mul_of_nonneg_right e2 (Rat.le_of_lt hP)
    rw [e1]; grind

/-- The same with numbers in place of the exponents, and for both signs. -/
theorem f64_close {q B c : Rat} (e : Int) (hB : B = 2 ^ (53 + e)) (hc : c = 2 ^ e / 2) (he : -1074 ≤ e) (h0 : -B < q) (h : q < B) :
    f64 q ≤ q + c ∧ q ≤ f64 q + c := by
  subst hB hc
  rcases Rat.le_total (a := 0) (b := q) with h1 | h1
  · have h2 := f64_error h1 h he
    rcases abs_cases (f64 q - q) with ⟨c1, c2⟩ | ⟨c1, c2⟩ <;> rw [c2] at h2 <;> constructor <;> grind
  · have h2 := f64_error (q := -q) (e := e) (by grind) (by grind) he
    rw [f64_neg] at h2
    rcases abs_cases (-f64 q - -q) with ⟨c1, c2⟩ | ⟨c1, c2⟩ <;> rw [c2] at h2 <;> constructor <;> grind

theorem f64_nonneg {q : Rat} (h : 0 ≤ q) : 0 ≤ f64 q := by
  have := f64_mono h
  rwa [f64_zero] at this

/-- What is left of a double without its whole part is a double: the subtraction in xlrd/xldate.py:98 and 153 is
exact. -/
theorem isDouble_frac {x : Rat} (h : IsDouble x) : IsDouble (x - (truncRat x : Int)) := by
  have hpos : ∀ y : Rat, IsDouble y → 0 ≤ y → IsDouble (y - (y.floor : Int)) := by
    intro y hy h0
    obtain ⟨m, e, hm, he, rfl⟩ := hy
    have hm0 : 0 ≤ m := by
      have h1 : ((0 : Int) : Rat) ≤ m := by
        refine Rat.le_of_mul_le_mul_right (c := (2 : Rat) ^ e) ?_ (two_zpow_pos e)
        rw [show ((0 : Int) : Rat) = 0 from rfl, Rat.zero_mul]; exact h0
      exact Rat.intCast_le_intCast.1 h1
    by_cases he0 : 0 ≤ e
    · obtain ⟨k, hk⟩ := multiple (m := m) he0
      rw [hk, Rat.zpow_zero, Rat.mul_one, Rat.floor_intCast, show (k : Rat) - k = 0 by grind]
      exact isDouble_zero
    · obtain ⟨n, rfl⟩ : ∃ n : Nat, e = -(n : Int) := ⟨(-e).toNat, by omega⟩
      have hp := two_zpow_pos (-(n : Int))
      have hinv : (2 : Rat) ^ (-(n : Int)) * ((2 ^ n : Nat) : Rat) = 1 := by
        rw [← two_zpow_nat, ← two_zpow_add, show -(n : Int) + n = 0 by omega, Rat.zpow_zero]
      have hdm : m = m / (2 ^ n : Nat) * (2 ^ n : Nat) + m % (2 ^ n : Nat) := by
        rw [Int.mul_comm]; exact (Int.mul_ediv_add_emod m _).symm
      have hp2 : (0 : Int) < (2 ^ n : Nat) := by exact_mod_cast Nat.two_pow_pos n
      have hr0 := Int.emod_nonneg m (Int.ne_of_gt hp2)
      have hr1 := Int.emod_lt_of_pos m hp2
      have hmr : (m : Rat) * 2 ^ (-(n : Int)) = ((m / (2 ^ n : Nat) : Int) : Rat) + ((m % (2 ^ n : Nat) : Int) : Rat) * 2 ^ (-(n : Int)) := by
        have h1 := congrArg (fun i : Int => (i : Rat)) hdm
        simp only [Rat.intCast_add, Rat.intCast_mul, Rat.intCast_natCast] at h1
        have h2 := congrArg (· * (2 : Rat) ^ (-(n : Int))) h1
        rw [h2]
        grind
      have hfl : ((m : Rat) * 2 ^ (-(n : Int))).floor = m / (2 ^ n : Nat) := by
        have a1 : (m / (2 ^ n : Nat)) ≤ ((m : Rat) * 2 ^ (-(n : Int))).floor := by
          rw [Rat.le_floor_iff, hmr]
          have : 0 ≤ ((m % (2 ^ n : Nat) : Int) : Rat) * 2 ^ (-(n : Int)) :=
            Rat.mul_nonneg (Rat.intCast_nonneg.2 hr0) (Rat.le_of_lt hp)
          grind
        have a2 : ((m : Rat) * 2 ^ (-(n : Int))).floor < m / (2 ^ n : Nat) + 1 := by
          rw [Rat.floor_lt_iff, hmr, Rat.intCast_add, Rat.intCast_one]
          have h1 : ((m % (2 ^ n : Nat) : Int) : Rat) < ((2 ^ n : Nat) : Rat) := by
            rw [← Rat.intCast_natCast]; exact Rat.intCast_lt_intCast.2 hr1
          have h2 := Rat.mul_lt_mul_of_pos_right h1 hp
          grind
        omega
      rw [hfl, hmr, show ∀ a b : Rat, a + b - a = b from fun a b => by grind]
      refine ⟨_, _, ?_, he, rfl⟩
      have h3 : 0 ≤ m / (2 ^ n : Nat) * (2 ^ n : Nat) :=
        Int.mul_nonneg (Int.ediv_nonneg hm0 (Int.le_of_lt hp2)) (Int.le_of_lt hp2)
      generalize m % (2 ^ n : Nat) = r at *
      generalize m / (2 ^ n : Nat) * (2 ^ n : Nat) = k at *
      omega
  unfold truncRat
  split
  · exact hpos x h ‹_›
  · have := isDouble_neg (hpos (-x) (isDouble_neg h) (by grind))
    rw [show x - ((-(-x).floor : Int) : Rat) = -(-x - ((-x).floor : Rat)) by rw [Rat.intCast_neg]; grind]
    exact this

end CP
