import Verif.Model.XlDate
import Verif.Spec.Calendar
/-!
# Lemmas: the Julian day number formulas are the Gregorian calendar
-/

namespace CP
open Spec

/-! ### Rounding -/

theorem roundHalfEven_near (q : Rat) :
    (roundHalfEven q : Rat) - q ≤ 1 / 2 ∧ q - (roundHalfEven q : Rat) ≤ 1 / 2 := by
  have h1 := Rat.floor_le q
  have h2 := Rat.lt_floor_add_one q
  unfold roundHalfEven
  simp only [Rat.intCast_add, Rat.intCast_one] at h2
  dsimp only
  split
  · grind
  · split
    · simp only [Rat.intCast_add, Rat.intCast_one]; grind
    · split
      · grind
      · simp only [Rat.intCast_add, Rat.intCast_one]; grind

theorem intCast_le_of {a b : Int} (h : (a : Rat) ≤ (b : Rat)) : a ≤ b := Rat.intCast_le_intCast.1 h

theorem roundHalfEven_range {q : Rat} {n : Int} (h0 : 0 ≤ q) (h1 : q ≤ n) :
    0 ≤ roundHalfEven q ∧ roundHalfEven q ≤ n := by
  have h := roundHalfEven_near q
  constructor
  · have h2 : (-1 : Rat) < (roundHalfEven q : Rat) := by grind
    have h3 : ((-1 : Int) : Rat) < (roundHalfEven q : Rat) := by simpa using h2
    have := Rat.intCast_lt_intCast.1 h3
    omega
  · have h2 : (roundHalfEven q : Rat) < (n : Rat) + 1 := by grind
    have h3 : (roundHalfEven q : Rat) < ((n + 1 : Int) : Rat) := by simpa using h2
    have := Rat.intCast_lt_intCast.1 h3
    omega

theorem roundHalfEven_int (n : Int) : roundHalfEven (n : Rat) = n := by
  have h := roundHalfEven_near (n : Rat)
  have h2 : (roundHalfEven (n : Rat) : Rat) < ((n + 1 : Int) : Rat) := by
    simp only [Rat.intCast_add, Rat.intCast_one]; grind
  have h3 : ((n - 1 : Int) : Rat) < (roundHalfEven (n : Rat) : Rat) := by
    simp only [Rat.intCast_sub, Rat.intCast_one]; grind
  have := Rat.intCast_lt_intCast.1 h2
  have := Rat.intCast_lt_intCast.1 h3
  omega

theorem roundHalfEven_nearest (q : Rat) : NearestEven (roundHalfEven q) q := by
  have hn := roundHalfEven_near q
  refine ⟨hn.1, hn.2, ?_⟩
  unfold roundHalfEven
  dsimp only
  split
  · intro h; exfalso
    have h1 := Rat.floor_le q
    rcases h with h | h
    · have h3 : 1 / 2 ≤ (q.floor : Rat) - q := by rw [h]; exact Rat.le_refl
      grind
    · have h3 : 1 / 2 ≤ q - (q.floor : Rat) := by rw [h]; exact Rat.le_refl
      grind
  · split
    · intro h; exfalso
      have h2 := Rat.lt_floor_add_one q
      simp only [Rat.intCast_add, Rat.intCast_one] at h h2
      rcases h with h | h
      · have h3 : 1 / 2 ≤ (q.floor : Rat) + 1 - q := by rw [h]; exact Rat.le_refl
        grind
      · have h3 : 1 / 2 ≤ q - ((q.floor : Rat) + 1) := by rw [h]; exact Rat.le_refl
        grind
    · split
      · intro _; assumption
      · intro _; omega

theorem nearestEven_unique {m n : Int} {q : Rat} (hm : NearestEven m q) (hn : NearestEven n q) :
    m = n := by
  obtain ⟨a1, a2, a3⟩ := hm
  obtain ⟨b1, b2, b3⟩ := hn
  have h1 : (m : Rat) ≤ ((n + 1 : Int) : Rat) := by
    simp only [Rat.intCast_add, Rat.intCast_one]; grind
  have h2 : (n : Rat) ≤ ((m + 1 : Int) : Rat) := by
    simp only [Rat.intCast_add, Rat.intCast_one]; grind
  have h1 := Rat.intCast_le_intCast.1 h1
  have h2 := Rat.intCast_le_intCast.1 h2
  by_cases e1 : m = n + 1
  · exfalso
    subst e1
    simp only [Rat.intCast_add, Rat.intCast_one] at a1 a2 a3
    have e3 : q - n = 1 / 2 := by grind
    have e4 : (n : Rat) + 1 - q = 1 / 2 := by grind
    have := a3 (Or.inl e4)
    have := b3 (Or.inr e3)
    omega
  · by_cases e2 : n = m + 1
    · exfalso
      subst e2
      simp only [Rat.intCast_add, Rat.intCast_one] at b1 b2 b3
      have e3 : q - m = 1 / 2 := by grind
      have e4 : (m : Rat) + 1 - q = 1 / 2 := by grind
      have := b3 (Or.inl e4)
      have := a3 (Or.inr e3)
      omega
    · omega

theorem nearestEven_shift {n k : Int} {q : Rat} (hk : k % 2 = 0) (h : NearestEven n q) :
    NearestEven (k + n) (k + q) := by
  obtain ⟨a1, a2, a3⟩ := h
  refine ⟨?_, ?_, ?_⟩
  · simp only [Rat.intCast_add]; grind
  · simp only [Rat.intCast_add]; grind
  · simp only [Rat.intCast_add]
    intro h
    have : n % 2 = 0 := a3 (by rcases h with h | h
                               · left; grind
                               · right; grind)
    omega

theorem truncRat_int {n : Int} : truncRat (n : Rat) = n := by
  unfold truncRat
  split
  · exact Rat.floor_intCast n
  · rw [← Rat.intCast_neg, Rat.floor_intCast]; omega

/-! ### Day numbers -/

/-- From a year counted from March (`yp`), and the day in it, back to both. -/
theorem yreg_spec (yp doy : Int) (h0 : 0 ≤ doy)
    (h1 : doy ≤ 364 ∨ (doy = 365 ∧ IsLeap (yp - 4716 + 1))) :
    let j := 1461 * yp / 4 + doy - 1363 - ((yp + 184) / 100) * 3 / 4
    let yreg := ((((j * 4 + 274277) / 146097) * 3 / 4) + j + 1363) * 4 + 3
    yreg / 1461 = yp ∧ (yreg % 1461) / 4 = doy := by
  intro j yreg
  have hj : j = 1461 * yp / 4 + doy - 1363 - ((yp + 184) / 100) * 3 / 4 := rfl
  have hy : yreg = ((((j * 4 + 274277) / 146097) * 3 / 4) + j + 1363) * 4 + 3 := rfl
  clear_value yreg j
  obtain ⟨g, hg⟩ : ∃ g, g = (yp + 184) / 100 := ⟨_, rfl⟩
  obtain ⟨a, ha⟩ : ∃ a, a = g / 4 := ⟨_, rfl⟩
  obtain ⟨r, hr⟩ : ∃ r, r = (yp + 184) % 100 := ⟨_, rfl⟩
  have hyp : yp = 100 * g + r - 184 := by omega
  have hr' : 0 ≤ r ∧ r < 100 := by omega
  have hleap : doy ≤ 364 ∨ (doy = 365 ∧ r % 4 = 3 ∧ (r = 99 → g % 4 = 0)) := by
    rcases h1 with h | ⟨h, h2⟩
    · exact Or.inl h
    · refine Or.inr ⟨h, ?_⟩
      obtain ⟨h3, h4⟩ := h2
      refine ⟨by omega, ?_⟩
      intro h5
      have := h4 (by omega)
      omega
  rw [← hg] at hj
  clear h1 hg hr
  have hb : g = 4 * a ∨ g = 4 * a + 1 ∨ g = 4 * a + 2 ∨ g = 4 * a + 3 := by omega
  clear ha
  have hc : ((j * 4 + 274277) / 146097) * 3 / 4 = g * 3 / 4 := by
    rcases hb with hb | hb | hb | hb <;> subst hb <;> subst hyp <;> subst hj <;> omega
  rw [hc] at hy
  obtain ⟨k, hk⟩ : ∃ k, k = 1461 * yp / 4 := ⟨_, rfl⟩
  have hy2 : yreg = 4 * k + 4 * doy + 3 := by omega
  have h4 : doy ≤ 364 ∨ (doy = 365 ∧ yp % 4 = 3) := by omega
  clear hy hc hb hleap hyp hr' hj
  have h5 : yreg / 1461 = yp := by omega
  have h6 : yreg % 1461 = yreg - 1461 * yp := by omega
  refine ⟨h5, ?_⟩
  rw [h6]
  omega

theorem monthLength_cases (y m : Int) (h1 : 1 ≤ m) (h2 : m ≤ 12) :
    (m = 1 ∧ monthLength y m = 31) ∨ (m = 2 ∧ monthLength y m = if IsLeap y then 29 else 28) ∨
    (m = 3 ∧ monthLength y m = 31) ∨ (m = 4 ∧ monthLength y m = 30) ∨
    (m = 5 ∧ monthLength y m = 31) ∨ (m = 6 ∧ monthLength y m = 30) ∨
    (m = 7 ∧ monthLength y m = 31) ∨ (m = 8 ∧ monthLength y m = 31) ∨
    (m = 9 ∧ monthLength y m = 30) ∨ (m = 10 ∧ monthLength y m = 31) ∨
    (m = 11 ∧ monthLength y m = 30) ∨ (m = 12 ∧ monthLength y m = 31) := by
  have : m = 1 ∨ m = 2 ∨ m = 3 ∨ m = 4 ∨ m = 5 ∨ m = 6 ∨ m = 7 ∨ m = 8 ∨ m = 9 ∨ m = 10 ∨
      m = 11 ∨ m = 12 := by omega
  rcases this with h | h | h | h | h | h | h | h | h | h | h | h <;> subst h <;>
    simp [monthLength]

/-- `ymdOfJdn` inverts `jdnOfYmd`. -/
theorem ymd_jdn (t : Date) (h : t.Valid) : ymdOfJdn (jdnOfYmd t.y t.m t.d) = (t.y, t.m, t.d) := by
  obtain ⟨y, m, d⟩ := t
  obtain ⟨h1, h2, h3, h4⟩ := h
  simp only at h1 h2 h3 h4
  obtain ⟨yp, hyp⟩ : ∃ yp, yp = if m ≤ 2 then y + 4716 - 1 else y + 4716 := ⟨_, rfl⟩
  obtain ⟨mp, hmp⟩ : ∃ mp, mp = if m ≤ 2 then m + 9 else m - 3 := ⟨_, rfl⟩
  obtain ⟨doy, hdoy⟩ : ∃ doy, doy = (979 * mp + 16) / 32 + d - 1 := ⟨_, rfl⟩
  have hj : jdnOfYmd y m d = 1461 * yp / 4 + doy - 1363 - ((yp + 184) / 100) * 3 / 4 := by
    unfold jdnOfYmd
    by_cases h : m ≤ 2
    · simp only [h, if_true] at hyp hmp ⊢; subst hyp hmp hdoy; omega
    · simp only [h, if_false] at hyp hmp ⊢; subst hyp hmp hdoy; omega
  have hmc := monthLength_cases y m h1 h2
  have hd : 0 ≤ doy ∧ (doy ≤ 364 ∨ (doy = 365 ∧ IsLeap (yp - 4716 + 1))) := by
    rcases hmc with ⟨hm, hl⟩ | ⟨hm, hl⟩ | ⟨hm, hl⟩ | ⟨hm, hl⟩ | ⟨hm, hl⟩ | ⟨hm, hl⟩ | ⟨hm, hl⟩ |
      ⟨hm, hl⟩ | ⟨hm, hl⟩ | ⟨hm, hl⟩ | ⟨hm, hl⟩ | ⟨hm, hl⟩
    case inr.inl =>
      subst hm
      rw [hl] at h4
      simp only [show (2:Int) ≤ 2 by omega, if_true] at hyp hmp
      have : yp - 4716 + 1 = y := by omega
      rw [this]
      split at h4
      · rename_i hleap
        refine ⟨by omega, ?_⟩
        by_cases h29 : d = 29
        · right; exact ⟨by omega, hleap⟩
        · left; omega
      · exact ⟨by omega, Or.inl (by omega)⟩
    all_goals
      subst hm
      rw [hl] at h4
      simp at hmp
      exact ⟨by omega, Or.inl (by omega)⟩
  have hs := yreg_spec yp doy hd.1 hd.2
  rw [← hj] at hs
  unfold ymdOfJdn
  dsimp only at hs ⊢
  rw [hs.1, hs.2]
  have hmd : (doy * 535 + 333) / 16384 = mp ∧ ((doy * 535 + 333) % 16384) / 535 + 1 = d := by
    rcases hmc with ⟨hm, hl⟩ | ⟨hm, hl⟩ | ⟨hm, hl⟩ | ⟨hm, hl⟩ | ⟨hm, hl⟩ | ⟨hm, hl⟩ | ⟨hm, hl⟩ |
      ⟨hm, hl⟩ | ⟨hm, hl⟩ | ⟨hm, hl⟩ | ⟨hm, hl⟩ | ⟨hm, hl⟩
    case inr.inl =>
      subst hm
      simp at hmp
      have : d ≤ 29 := by rw [hl] at h4; split at h4 <;> omega
      subst hmp
      omega
    all_goals
      subst hm
      rw [hl] at h4
      simp at hmp
      subst hmp
      omega
  rw [hmd.1, hmd.2]
  by_cases h : m ≤ 2
  · simp only [h, if_true] at hyp hmp
    rw [if_pos (by omega)]
    simp only [Prod.mk.injEq]
    exact ⟨by omega, by omega, trivial⟩
  · simp only [h, if_false] at hyp hmp
    rw [if_neg (by omega)]
    simp only [Prod.mk.injEq]
    exact ⟨by omega, by omega, trivial⟩

theorem next_valid {t : Date} (h : t.Valid) : t.next.Valid := by
  obtain ⟨h1, h2, h3, h4⟩ := h
  unfold Date.next
  split
  · exact ⟨h1, h2, by simp only; omega, by simp only; omega⟩
  · split
    · refine ⟨by simp only; omega, by simp only; omega, by simp, ?_⟩
      rcases monthLength_cases t.y (t.m + 1) (by omega) (by omega) with h | h | h | h | h | h | h |
        h | h | h | h | h <;> simp only [h.2] <;> first | omega | (split <;> omega)
    · refine ⟨by simp, by simp, by simp, by simp [monthLength]⟩

theorem year_step (y : Int) :
    1461 * (y + 4716) / 4 - 1461 * (y + 4716 - 1) / 4 = if y % 4 = 0 then 366 else 365 := by
  have h (k : Int) : 1461 * k / 4 = 365 * k + k / 4 := by omega
  rw [h, h]
  split <;> omega

theorem century_step (y : Int) :
    ((y + 4716 + 184) / 100) * 3 / 4 - ((y + 4716 - 1 + 184) / 100) * 3 / 4 =
      if y % 100 = 0 ∧ y % 400 ≠ 0 then 1 else 0 := by
  obtain ⟨a, r, h1, h2, h3⟩ : ∃ a r : Int, y + 4900 = 400 * a + r ∧ 0 ≤ r ∧ r < 400 :=
    ⟨(y + 4900) / 400, (y + 4900) % 400, by omega, by omega, by omega⟩
  have e1 : y + 4716 + 184 = 400 * a + r := by omega
  have e2 : y + 4716 - 1 + 184 = 400 * a + r - 1 := by omega
  rw [e1, e2]
  have h4 : y % 100 = r % 100 ∧ (y % 400 = 0 ↔ r = 100) := by omega
  split
  · have : r = 0 ∨ r = 200 ∨ r = 300 := by omega
    rcases this with h | h | h <;> subst h <;> omega
  · have : r = 100 ∨ r % 100 ≠ 0 := by omega
    rcases this with h | h
    · subst h; omega
    · have : (400 * a + r) / 100 = (400 * a + r - 1) / 100 := by omega
      rw [this]; omega

theorem jdn_next {t : Date} (h : t.Valid) :
    jdnOfYmd t.next.y t.next.m t.next.d = jdnOfYmd t.y t.m t.d + 1 := by
  obtain ⟨y, m, d⟩ := t
  obtain ⟨h1, h2, h3, h4⟩ := h
  simp only at h1 h2 h3 h4
  unfold Date.next
  simp only
  split
  · simp only [jdnOfYmd]; split <;> simp only <;> omega
  · rename_i hd
    have hdm : d = monthLength y m := by omega
    clear h4 hd
    split
    · rename_i hm
      rcases monthLength_cases y m h1 h2 with ⟨hm', hl⟩ | ⟨hm', hl⟩ | ⟨hm', hl⟩ | ⟨hm', hl⟩ |
        ⟨hm', hl⟩ | ⟨hm', hl⟩ | ⟨hm', hl⟩ | ⟨hm', hl⟩ | ⟨hm', hl⟩ | ⟨hm', hl⟩ | ⟨hm', hl⟩ | ⟨hm', hl⟩
      case inr.inl =>
        subst hm'
        rw [hdm, hl]
        simp [jdnOfYmd]
        by_cases hleap : IsLeap y
        · rw [if_pos hleap]
          obtain ⟨ha, hb⟩ := hleap
          have h5 := year_step y
          have h6 := century_step y
          rw [if_pos ha] at h5
          rw [if_neg (by omega)] at h6
          omega
        · rw [if_neg hleap]
          have : y % 4 ≠ 0 ∨ (y % 100 = 0 ∧ y % 400 ≠ 0) := by
            unfold IsLeap at hleap; omega
          have h5 := year_step y
          have h6 := century_step y
          rcases this with h | h
          · rw [if_neg (by omega)] at h5 h6; omega
          · rw [if_pos (by omega)] at h5 h6; omega
      all_goals
        subst hm'
        rw [hdm, hl]
        simp [jdnOfYmd]
        try omega
    · have : m = 12 := by omega
      subst this
      rw [hdm]
      have e : y + 1 + 4716 - 1 = y + 4716 := by omega
      simp [jdnOfYmd, monthLength, e]
      omega

theorem addDays_valid {t : Date} (h : t.Valid) (n : Nat) : (t.addDays n).Valid := by
  induction n with
  | zero => exact h
  | succ n ih => exact next_valid ih

theorem jdn_addDays {t : Date} (h : t.Valid) (n : Nat) :
    jdnOfYmd (t.addDays n).y (t.addDays n).m (t.addDays n).d = jdnOfYmd t.y t.m t.d + n := by
  induction n with
  | zero => simp [Date.addDays]
  | succ n ih =>
    show jdnOfYmd (t.addDays n).next.y (t.addDays n).next.m (t.addDays n).next.d = _
    rw [jdn_next (addDays_valid h n), ih]
    omega

/-- The formula gives the date `n` days after `t`. -/
theorem ymdOfJdn_addDays {t : Date} (h : t.Valid) (n : Nat) :
    ymdOfJdn (jdnOfYmd t.y t.m t.d + n) = ((t.addDays n).y, (t.addDays n).m, (t.addDays n).d) := by
  rw [← jdn_addDays h n]
  exact ymd_jdn _ (addDays_valid h n)

theorem jdn_inj {s t : Date} (hs : s.Valid) (ht : t.Valid)
    (h : jdnOfYmd s.y s.m s.d = jdnOfYmd t.y t.m t.d) : s = t := by
  have h1 := ymd_jdn s hs
  rw [h, ymd_jdn t ht] at h1
  obtain ⟨y, m, d⟩ := s
  obtain ⟨y', m', d'⟩ := t
  simp only [Prod.mk.injEq] at h1
  obtain ⟨rfl, rfl, rfl⟩ := h1
  rfl

theorem addDays_add (t : Date) (m n : Nat) : t.addDays (m + n) = (t.addDays m).addDays n := by
  induction n with
  | zero => rfl
  | succ n ih => exact congrArg Date.next ih

theorem addDays_year_mono (t : Date) (n : Nat) : t.y ≤ (t.addDays n).y := by
  induction n with
  | zero => exact Int.le_refl _
  | succ n ih =>
    refine Int.le_trans ih ?_
    show _ ≤ (t.addDays n).next.y
    unfold Date.next
    split
    · simp
    · split <;> simp only <;> omega

/-- A valid date not before `t` is reached from `t`. -/
theorem addDays_of_jdn {s t : Date} (hs : s.Valid) (ht : t.Valid)
    (h : jdnOfYmd t.y t.m t.d ≤ jdnOfYmd s.y s.m s.d) :
    s = t.addDays (jdnOfYmd s.y s.m s.d - jdnOfYmd t.y t.m t.d).toNat := by
  apply jdn_inj hs (addDays_valid ht _)
  rw [jdn_addDays ht]
  omega

end CP
