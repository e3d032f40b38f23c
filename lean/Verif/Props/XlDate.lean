import Verif.Lemmas.Calendar
import Verif.Lemmas.Float64
import Verif.Props.Masks
/-!
# C32-C36, C53, C54: Excel dates
-/

namespace CP
open Spec

/-- What is needed of the float multiplications: zero stays zero and a fraction of the
day does not exceed the day.  Rounding to float, being monotone, has both. -/
structure XlMul.Sane (M : XlMul) : Prop where
  sec0 : M.sec 0 = 0
  ms0 : M.ms 0 = 0
  sec : ∀ f, 0 ≤ f → f < 1 → 0 ≤ M.sec f ∧ M.sec f ≤ 86400

/-- Exact multiplication. -/
def exactMul : XlMul := ⟨(· * 86400), (· * 86400000)⟩

theorem exactMul_sane : exactMul.Sane := by
  refine ⟨by decide +kernel, by decide +kernel, ?_⟩
  intro f h0 h1
  simp only [exactMul]
  constructor <;> grind

/-- The multiplication of the code. -/
theorem ieeeMul_sane : ieeeMul.Sane := by
  refine ⟨?_, ?_, fun f h0 h1 => ?_⟩
  · show f64 (0 * 86400) = 0
    rw [Rat.zero_mul, f64_zero]
  · show f64 (0 * 86400000) = 0
    rw [Rat.zero_mul, f64_zero]
  · refine ⟨f64_nonneg (by grind), ?_⟩
    have h2 : f64 (f * 86400) ≤ f64 ((86400 : Int) : Rat) := f64_mono (by show f * 86400 ≤ 86400; grind)
    rw [f64_int (by decide)] at h2
    exact h2

/-- The seconds since day 0, before rounding. -/
def totalSeconds (M : XlMul) (x : Rat) : Rat := x.floor * 86400 + M.sec (x - x.floor)

theorem totalSeconds_exact (x : Rat) : totalSeconds exactMul x = x * 86400 := by
  unfold totalSeconds exactMul
  grind

theorem floor_frac (x : Rat) : 0 ≤ x - x.floor ∧ x - x.floor < 1 := by
  have h1 := Rat.floor_le x
  have h2 := Rat.lt_floor_add_one x
  simp only [Rat.intCast_add, Rat.intCast_one] at h2
  constructor <;> grind

theorem floor_nonneg {x : Rat} (h : 0 ≤ x) : 0 ≤ x.floor := by
  have h2 := Rat.lt_floor_add_one x
  have h3 : ((0 : Int) : Rat) < ((x.floor + 1 : Int) : Rat) := by
    simp only [Rat.intCast_zero]; grind
  have := Rat.intCast_lt_intCast.1 h3
  omega

/-- `xldate_as_tuple` in terms of the rounded number of seconds. -/
theorem xldateAsTuple_eq {M : XlMul} (hM : M.Sane) {x : Rat} (hx : 0 ≤ x) {dm : Int}
    (hdm : dm = 0 ∨ dm = 1) {S : Int} (hS : NearestEven S (totalSeconds M x)) :
    0 ≤ S ∧ xldateAsTuple M x dm =
      if S / 86400 ≥ xldaysTooLarge dm then .error .xldateTooLarge
      else if S / 86400 = 0 then
        .ok ⟨0, 0, 0, S % 86400 / 60 / 60, S % 86400 / 60 % 60, S % 86400 % 60⟩
      else if S / 86400 < 61 ∧ dm = 0 then .error .xldateAmbiguous
      else .ok ⟨(ymdOfJdn (S / 86400 + jdnDelta dm)).1, (ymdOfJdn (S / 86400 + jdnDelta dm)).2.1,
        (ymdOfJdn (S / 86400 + jdnDelta dm)).2.2,
        S % 86400 / 60 / 60, S % 86400 / 60 % 60, S % 86400 % 60⟩ := by
  have hfr := floor_frac x
  have hfl := floor_nonneg hx
  have hsec := hM.sec _ hfr.1 hfr.2
  have hr : 0 ≤ roundHalfEven (M.sec (x - x.floor)) ∧
      roundHalfEven (M.sec (x - x.floor)) ≤ 86400 :=
    roundHalfEven_range hsec.1 (by simpa using hsec.2)
  have hSe : S = x.floor * 86400 + roundHalfEven (M.sec (x - x.floor)) := by
    apply nearestEven_unique hS
    unfold totalSeconds
    have := nearestEven_shift (k := x.floor * 86400) (by omega)
      (roundHalfEven_nearest (M.sec (x - x.floor)))
    simpa [Rat.intCast_mul] using this
  have h0 : 0 ≤ S := by
    rw [hSe]
    have : 0 ≤ x.floor * 86400 := by omega
    omega
  refine ⟨h0, ?_⟩
  unfold xldateAsTuple
  rw [if_neg (by omega)]
  by_cases hx0 : x = 0
  · subst hx0
    have : S = 0 := by
      rw [hSe]
      have e : (0 : Rat).floor = 0 := by decide +kernel
      rw [e]
      have e2 : (0 : Rat) - ((0 : Int) : Rat) = 0 := by decide +kernel
      rw [e2, hM.sec0]
      decide +kernel
    subst this
    rcases hdm with h | h <;> subst h <;> simp [xldaysTooLarge]
  · rw [if_neg hx0, if_neg (by exact Rat.not_lt.2 hx)]
    have ht : truncRat x = x.floor := by unfold truncRat; rw [if_pos hx]
    rw [ht]
    dsimp only
    generalize hs : roundHalfEven (M.sec (x - x.floor)) = s at hr hSe
    rw [if_neg (by omega)]
    by_cases h8 : s = 86400
    · subst h8
      have e1 : S / 86400 = x.floor + 1 := by omega
      have e2 : S % 86400 = 0 := by omega
      rw [e1, e2]
      simp
    · have e1 : S / 86400 = x.floor := by omega
      have e2 : S % 86400 = s := by omega
      rw [e1, e2]
      simp [h8]

theorem jdn_dayZero {dm : Int} (hdm : dm = 0 ∨ dm = 1) :
    (dayZero dm).Valid ∧ jdnOfYmd (dayZero dm).y (dayZero dm).m (dayZero dm).d = jdnDelta dm := by
  rcases hdm with h | h <;> subst h <;> decide

theorem ymd_day {dm : Int} (hdm : dm = 0 ∨ dm = 1) (n : Nat) :
    ymdOfJdn (n + jdnDelta dm) = (((dayZero dm).addDays n).y, ((dayZero dm).addDays n).m,
      ((dayZero dm).addDays n).d) := by
  obtain ⟨h1, h2⟩ := jdn_dayZero hdm
  rw [Int.add_comm, ← h2]
  exact ymdOfJdn_addDays h1 n

/-- The days of year 10000 and later are those beyond the limit. -/
theorem tooLarge_iff {dm : Int} (hdm : dm = 0 ∨ dm = 1) (n : Nat) :
    (n : Int) ≥ xldaysTooLarge dm ↔ 10000 ≤ ((dayZero dm).addDays n).y := by
  obtain ⟨N, hN⟩ : ∃ N : Nat, (N : Int) + 1 = xldaysTooLarge dm :=
    ⟨(xldaysTooLarge dm - 1).toNat, by unfold xldaysTooLarge; split <;> omega⟩
  have h1 : ((dayZero dm).addDays N).y = 9999 ∧ ((dayZero dm).addDays (N + 1)).y = 10000 := by
    have e1 := congrArg Prod.fst (ymd_day hdm N)
    have e2 := congrArg Prod.fst (ymd_day hdm (N + 1))
    rw [Int.natCast_add, Int.natCast_one, hN] at e2
    rw [show (N : Int) = xldaysTooLarge dm - 1 by omega] at e1
    simp only at e1 e2
    rw [← e1, ← e2]
    rcases hdm with h | h <;> subst h <;> decide
  constructor
  · intro h
    have e : n = (N + 1) + (n - (N + 1)) := by omega
    rw [e, addDays_add]
    have := addDays_year_mono ((dayZero dm).addDays (N + 1)) (n - (N + 1))
    omega
  · intro h
    have hlt : ¬ n ≤ N := by
      intro hle
      have e : N = n + (N - n) := by omega
      have := addDays_year_mono ((dayZero dm).addDays n) (N - n)
      rw [← addDays_add, ← e] at this
      omega
    omega

theorem totalSeconds_whole {M : XlMul} (hM : M.Sane) (n : Int) :
    NearestEven (n * 86400) (totalSeconds M n) := by
  have : totalSeconds M n = ((n * 86400 : Int) : Rat) := by
    unfold totalSeconds
    rw [Rat.floor_intCast]
    have e : (n : Rat) - (n : Rat) = 0 := by grind
    rw [e, hM.sec0]
    simp only [Rat.intCast_mul]
    grind
  rw [this]
  have := roundHalfEven_nearest ((n * 86400 : Int) : Rat)
  rwa [roundHalfEven_int] at this

/-- C32 -/
theorem C32_serial_days {M : XlMul} (hM : M.Sane) (n : Nat) (dm : Int) (hdm : dm = 0 ∨ dm = 1)
    (hn : n ≠ 0) (h61 : dm = 0 → 61 ≤ n) (hy : ((dayZero dm).addDays n).y < 10000) :
    xldateAsTuple M n dm = .ok ⟨((dayZero dm).addDays n).y, ((dayZero dm).addDays n).m,
      ((dayZero dm).addDays n).d, 0, 0, 0⟩ := by
  have hS := totalSeconds_whole hM (n : Int)
  have h := (xldateAsTuple_eq hM (x := ((n : Int) : Rat)) (by
    have : ((0 : Int) : Rat) ≤ ((n : Int) : Rat) := Rat.intCast_le_intCast.2 (by omega)
    simpa using this) hdm hS).2
  have e1 : (n : Int) * 86400 / 86400 = n := by omega
  have e2 : (n : Int) * 86400 % 86400 = 0 := by omega
  rw [e1, e2, ymd_day hdm n] at h
  have hl := tooLarge_iff hdm n
  rw [if_neg (by rw [hl]; omega), if_neg (by omega), if_neg (by omega)] at h
  show xldateAsTuple M ((n : Int) : Rat) dm = _
  simpa using h

example : (dayZero 0).addDays 61 = ⟨1900, 3, 1⟩ ∧ (dayZero 1).addDays 1 = ⟨1904, 1, 2⟩ := by decide +kernel

example : xldateAsTuple exactMul 43831 0 = .ok ⟨2020, 1, 1, 0, 0, 0⟩ ∧
    xldateAsTuple exactMul 42369 1 = .ok ⟨2020, 1, 1, 0, 0, 0⟩ := by decide +kernel

/-- The dates `xldate_from_date_tuple` accepts (other than 0,0,0). -/
def Accepted (dm : Int) (t : Date) : Prop :=
  t.Valid ∧ t.y ≤ 9999 ∧ ∃ n : Nat, 1 ≤ n ∧ (dm = 0 → 61 ≤ n) ∧ t = (dayZero dm).addDays n

theorem valid_iff_check {y m d : Int} : (⟨y, m, d⟩ : Date).Valid ↔
    (1 ≤ m ∧ m ≤ 12) ∧
      ¬ (d < 1 ∨ (d > xlDaysInMonth m ∧ ¬ (d = 29 ∧ m = 2 ∧ xlLeap y = true))) := by
  have hl : xlLeap y = true ↔ IsLeap y := by
    unfold xlLeap IsLeap
    split
    · simp; omega
    · split
      · simp; omega
      · split
        · simp; omega
        · simp; omega
  rw [hl]
  unfold Date.Valid
  simp only
  constructor
  · rintro ⟨h1, h2, h3, h4⟩
    refine ⟨⟨h1, h2⟩, ?_⟩
    rcases monthLength_cases y m h1 h2 with h | h | h | h | h | h | h | h | h | h | h | h <;>
      obtain ⟨hm, hml⟩ := h <;> subst hm <;> rw [hml] at h4 <;> simp only [xlDaysInMonth] <;>
      first
      | omega
      | (split at h4
         · rename_i hleap
           intro hc
           rcases hc with hc | ⟨hc, hc2⟩
           · omega
           · exact hc2 ⟨by omega, trivial, hleap⟩
         · omega)
  · rintro ⟨⟨h1, h2⟩, h3⟩
    refine ⟨h1, h2, by omega, ?_⟩
    rcases monthLength_cases y m h1 h2 with h | h | h | h | h | h | h | h | h | h | h | h <;>
      obtain ⟨hm, hml⟩ := h <;> subst hm <;> rw [hml] <;> simp only [xlDaysInMonth] at h3 <;>
      first
      | omega
      | (split
         · rename_i hleap
           by_cases h29 : d ≤ 29
           · exact h29
           · exfalso; apply h3; right; exact ⟨by omega, by omega⟩
         · rename_i hleap
           by_cases h29 : d ≤ 28
           · exact h29
           · exfalso; apply h3; right; exact ⟨by omega, fun hc => hleap hc.2.2⟩)

/-- `xldate_from_date_tuple` accepts exactly the valid dates in range and gives their
day number. -/
theorem C33_accepted (dm : Int) (hdm : dm = 0 ∨ dm = 1) (y m d n : Int) :
    xldateFromDateTuple y m d dm = .ok n ↔
      (y = 0 ∧ m = 0 ∧ d = 0 ∧ n = 0) ∨
      (Accepted dm ⟨y, m, d⟩ ∧ 0 ≤ n ∧ ⟨y, m, d⟩ = (dayZero dm).addDays n.toNat) := by
  obtain ⟨hv0, hj0⟩ := jdn_dayZero hdm
  have hz : ¬ (⟨0, 0, 0⟩ : Date).Valid := by decide
  have hmono : ∀ k : Nat, (dayZero dm).y ≤ ((dayZero dm).addDays k).y := addDays_year_mono _
  unfold xldateFromDateTuple
  rw [if_neg (by omega)]
  by_cases h0 : y = 0 ∧ m = 0 ∧ d = 0
  · rw [if_pos h0]
    obtain ⟨rfl, rfl, rfl⟩ := h0
    constructor
    · intro h; simp at h; left; simp [h]
    · rintro (h | h)
      · rw [h.2.2.2]
      · exact absurd h.1.1 hz
  · rw [if_neg h0]
    have hR : ((y = 0 ∧ m = 0 ∧ d = 0 ∧ n = 0) ∨
      (Accepted dm ⟨y, m, d⟩ ∧ 0 ≤ n ∧ ⟨y, m, d⟩ = (dayZero dm).addDays n.toNat)) ↔
      (Accepted dm ⟨y, m, d⟩ ∧ 0 ≤ n ∧ ⟨y, m, d⟩ = (dayZero dm).addDays n.toNat) := by
      constructor
      · rintro (h | h)
        · exact absurd ⟨h.1, h.2.1, h.2.2.1⟩ h0
        · exact h
      · exact Or.inr
    rw [hR]
    have hyr : Accepted dm ⟨y, m, d⟩ → 1900 ≤ y ∧ y ≤ 9999 := by
      rintro ⟨_, h2, k, hk1, hk2, hk3⟩
      refine ⟨?_, h2⟩
      have hy : y = ((dayZero dm).addDays k).y := congrArg Date.y hk3
      rcases hdm with h | h
      · have h61 := hk2 h
        have e : k = 61 + (k - 61) := by omega
        rw [e, addDays_add] at hy
        have := addDays_year_mono ((dayZero dm).addDays 61) (k - 61)
        have h62 : ((dayZero dm).addDays 61).y = 1900 := by subst h; decide +kernel
        omega
      · have := hmono k
        have h62 : (dayZero dm).y = 1904 := by subst h; decide +kernel
        omega
    by_cases hy : 1900 ≤ y ∧ y ≤ 9999
    · rw [if_neg (by simpa using hy)]
      by_cases hvalid : (⟨y, m, d⟩ : Date).Valid
      · obtain ⟨hm, hd⟩ := valid_iff_check.1 hvalid
        rw [if_neg (by simpa using hm), if_neg hd]
        dsimp only
        have hk : ∀ k : Nat, (⟨y, m, d⟩ : Date) = (dayZero dm).addDays k →
            jdnOfYmd y m d - jdnDelta dm = k := by
          intro k hk
          have := jdn_addDays hv0 k
          rw [← hk, hj0] at this
          simp only at this
          omega
        split
        · rename_i hle
          constructor
          · intro h; simp at h
          · rintro ⟨⟨_, _, k, hk1, _, hk3⟩, _⟩
            have := hk k hk3
            omega
        · rename_i hpos
          have hs := addDays_of_jdn hvalid hv0 (by simp only; rw [hj0]; omega)
          simp only at hs
          rw [hj0] at hs
          split
          · rename_i h61
            constructor
            · intro h; simp at h
            · rintro ⟨⟨_, _, k, hk1, hk2, hk3⟩, _⟩
              have := hk k hk3
              have := hk2 h61.2
              omega
          · rename_i h61
            constructor
            · intro h
              simp only [Except.ok.injEq] at h
              rw [← h]
              exact ⟨⟨hvalid, hy.2, _, by omega, fun h => by omega, hs⟩, by omega, hs⟩
            · rintro ⟨_, hn, hnn⟩
              have := hk _ hnn
              simp only [Except.ok.injEq]
              omega
      · have hbad := mt valid_iff_check.2 hvalid
        constructor
        · intro h
          exfalso
          by_cases hm : 1 ≤ m ∧ m ≤ 12
          · rw [if_neg (by simpa using hm)] at h
            split at h
            · simp at h
            · rename_i hd; exact hbad ⟨hm, hd⟩
          · rw [if_pos hm] at h; simp at h
        · rintro ⟨h, _⟩
          exact absurd h.1 hvalid
    · rw [if_pos hy]
      constructor
      · intro h; simp at h
      · rintro ⟨h, _⟩; exact absurd (hyr h) hy

/-- C33 -/
theorem C33_roundtrip {M : XlMul} (hM : M.Sane) (dm : Int) (hdm : dm = 0 ∨ dm = 1) :
    (∀ (n : Nat) (t : DateTuple), xldateAsTuple M n dm = .ok t →
      xldateFromDateTuple t.year t.month t.day dm = .ok n) ∧
    (∀ y m d n : Int, xldateFromDateTuple y m d dm = .ok n →
      xldateAsTuple M n dm = .ok ⟨y, m, d, 0, 0, 0⟩) := by
  have hzero : xldateAsTuple M 0 dm = .ok ⟨0, 0, 0, 0, 0, 0⟩ := by
    unfold xldateAsTuple; rw [if_neg (by omega), if_pos rfl]
  constructor
  · intro n t h
    by_cases hn : n = 0
    · subst hn
      rw [show ((0 : Nat) : Rat) = 0 by rfl, hzero] at h
      simp only [Except.ok.injEq] at h
      subst h
      exact (C33_accepted dm hdm 0 0 0 0).2 (Or.inl ⟨rfl, rfl, rfl, rfl⟩)
    · have hS := totalSeconds_whole hM (n : Int)
      have hx : (0 : Rat) ≤ ((n : Int) : Rat) := by
        have : ((0 : Int) : Rat) ≤ ((n : Int) : Rat) := Rat.intCast_le_intCast.2 (by omega)
        simpa using this
      have he := (xldateAsTuple_eq hM hx hdm hS).2
      rw [show ((n : Int) : Rat) = (n : Rat) by rfl, h] at he
      have e1 : (n : Int) * 86400 / 86400 = n := by omega
      have e2 : (n : Int) * 86400 % 86400 = 0 := by omega
      rw [e1, e2, ymd_day hdm n] at he
      have hl := tooLarge_iff hdm n
      split at he
      · simp at he
      · rename_i hnl
        rw [if_neg (by omega)] at he
        split at he
        · simp at he
        · rename_i h61
          simp only [Except.ok.injEq] at he
          subst he
          rw [C33_accepted dm hdm]
          right
          have hv := addDays_valid (jdn_dayZero hdm).1 n
          rw [hl] at hnl
          exact ⟨⟨hv, by simp only; omega, n, by omega, fun h => by omega, rfl⟩, by omega, by simp⟩
  · intro y m d n h
    rw [C33_accepted dm hdm] at h
    rcases h with ⟨rfl, rfl, rfl, rfl⟩ | ⟨⟨hv, hy, k, hk1, hk2, hk3⟩, hn, hnn⟩
    · exact hzero
    · have hkn : k = n.toNat := by
        have h1 := jdn_addDays (jdn_dayZero hdm).1 k
        have h2 := jdn_addDays (jdn_dayZero hdm).1 n.toNat
        rw [← hk3] at h1
        rw [← hnn] at h2
        omega
      subst hkn
      have := C32_serial_days hM n.toNat dm hdm (by omega) hk2 (by rw [← hnn]; simp only at hy ⊢; omega)
      rw [← hnn] at this
      have e : ((n.toNat : Nat) : Rat) = (n : Rat) := by
        rw [show ((n.toNat : Nat) : Rat) = ((n.toNat : Int) : Rat) by rfl]
        congr 1; omega
      rw [e] at this
      exact this

example : Accepted 0 ⟨1900, 3, 1⟩ ∧ Accepted 1 ⟨1904, 1, 2⟩ :=
  ⟨⟨by decide, by decide, 61, by decide, by decide, by decide +kernel⟩,
    ⟨by decide, by decide, 1, by decide, by decide, by decide⟩⟩

/-- C34.  For exact multiplication the difference is at most half a second
(`C34_exact`). -/
theorem C34_time_of_day {M : XlMul} (hM : M.Sane) (x : Rat) (hx : 0 ≤ x) (dm : Int)
    (hdm : dm = 0 ∨ dm = 1) :
    xldateAsTuple M x dm ≠ .error .assertionError ∧
    ∀ t, xldateAsTuple M x dm = .ok t →
      (0 ≤ t.hour ∧ t.hour < 24) ∧ (0 ≤ t.minute ∧ t.minute < 60) ∧
      (0 ≤ t.second ∧ t.second < 60) ∧
      ∃ n : Nat, NearestEven ((n : Int) * 86400 + t.hour * 3600 + t.minute * 60 + t.second)
          (totalSeconds M x) ∧
        (n = 0 → t.year = 0 ∧ t.month = 0 ∧ t.day = 0) ∧
        (n ≠ 0 → (⟨t.year, t.month, t.day⟩ : Date) = (dayZero dm).addDays n) := by
  obtain ⟨S, hS⟩ : ∃ S : Int, NearestEven S (totalSeconds M x) :=
    ⟨_, roundHalfEven_nearest _⟩
  obtain ⟨h0, he⟩ := xldateAsTuple_eq hM hx hdm hS
  rw [he]
  constructor
  · split
    · simp
    · split
      · simp
      · split <;> simp
  · intro t ht
    have hT : t.hour = S % 86400 / 60 / 60 ∧ t.minute = S % 86400 / 60 % 60 ∧
        t.second = S % 86400 % 60 ∧
        ((S / 86400 = 0 ∧ t.year = 0 ∧ t.month = 0 ∧ t.day = 0) ∨
          (S / 86400 ≠ 0 ∧ (t.year, t.month, t.day) = ymdOfJdn (S / 86400 + jdnDelta dm))) := by
      split at ht
      · simp at ht
      · split at ht
        · rename_i h
          simp only [Except.ok.injEq] at ht
          subst ht
          exact ⟨rfl, rfl, rfl, Or.inl ⟨h, rfl, rfl, rfl⟩⟩
        · rename_i h
          split at ht
          · simp at ht
          · simp only [Except.ok.injEq] at ht
            subst ht
            exact ⟨rfl, rfl, rfl, Or.inr ⟨h, rfl⟩⟩
    obtain ⟨e1, e2, e3, e4⟩ := hT
    refine ⟨by omega, by omega, by omega, (S / 86400).toNat, ?_, ?_, ?_⟩
    · have : ((S / 86400).toNat : Int) * 86400 + t.hour * 3600 + t.minute * 60 + t.second = S := by
        rw [e1, e2, e3]; omega
      rw [this]; exact hS
    · intro h
      rcases e4 with h4 | h4
      · exact h4.2
      · omega
    · intro h
      rcases e4 with h4 | h4
      · omega
      · have h5 := ymd_day hdm (S / 86400).toNat
        have e5 : ((S / 86400).toNat : Int) = S / 86400 := by omega
        rw [e5, ← h4.2] at h5
        simp only [Prod.mk.injEq] at h5
        rw [h5.1, h5.2.1, h5.2.2]

/-- C34 with exact arithmetic: the time is the nearest second, days and all. -/
theorem C34_exact (x : Rat) (hx : 0 ≤ x) (dm : Int) (hdm : dm = 0 ∨ dm = 1) (t : DateTuple)
    (ht : xldateAsTuple exactMul x dm = .ok t) :
    ∃ n : Nat, NearestEven ((n : Int) * 86400 + t.hour * 3600 + t.minute * 60 + t.second)
        (x * 86400) := by
  obtain ⟨_, h⟩ := C34_time_of_day exactMul_sane x hx dm hdm
  obtain ⟨_, _, _, n, hn, _⟩ := h t ht
  rw [totalSeconds_exact] at hn
  exact ⟨n, hn⟩

/-- Rounding up to midnight: the next day. -/
example : xldateAsTuple exactMul (43830 + 863999/864000) 0 = .ok ⟨2020, 1, 1, 0, 0, 0⟩ ∧
    xldateAsTuple exactMul (43830 + 1/2) 0 = .ok ⟨2019, 12, 31, 12, 0, 0⟩ := by decide +kernel

theorem addDays_1462 (N : Nat) (h : N = 1462) :
    (⟨1899, 12, 30⟩ : Date).addDays N = dayZero 1 := by
  have h1 := ymd_day (dm := 0) (Or.inl rfl) N
  rw [show (N : Int) = 1462 by omega] at h1
  have h2 : dayZero 0 = ⟨1899, 12, 30⟩ := by decide
  rw [h2] at h1
  clear h
  generalize (⟨1899, 12, 30⟩ : Date).addDays N = t at h1
  obtain ⟨y, m, d⟩ := t
  have h3 : ymdOfJdn (1462 + jdnDelta 0) = (1904, 1, 1) := by decide
  rw [h3] at h1
  simp only [Prod.mk.injEq] at h1
  obtain ⟨rfl, rfl, rfl⟩ := h1
  rfl

/-- C35: the days of `xldate_as_datetime` count from 1899-12-30. -/
theorem C35_datetime_agrees {M : XlMul} (hM : M.Sane) (n : Nat) (hn : n ≠ 0) (dm : Int)
    (hdm : dm = 0 ∨ dm = 1) :
    (∀ t, xldateAsTuple M n dm = .ok t →
      ∃ d : Nat, xldateAsDatetime M n dm = .ok (d, 0) ∧
        (⟨t.year, t.month, t.day⟩ : Date) = (⟨1899, 12, 30⟩ : Date).addDays d) ∧
    (dm = 0 → n < 60 → ∃ d : Nat, xldateAsDatetime M n dm = .ok (d, 0) ∧
        (⟨1899, 12, 30⟩ : Date).addDays d = (⟨1899, 12, 31⟩ : Date).addDays n) := by
  have hdt : ∀ (e : Nat), (e : Int) = (if dm ≠ 0 then 1462 else if (n : Rat) < 60 then 1 else 0) →
      (n : Int) + e ≤ 2958465 → xldateAsDatetime M n dm = .ok (((n + e : Nat) : Int), 0) := by
    intro e he hle
    unfold xldateAsDatetime
    dsimp only
    rw [← he, show (n : Rat) = ((n : Int) : Rat) by rfl, truncRat_int]
    have e0 : ((n : Int) : Rat) - ((n : Int) : Rat) = 0 := by grind
    rw [e0, hM.ms0]
    have e1 : roundHalfEven 0 = 0 := by decide +kernel
    rw [e1, if_neg (by omega)]
    simp only [Except.ok.injEq, Prod.mk.injEq]
    constructor <;> omega
  have hcast : ∀ k : Nat, (n : Rat) < (k : Rat) ↔ n < k := by
    intro k; exact Rat.natCast_lt_natCast
  have hz : (⟨1899, 12, 30⟩ : Date).addDays 1 = ⟨1899, 12, 31⟩ ∧ dayZero 0 = ⟨1899, 12, 30⟩ := by
    decide
  constructor
  · intro t ht
    obtain ⟨_, h⟩ := C34_time_of_day hM (n : Rat) (by exact Rat.natCast_nonneg) dm hdm
    have hf := (C33_roundtrip hM dm hdm).1 n t ht
    rw [C33_accepted dm hdm] at hf
    rcases hf with hf | ⟨⟨hv, hy, k, hk1, hk2, hk3⟩, _, hnn⟩
    · omega
    · have hl := tooLarge_iff hdm n
      rw [show ((n : Int)).toNat = n by omega] at hnn
      have hkn : k = n := by
        have h1 := jdn_addDays (jdn_dayZero hdm).1 k
        have h2 := jdn_addDays (jdn_dayZero hdm).1 n
        rw [← hk3] at h1
        rw [← hnn] at h2
        omega
      subst hkn
      have hlt : ¬ ((k : Int) ≥ xldaysTooLarge dm) := by
        rw [hl, ← hnn]; simp only at hy ⊢; omega
      rcases hdm with h | h
      · subst h
        have h61 := hk2 rfl
        refine ⟨k, ?_, ?_⟩
        · have := hdt 0 (by
            rw [if_neg (by omega), if_neg]; rfl
            rw [show (60 : Rat) = ((60 : Nat) : Rat) by rfl, hcast]; omega)
            (by simp [xldaysTooLarge] at hlt; omega)
          simpa using this
        · rw [hk3, hz.2]
      · subst h
        refine ⟨k + 1462, ?_, ?_⟩
        · exact hdt 1462 (by rw [if_pos (by omega)]; rfl) (by simp [xldaysTooLarge] at hlt; omega)
        · rw [hk3, Nat.add_comm, addDays_add]
          rw [addDays_1462 _ rfl]
  · intro h0 h60
    subst h0
    refine ⟨n + 1, ?_, ?_⟩
    · exact hdt 1 (by
        rw [if_neg (by omega), if_pos]; rfl
        rw [show (60 : Rat) = ((60 : Nat) : Rat) by rfl, hcast]; omega) (by omega)
    · rw [Nat.add_comm, addDays_add, hz.1]

/-- Day 60 (1900-02-29 in Excel, not a date) comes out as the same day as day 59. -/
theorem C35_day60_collides :
    xldateAsDatetime exactMul 59 0 = xldateAsDatetime exactMul 60 0 := by decide +kernel

example : xldateAsDatetime exactMul 43831 0 = .ok (43831, 0) := by decide +kernel

/-- C36: what is raised, and when.  `S` is the time in whole seconds since day 0. -/
theorem C36_errors {M : XlMul} (hM : M.Sane) (x : Rat) (dm : Int) :
    ((dm ≠ 0 ∧ dm ≠ 1) → xldateAsTuple M x dm = .error .xldateBadDatemode) ∧
    ((dm = 0 ∨ dm = 1) → x < 0 → xldateAsTuple M x dm = .error .xldateNegative) ∧
    ((dm = 0 ∨ dm = 1) → 0 ≤ x → ∃ S : Nat, NearestEven S (totalSeconds M x) ∧
      (10000 ≤ ((dayZero dm).addDays (S / 86400)).y →
        xldateAsTuple M x dm = .error .xldateTooLarge) ∧
      (dm = 0 ∧ 1 ≤ S / 86400 ∧ S / 86400 ≤ 60 →
        xldateAsTuple M x dm = .error .xldateAmbiguous) ∧
      (((dayZero dm).addDays (S / 86400)).y < 10000 →
        ¬ (dm = 0 ∧ 1 ≤ S / 86400 ∧ S / 86400 ≤ 60) →
        ∃ t, xldateAsTuple M x dm = .ok t)) := by
  refine ⟨?_, ?_, ?_⟩
  · intro h; unfold xldateAsTuple; rw [if_pos h]
  · intro h hx
    unfold xldateAsTuple
    rw [if_neg (by omega), if_neg (by intro h; subst h; exact absurd hx (by decide +kernel)), if_pos hx]
  · intro hdm hx
    obtain ⟨S, hS⟩ : ∃ S : Int, NearestEven S (totalSeconds M x) := ⟨_, roundHalfEven_nearest _⟩
    obtain ⟨h0, he⟩ := xldateAsTuple_eq hM hx hdm hS
    obtain ⟨n, rfl⟩ : ∃ n : Nat, S = n := ⟨S.toNat, by omega⟩
    have hl := tooLarge_iff hdm (n / 86400)
    have e : ((n / 86400 : Nat) : Int) = (n : Int) / 86400 := by omega
    rw [e] at hl
    refine ⟨n, hS, ?_, ?_, ?_⟩
    · intro h
      rw [he, if_pos (hl.2 h)]
    · rintro ⟨h1, h2, h3⟩
      subst h1
      rw [he, if_neg (by simp [xldaysTooLarge]; omega), if_neg (by omega), if_pos ⟨by omega, rfl⟩]
    · intro h1 h2
      rw [he, if_neg (by rw [hl]; omega)]
      split
      · exact ⟨_, rfl⟩
      · rw [if_neg (by omega)]
        exact ⟨_, rfl⟩

example : xldateAsTuple exactMul 2958466 0 = .error .xldateTooLarge ∧
    xldateAsTuple exactMul 60 0 = .error .xldateAmbiguous ∧
    xldateAsTuple exactMul 60 1 = .ok ⟨1904, 3, 1, 0, 0, 0⟩ ∧
    xldateAsTuple exactMul (-1) 0 = .error .xldateNegative := by decide +kernel

/-- The documentation says `0 <= xldate < 1` is a time; half a second before midnight
it is an error in the 1900 system. -/
theorem C36_last_half_second :
    xldateAsTuple exactMul (1 - 1/1000000) 0 = .error .xldateAmbiguous := by decide +kernel

/-- The fraction of the day of a time, as the code computes it. -/
theorem timeTuple_close {hh mi ss : Int} {f : Rat} (h : xldateFromTimeTuple hh mi ss = .ok f) :
    (0 ≤ hh ∧ hh < 24) ∧ (0 ≤ mi ∧ mi < 60) ∧ (0 ≤ ss ∧ ss < 60) ∧ 0 ≤ f ∧
    f ≤ ((hh * 3600 + mi * 60 + ss : Int) : Rat) / 86400 + 1 / 2 ^ 50 ∧
    ((hh * 3600 + mi * 60 + ss : Int) : Rat) / 86400 ≤ f + 1 / 2 ^ 50 := by
  unfold xldateFromTimeTuple at h
  split at h
  · rename_i hr
    obtain ⟨hr1, hr2, hr3⟩ := hr
    simp only [Except.ok.injEq] at h
    have q1 : ∀ {a n : Int}, 0 ≤ a ∧ a < n → (0 : Rat) ≤ a ∧ (a : Rat) ≤ n - 1 := by
      intro a n ⟨h1, h2⟩
      refine ⟨Rat.intCast_nonneg.2 h1, ?_⟩
      have := Rat.intCast_le_intCast.2 (show a ≤ n - 1 by omega)
      rwa [Rat.intCast_sub] at this
    obtain ⟨h1, h1'⟩ := q1 hr1
    obtain ⟨m1, m1'⟩ := q1 hr2
    obtain ⟨s1, s1'⟩ := q1 hr3
    rw [show ((24 : Int) : Rat) = 24 from rfl] at h1'
    rw [show ((60 : Int) : Rat) = 60 from rfl] at m1' s1'
    obtain ⟨a, ha⟩ : ∃ a, a = f64 ((ss : Rat) / 60) := ⟨_, rfl⟩
    obtain ⟨b, hb⟩ : ∃ b, b = f64 (a + mi) := ⟨_, rfl⟩
    obtain ⟨c, hc⟩ : ∃ c, c = f64 (b / 60) := ⟨_, rfl⟩
    obtain ⟨d, hd⟩ : ∃ d, d = f64 (c + hh) := ⟨_, rfl⟩
    rw [← ha, ← hb, ← hc, ← hd] at h
    have a0 : 0 ≤ a := by rw [ha]; exact f64_nonneg (by grind)
    have a1 := f64_close (q := (ss : Rat) / 60) (B := 1) (c := 1 / 2 ^ 54) (-53) (by decide +kernel) (by decide +kernel) (by decide)
      (by grind) (by grind)
    rw [← ha] at a1
    have b0 : 0 ≤ b := by rw [hb]; exact f64_nonneg (by grind)
    have b1 := f64_close (q := a + mi) (B := 64) (c := 1 / 2 ^ 48) (-47) (by decide +kernel) (by decide +kernel) (by decide)
      (by grind) (by grind)
    rw [← hb] at b1
    have c0 : 0 ≤ c := by rw [hc]; exact f64_nonneg (by grind)
    have c1 := f64_close (q := b / 60) (B := 2) (c := 1 / 2 ^ 53) (-52) (by decide +kernel) (by decide +kernel) (by decide)
      (by grind) (by grind)
    rw [← hc] at c1
    have d0 : 0 ≤ d := by rw [hd]; exact f64_nonneg (by grind)
    have d1 := f64_close (q := c + hh) (B := 32) (c := 1 / 2 ^ 49) (-48) (by decide +kernel) (by decide +kernel) (by decide)
      (by grind) (by grind)
    rw [← hd] at d1
    have f0 : 0 ≤ f := by rw [← h]; exact f64_nonneg (by grind)
    have f1 := f64_close (q := d / 24) (B := 2) (c := 1 / 2 ^ 53) (-52) (by decide +kernel) (by decide +kernel) (by decide)
      (by grind) (by grind)
    rw [h] at f1
    refine ⟨hr1, hr2, hr3, f0, ?_, ?_⟩ <;> simp only [Rat.intCast_add, Rat.intCast_mul] <;>
      rw [show ((3600 : Int) : Rat) = 3600 from rfl, show ((60 : Int) : Rat) = 60 from rfl] <;> grind
  · simp at h

theorem rat_floor_eq {x : Rat} {n : Int} (h0 : (n : Rat) ≤ x) (h1 : x < n + 1) : x.floor = n := by
  have a1 := Rat.le_floor_iff.2 h0
  have a2 : x.floor < n + 1 := Rat.floor_lt_iff.2 (by rw [Rat.intCast_add]; exact h1)
  omega

/-- Days are less than 2 ^ 22. -/
theorem dateTuple_small {y m d n dm : Int} (hdm : dm = 0 ∨ dm = 1) (h : xldateFromDateTuple y m d dm = .ok n) :
    0 ≤ n ∧ n < 2958466 := by
  have hn0 : 0 ≤ n := by
    rcases (C33_accepted dm hdm _ _ _ _).1 h with h | h
    · omega
    · exact h.2.1
  refine ⟨hn0, ?_⟩
  have hw := (C33_roundtrip exactMul_sane dm hdm).2 _ _ _ _ h
  obtain ⟨_, hew⟩ := xldateAsTuple_eq exactMul_sane (Rat.intCast_nonneg.2 hn0) hdm (totalSeconds_whole exactMul_sane n)
  rw [hw, show n * 86400 / 86400 = n by omega] at hew
  split at hew
  · simp at hew
  · rename_i h1
    unfold xldaysTooLarge at h1
    split at h1 <;> omega

/-- C53: date and time tuples survive the conversion to a float and back, in the arithmetic of floats. -/
theorem C53_datetime_tuple_roundtrip (t : DateTuple) (dm : Int) (hdm : dm = 0 ∨ dm = 1) (x : Rat)
    (h : xldateFromDatetimeTuple t dm = .ok x) : xldateAsTuple ieeeMul x dm = .ok t := by
  obtain ⟨yy, mm, dd, hh, mi, ss⟩ := t
  unfold xldateFromDatetimeTuple at h
  simp only at h
  split at h
  · simp at h
  · rename_i n hn
    split at h
    · simp at h
    · rename_i f hf
      simp only [Except.ok.injEq] at h
      obtain ⟨hr1, hr2, hr3, f0, f1, f2⟩ := timeTuple_close hf
      obtain ⟨hn0, hn1⟩ := dateTuple_small hdm hn
      obtain ⟨T, hT⟩ : ∃ T : Int, T = hh * 3600 + mi * 60 + ss := ⟨_, rfl⟩
      rw [← hT] at f1 f2
      have hT1 : T ≤ 86399 := by omega
      have hT1' : (T : Rat) ≤ 86399 := by
        have := Rat.intCast_le_intCast.2 hT1
        rwa [show ((86399 : Int) : Rat) = 86399 from rfl] at this
      have hn0' : (0 : Rat) ≤ n := Rat.intCast_nonneg.2 hn0
      have hn1' : (n : Rat) < 2958466 := by
        have := Rat.intCast_lt_intCast.2 hn1
        rwa [show ((2958466 : Int) : Rat) = 2958466 from rfl] at this
      -- the sum
      have x1 := f64_close (q := (n : Rat) + f) (B := 2 ^ 22) (c := 1 / 2 ^ 32) (-31) (by decide +kernel) (by decide +kernel) (by decide)
        (by grind) (by grind)
      have x0 : (n : Rat) ≤ f64 ((n : Rat) + f) := by
        have := f64_mono (p := (n : Rat)) (q := (n : Rat) + f) (by grind)
        rwa [f64_int (by omega)] at this
      rw [h] at x0 x1
      have hfl : x.floor = n := rat_floor_eq x0 (by grind)
      -- the seconds
      have s1 := f64_close (q := (x - (n : Rat)) * 86400) (B := 2 ^ 17) (c := 1 / 2 ^ 37) (-36) (by decide +kernel) (by decide +kernel)
        (by decide) (by grind) (by grind)
      obtain ⟨S, hSd⟩ : ∃ S : Int, S = n * 86400 + T := ⟨_, rfl⟩
      have hS : NearestEven S (totalSeconds ieeeMul x) := by
        unfold totalSeconds
        rw [hfl]
        show NearestEven S ((n : Rat) * 86400 + f64 ((x - (n : Rat)) * 86400))
        have e1 : (S : Rat) = (n : Rat) * 86400 + T := by
          rw [hSd, Rat.intCast_add, Rat.intCast_mul]; rfl
        unfold NearestEven
        rw [e1]
        refine ⟨by grind, by grind, fun h => ?_⟩
        exfalso
        rcases h with h | h <;> (have h2 := Rat.le_of_eq h.symm; grind)
      have hx0 : (0 : Rat) ≤ x := by grind
      obtain ⟨_, he⟩ := xldateAsTuple_eq ieeeMul_sane hx0 hdm hS
      have e1 : S / 86400 = n := by omega
      have e2 : S % 86400 / 60 / 60 = hh := by omega
      have e3 : S % 86400 / 60 % 60 = mi := by omega
      have e4 : S % 86400 % 60 = ss := by omega
      rw [e1, e2, e3, e4] at he
      rw [he]
      have hw := (C33_roundtrip exactMul_sane dm hdm).2 _ _ _ _ hn
      have hSw := totalSeconds_whole exactMul_sane n
      obtain ⟨_, hew⟩ := xldateAsTuple_eq exactMul_sane hn0' hdm hSw
      have e5 : n * 86400 / 86400 = n := by omega
      rw [hw, e5] at hew
      split
      · rename_i h1
        rw [if_pos h1] at hew; simp at hew
      · rename_i h1
        rw [if_neg h1] at hew
        split
        · rename_i h2
          rw [if_pos h2] at hew
          simp only [Except.ok.injEq, DateTuple.mk.injEq] at hew
          rw [hew.1, hew.2.1, hew.2.2.1]
        · rename_i h2
          rw [if_neg h2] at hew
          split
          · rename_i h3
            rw [if_pos h3] at hew; simp at hew
          · rename_i h3
            rw [if_neg h3] at hew
            simp only [Except.ok.injEq, DateTuple.mk.injEq] at hew
            rw [← hew.1, ← hew.2.1, ← hew.2.2.1]

/-- 1 second before midnight: the nearest float is not exact. -/
example : xldateFromDatetimeTuple ⟨2020, 2, 29, 23, 59, 59⟩ 0 = .ok (f64 (43890 + 86399/86400)) ∧
    f64 (43890 + 86399/86400) ≠ 43890 + 86399/86400 := by
  decide +kernel

/-- Every date that is accepted with every time of day has a number. -/
theorem C53_accepts (t : DateTuple) (dm : Int) (hdm : dm = 0 ∨ dm = 1) :
    (∃ x, xldateFromDatetimeTuple t dm = .ok x) ↔
      ((t.year = 0 ∧ t.month = 0 ∧ t.day = 0) ∨ Accepted dm ⟨t.year, t.month, t.day⟩) ∧
      (0 ≤ t.hour ∧ t.hour < 24) ∧ (0 ≤ t.minute ∧ t.minute < 60) ∧ 0 ≤ t.second ∧ t.second < 60 := by
  unfold xldateFromDatetimeTuple
  constructor
  · rintro ⟨x, h⟩
    split at h
    · simp at h
    · rename_i n hn
      split at h
      · simp at h
      · rename_i f hf
        obtain ⟨h1, h2, h3, -⟩ := timeTuple_close hf
        refine ⟨?_, h1, h2, h3⟩
        rcases (C33_accepted dm hdm _ _ _ _).1 hn with h | h
        · exact .inl ⟨h.1, h.2.1, h.2.2.1⟩
        · exact .inr h.1
  · rintro ⟨h, h1, h2, h3⟩
    have hd : ∃ n, xldateFromDateTuple t.year t.month t.day dm = .ok n := by
      rcases h with h | h
      · exact ⟨0, (C33_accepted dm hdm _ _ _ _).2 (.inl ⟨h.1, h.2.1, h.2.2, rfl⟩)⟩
      · obtain ⟨n, -, -, hn⟩ := h.2.2
        exact ⟨n, (C33_accepted dm hdm _ _ _ _).2 (.inr ⟨h, by omega, by rw [Int.toNat_natCast]; exact hn⟩)⟩
    obtain ⟨n, hn⟩ := hd
    rw [hn]
    unfold xldateFromTimeTuple
    rw [if_pos ⟨h1, h2, h3⟩]
    exact ⟨_, rfl⟩

/-- C34 in floats: the time is the nearest second, but for 2 ^ -37 s. -/
theorem C34_ieee (x : Rat) (hx : 0 ≤ x) (dm : Int) (hdm : dm = 0 ∨ dm = 1) (t : DateTuple)
    (ht : xldateAsTuple ieeeMul x dm = .ok t) :
    ∃ n : Nat, (((n : Int) * 86400 + t.hour * 3600 + t.minute * 60 + t.second : Int) - x * 86400 : Rat).abs ≤ 1 / 2 + 1 / 2 ^ 37 ∧
      (n = 0 → t.year = 0 ∧ t.month = 0 ∧ t.day = 0) ∧
      (n ≠ 0 → (⟨t.year, t.month, t.day⟩ : Date) = (dayZero dm).addDays n) := by
  obtain ⟨_, h⟩ := C34_time_of_day ieeeMul_sane x hx dm hdm
  obtain ⟨_, _, _, n, hn, h1⟩ := h t ht
  refine ⟨n, ?_, h1⟩
  have hf := floor_frac x
  have s1 := f64_close (q := (x - x.floor) * 86400) (B := 2 ^ 17) (c := 1 / 2 ^ 37) (-36) (by decide +kernel) (by decide +kernel)
    (by decide) (by grind) (by grind)
  obtain ⟨a1, a2, -⟩ := hn
  have e : totalSeconds ieeeMul x = x.floor * 86400 + f64 ((x - x.floor) * 86400) := rfl
  rw [e] at a1 a2
  generalize (((n : Int) * 86400 + t.hour * 3600 + t.minute * 60 + t.second : Int) : Rat) = S at *
  rcases abs_cases (S - x * 86400) with ⟨c1, c2⟩ | ⟨c1, c2⟩ <;> rw [c2] <;> grind

example : xldateAsTuple ieeeMul (f64 (43890 + 1/3)) 0 = .ok ⟨2020, 2, 29, 8, 0, 0⟩ := by decide +kernel

/-- C54: `xldate_as_datetime` is right to half a millisecond (but for 2 ^ -27 ms), also for negative numbers. -/
theorem C54_datetime_precision (x : Rat) (dm : Int) (day ms : Int)
    (h : xldateAsDatetime ieeeMul x dm = .ok (day, ms)) :
    0 ≤ ms ∧ ms < 86400000 ∧
    (((day * 86400000 + ms : Int) : Rat) - (x + (if dm ≠ 0 then 1462 else if x < 60 then 1 else 0)) * 86400000).abs ≤
      1 / 2 + 1 / 2 ^ 27 := by
  unfold xldateAsDatetime at h
  dsimp only at h
  obtain ⟨e, he⟩ : ∃ e : Int, e = if dm ≠ 0 then 1462 else if x < 60 then 1 else 0 := ⟨_, rfl⟩
  rw [← he] at h
  split at h
  · simp at h
  · simp only [Except.ok.injEq, Prod.mk.injEq] at h
    obtain ⟨h1, h2⟩ := h
    refine ⟨by omega, by omega, ?_⟩
    have hn := roundHalfEven_nearest (ieeeMul.ms (x - truncRat x))
    generalize roundHalfEven (ieeeMul.ms (x - truncRat x)) = r at hn h1 h2
    have her : (e : Rat) = if dm ≠ 0 then 1462 else if x < 60 then 1 else 0 := by
      rw [he]; split
      · rfl
      · split <;> rfl
    rw [← her]
    have hfr : -1 < x - truncRat x ∧ x - truncRat x < 1 := by
      unfold truncRat
      split
      · have := floor_frac x; grind
      · have := floor_frac (-x)
        rw [Rat.intCast_neg]; grind
    have s1 := f64_close (q := (x - truncRat x) * 86400000) (B := 2 ^ 27) (c := 1 / 2 ^ 27) (-26) (by decide +kernel)
      (by decide +kernel) (by decide) (by grind) (by grind)
    obtain ⟨a1, a2, -⟩ := hn
    have em : ieeeMul.ms (x - truncRat x) = f64 ((x - truncRat x) * 86400000) := rfl
    rw [em] at a1 a2
    have e1 : day * 86400000 + ms = (e + truncRat x) * 86400000 + r := by omega
    rw [e1, Rat.intCast_add, Rat.intCast_mul, Rat.intCast_add, show ((86400000 : Int) : Rat) = 86400000 from rfl]
    rcases abs_cases (((e : Rat) + truncRat x) * 86400000 + r - (x + e) * 86400000) with ⟨c1, c2⟩ | ⟨c1, c2⟩ <;> rw [c2] <;> grind

example : xldateAsDatetime ieeeMul (-1/4) 0 = .ok (0, 64800000) := by decide +kernel

/-- C54: an instant with a whole number of milliseconds, stored as the nearest float, is read back to the
millisecond: all days from 1900-03-01 (1904-01-01 in the other system) to 9999-12-31. -/
theorem C54_milliseconds (dm : Int) (hdm : dm = 0 ∨ dm = 1) (day ms : Int) (h61 : dm = 0 → 60 ≤ day) (h0 : 0 ≤ day)
    (h1 : day < xldaysTooLarge dm) (m0 : 0 ≤ ms) (m1 : ms < 86400000) :
    xldateAsDatetime ieeeMul (f64 ((day : Rat) + (ms : Rat) / 86400000)) dm =
      .ok ((if dm = 0 then 0 else 1462) + day, ms) := by
  have hday : day < 2958466 := by unfold xldaysTooLarge at h1; split at h1 <;> omega
  have d0 : (0 : Rat) ≤ day := Rat.intCast_nonneg.2 h0
  have d1 : (day : Rat) < 2958466 := by
    have := Rat.intCast_lt_intCast.2 hday
    rwa [show ((2958466 : Int) : Rat) = 2958466 from rfl] at this
  have e0 : (0 : Rat) ≤ ms := Rat.intCast_nonneg.2 m0
  have e1 : (ms : Rat) ≤ 86399999 := by
    have := Rat.intCast_le_intCast.2 (show ms ≤ 86399999 by omega)
    rwa [show ((86399999 : Int) : Rat) = 86399999 from rfl] at this
  have x1 := f64_close (q := (day : Rat) + (ms : Rat) / 86400000) (B := 2 ^ 22) (c := 1 / 2 ^ 32) (-31) (by decide +kernel) (by decide +kernel)
    (by decide) (by grind) (by grind)
  have x0 : (day : Rat) ≤ f64 ((day : Rat) + (ms : Rat) / 86400000) := by
    have := f64_mono (p := (day : Rat)) (q := (day : Rat) + (ms : Rat) / 86400000) (by grind)
    rwa [f64_int (by omega)] at this
  generalize f64 ((day : Rat) + (ms : Rat) / 86400000) = x at x0 x1
  have hfl : truncRat x = day := by
    unfold truncRat
    rw [if_pos (by grind)]
    exact rat_floor_eq x0 (by grind)
  have s1 := f64_close (q := (x - day) * 86400000) (B := 2 ^ 27) (c := 1 / 2 ^ 27) (-26) (by decide +kernel)
    (by decide +kernel) (by decide) (by grind) (by grind)
  have hr : roundHalfEven (ieeeMul.ms (x - day)) = ms := by
    refine nearestEven_unique (roundHalfEven_nearest _) ?_
    show NearestEven ms (f64 ((x - day) * 86400000))
    refine ⟨by grind, by grind, fun h => ?_⟩
    exfalso
    rcases h with h | h <;> (have h2 := Rat.le_of_eq h.symm; clear h; grind)
  unfold xldateAsDatetime
  dsimp only
  rw [hfl, hr]
  have hep : (if dm ≠ 0 then 1462 else if x < 60 then 1 else 0 : Int) = if dm = 0 then 0 else 1462 := by
    rcases hdm with h | h
    · subst h
      have h2 := Rat.intCast_le_intCast.2 (h61 rfl)
      rw [show ((60 : Int) : Rat) = 60 from rfl] at h2
      rw [if_neg (by decide), if_neg (by grind)]; rfl
    · subst h; rfl
  rw [hep]
  unfold xldaysTooLarge at h1
  rcases hdm with h | h <;> subst h <;> simp only [if_true, show ((1 : Int) = 0) = False by decide, if_false] at h1 ⊢ <;>
    rw [if_neg (by omega)] <;> simp only [Except.ok.injEq, Prod.mk.injEq] <;> omega

example : xldateAsDatetime ieeeMul (f64 (43890 + 86399999/86400000)) 0 = .ok (43890, 86399999) := by decide +kernel

end CP
