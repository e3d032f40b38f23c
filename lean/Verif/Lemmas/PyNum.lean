import Verif.Lemmas.XlsNames
import Verif.Lemmas.Biff
import Verif.Model.PyNum
/-!
# Lemmas: numbers in python
-/

namespace CP
open CP.Spec

/-- Integers of up to 16 * d bits and floating point numbers. -/
def PyReg (d : Nat) : Val → Prop
  | .int i => 1 ≤ d ∧ i.natAbs ≤ 65536 ^ d
  | .flt _ => True
  | .inf _ => True
  | .nan => True
  | _ => False

/-- Floating point numbers. -/
def IsFloat : Val → Prop
  | .flt _ => True
  | .inf _ => True
  | .nan => True
  | _ => False

theorem IsFloat.reg {v : Val} (h : IsFloat v) (d : Nat) : PyReg d v := by
  cases v <;> first | exact h.elim | trivial

theorem limit_pow {d n : Nat} (h : n ≤ 65536 ^ d) (hd : d ≤ 63) : n < floatLimit := by
  have h1 : 65536 ^ d ≤ 65536 ^ 63 := Nat.pow_le_pow_right (by omega) hd
  have h2 : 65536 ^ 63 < floatLimit := by
    rw [show (65536 : Nat) = 2 ^ 16 from rfl, ← Nat.pow_mul, show 16 * 63 = 970 + 38 from rfl, Nat.pow_add]
    unfold floatLimit
    have := Nat.two_pow_pos 970
    generalize 2 ^ 970 = K at this
    omega
  omega

theorem asFloat_ok {P : PyOps} (hP : ∀ q, IsFloat (P.rnd q)) {d : Nat} {x : Val} (h : PyReg d x) (hd : d ≤ 63) :
    ∃ a, asFloat P x = .ok a ∧ IsFloat a ∧ (IsFloat x → a = x) := by
  cases x <;> first | exact h.elim | skip
  rotate_left
  · exact ⟨_, rfl, trivial, fun _ => rfl⟩
  · exact ⟨_, rfl, trivial, fun _ => rfl⟩
  · exact ⟨_, rfl, trivial, fun _ => rfl⟩
  rename_i i
  refine ⟨P.rnd i, ?_, hP _, fun h => h.elim⟩
  have hl := limit_pow h.2 hd
  unfold asFloat intToFloat
  dsimp only
  rw [if_pos hl]

theorem addFloat_float {P : PyOps} (hP : ∀ q, IsFloat (P.rnd q)) (a b : Val) : IsFloat (addFloat P a b) := by
  unfold addFloat
  split
  · exact hP _
  · split <;> trivial
  · trivial
  · trivial
  · trivial

theorem infTimes_float (s : Bool) (q : Rat) : IsFloat (infTimes s q) := by
  unfold infTimes
  split <;> trivial

theorem mulFloat_float {P : PyOps} (hP : ∀ q, IsFloat (P.rnd q)) (a b : Val) : IsFloat (mulFloat P a b) := by
  unfold mulFloat
  split
  · exact hP _
  · trivial
  · exact infTimes_float _ _
  · exact infTimes_float _ _
  · trivial

theorem divFloat_ok {P : PyOps} (hP : ∀ q, IsFloat (P.rnd q)) (a : Val) {b : Val} (hb : b ≠ .flt 0) : ∃ z, divFloat P a b = .ok z ∧ IsFloat z := by
  unfold divFloat
  rw [if_neg hb]
  split
  · exact ⟨_, rfl, hP _⟩
  · exact ⟨_, rfl, trivial⟩
  · exact ⟨_, rfl, trivial⟩
  · exact ⟨_, rfl, trivial⟩

theorem doubleOfBits_float (n : Nat) : IsFloat (doubleOfBits n) := by
  unfold doubleOfBits
  dsimp only
  split
  · split <;> trivial
  · trivial

theorem doubleOfBits_nonzero {n : Nat} (h : n < 2 ^ 64) (h0 : n ≠ 0) (h1 : n ≠ 2 ^ 63) : doubleOfBits n ≠ .flt 0 := by
  unfold doubleOfBits
  dsimp only
  split
  · split <;> simp
  · rename_i he
    intro hc
    rw [Val.flt.injEq] at hc
    generalize hq : (if n / 2 ^ 52 % 2 ^ 11 = 0 then ((n % 2 ^ 52 : Nat) : Rat) / ((2 ^ 1074 : Nat) : Rat)
      else if n / 2 ^ 52 % 2 ^ 11 < 1075 then ((2 ^ 52 + n % 2 ^ 52 : Nat) : Rat) / ((2 ^ (1075 - n / 2 ^ 52 % 2 ^ 11) : Nat) : Rat)
      else (((2 ^ 52 + n % 2 ^ 52) * 2 ^ (n / 2 ^ 52 % 2 ^ 11 - 1075) : Nat) : Rat)) = q at hc
    have hq0 : q = 0 := by
      split at hc
      · grind
      · exact hc
    rw [hq0] at hq
    have div0 : ∀ a b : Nat, 0 < b → ((a : Nat) : Rat) / ((b : Nat) : Rat) = 0 → a = 0 := by
      intro a b hb e
      have hb' : ((b : Nat) : Rat) ≠ 0 := by
        intro e0
        have : b = 0 := Rat.natCast_inj.1 e0
        omega
      have : ((a : Nat) : Rat) = 0 := by
        rw [Rat.div_def] at e
        rcases Rat.mul_eq_zero.1 e with e | e
        · exact e
        · exact absurd (by rw [← Rat.inv_inv ((b : Nat) : Rat), e]; exact Rat.inv_zero) hb'
      exact Rat.natCast_inj.1 this
    split at hq
    · rename_i c
      have := div0 _ _ (Nat.pow_pos (by omega)) hq
      have : n % 2 ^ 52 = 0 := this
      omega
    · split at hq
      · have := div0 _ _ (Nat.pow_pos (by omega)) hq
        omega
      · have : (2 ^ 52 + n % 2 ^ 52) * 2 ^ (n / 2 ^ 52 % 2 ^ 11 - 1075) = 0 := Rat.natCast_inj.1 hq
        rcases Nat.mul_eq_zero.1 this with e | e
        · omega
        · have := Nat.pow_pos (n := n / 2 ^ 52 % 2 ^ 11 - 1075) (show 0 < 2 by omega)
          omega

/-- Results are rounded to floating point numbers. -/
structure RndOk (P : PyOps) : Prop where
  float : ∀ q, IsFloat (P.rnd q)

/-- Numbers of python are as the formulas need them. -/
theorem pyNum_fits (P : PyOps) (hR : RndOk P) : NumFits (pyNum P) PyReg where
  double := fun b _ => (doubleOfBits_float _).reg 1
  nat := fun n h => ⟨Nat.le_refl _, by simp; omega⟩
  flo := fun _ _ => trivial
  arith := by
    intro op d e x y h3 h5 hx hy hde
    show ∃ z, pyArith P op x y = .ok z ∧ PyReg (d + e) z
    unfold pyArith
    rw [if_neg (by omega)]
    split
    · rename_i i j
      obtain ⟨d1, hi⟩ := hx
      obtain ⟨e1, hj⟩ := hy
      have p1 : 65536 ≤ 65536 ^ d := by simpa using Nat.pow_le_pow_right (n := 65536) (by omega) d1
      have p2 : 65536 ≤ 65536 ^ e := by simpa using Nat.pow_le_pow_right (n := 65536) (by omega) e1
      have hp : 65536 ^ (d + e) = 65536 ^ d * 65536 ^ e := Nat.pow_add ..
      have hsum : 65536 ^ d + 65536 ^ e ≤ 65536 ^ (d + e) := by
        rw [hp]
        generalize 65536 ^ d = A at p1
        generalize 65536 ^ e = C at p2
        have q1 : A * 2 ≤ A * C := Nat.mul_le_mul_left A (by omega)
        have q2 : 2 * C ≤ A * C := Nat.mul_le_mul_right C (by omega)
        omega
      have hmul : (i * j).natAbs ≤ 65536 ^ (d + e) := by
        rw [Int.natAbs_mul, hp]
        exact Nat.mul_le_mul hi hj
      by_cases c3 : op = 3
      · rw [if_pos c3]; exact ⟨_, rfl, by omega, by omega⟩
      by_cases c4 : op = 4
      · rw [if_neg c3, if_pos c4]; exact ⟨_, rfl, by omega, by omega⟩
      rw [if_neg c3, if_neg c4, if_pos (show op = 5 by omega)]
      exact ⟨_, rfl, by omega, hmul⟩
    · obtain ⟨a, ea, ha, -⟩ := asFloat_ok hR.float hx (by omega)
      obtain ⟨b, eb, hb, -⟩ := asFloat_ok hR.float hy (by omega)
      rw [ea]
      dsimp only
      rw [eb]
      dsimp only
      by_cases c3 : op = 3
      · rw [if_pos c3]; exact ⟨_, rfl, (addFloat_float hR.float _ _).reg _⟩
      by_cases c4 : op = 4
      · rw [if_neg c3, if_pos c4]; exact ⟨_, rfl, (addFloat_float hR.float _ _).reg _⟩
      rw [if_neg c3, if_neg c4, if_pos (show op = 5 by omega)]
      exact ⟨_, rfl, (mulFloat_float hR.float _ _).reg _⟩
  divNat := by
    intro d x n hx hd hn h0
    show ∃ z, pyArith P 6 x (.flt (n : Int)) = .ok z ∧ PyReg (d + 1) z
    unfold pyArith
    rw [if_neg (by omega)]
    split
    · rename_i e
      cases e
    · obtain ⟨a, ea, ha, -⟩ := asFloat_ok hR.float hx (by omega)
      rw [ea]
      dsimp only
      rw [show asFloat P (.flt (n : Int)) = .ok (.flt (n : Int)) from rfl]
      simp only [Nat.reduceEqDiff, ↓reduceIte]
      obtain ⟨z, e, hz⟩ := divFloat_ok hR.float a (b := .flt (n : Int)) (by
        intro e
        rw [Val.flt.injEq] at e
        have := Rat.intCast_inj.1 (e.trans (by rfl : (0 : Rat) = ((0 : Int) : Rat)))
        omega)
      exact ⟨z, e, hz.reg _⟩
  divDouble := by
    intro d x n hx hd hn h0 h1
    show ∃ z, pyArith P 6 x (doubleOfBits (leNat (leBytes 8 n))) = .ok z ∧ PyReg (d + 1) z
    rw [leNat_leBytes hn]
    have hb := doubleOfBits_nonzero hn h0 h1
    have hf := doubleOfBits_float n
    generalize doubleOfBits n = y at hb hf
    unfold pyArith
    rw [if_neg (by omega)]
    split
    · exact hf.elim
    · obtain ⟨a, ea, ha, -⟩ := asFloat_ok hR.float hx (by omega)
      obtain ⟨b, eb, -, hby⟩ := asFloat_ok hR.float (hf.reg 1) (by omega)
      rw [hby hf] at eb
      rw [ea]
      dsimp only
      rw [eb]
      simp only [Nat.reduceEqDiff, ↓reduceIte]
      obtain ⟨z, e, hz⟩ := divFloat_ok hR.float a hb
      exact ⟨z, e, hz.reg _⟩
  cmp := fun _ _ _ _ _ _ _ _ _ _ _ => ⟨_, rfl⟩
  unary := by
    intro op d x hop hx hd
    show ∃ z, pyUnary P op x = .ok z ∧ PyReg d z
    unfold pyUnary
    rcases hop with rfl | rfl | rfl
    · rw [if_pos rfl]
      exact ⟨x, rfl, hx⟩
    · simp only [Nat.reduceEqDiff, ↓reduceIte]
      refine ⟨_, rfl, ?_⟩
      cases x <;> first | exact hx.elim | trivial | exact ⟨hx.1, by rw [Int.natAbs_neg]; exact hx.2⟩
    · simp only [Nat.reduceEqDiff, ↓reduceIte]
      obtain ⟨a, ea, ha, -⟩ := asFloat_ok hR.float hx hd
      rw [ea]
      obtain ⟨z, e, hz⟩ := divFloat_ok hR.float a (b := .flt 100) (by decide)
      exact ⟨z, e, hz.reg _⟩
  weird := by
    intro op x y hop
    rcases hop with rfl | rfl
    · exact ⟨0, by omega, rfl, rfl⟩
    · exact ⟨1, by omega, rfl, rfl⟩
  small := by
    intro d x b hx hd
    show (if pyCmp 0xB x (.int 0) then some false else if pyCmp 0xB x (.int 1) then some true else none) = some b → pyInt x = _
    have key : ∀ n : Nat, pyCmp 0xB x (.int n) = true → pyInt x = .ok (n : Int) := by
      intro n h
      unfold pyCmp at h
      cases x <;> first | exact hx.elim | (simp [pyCompare] at h; done) | skip
      · rename_i i
        simp only [pyCompare, Nat.reduceEqDiff, ↓reduceIte, decide_eq_true_eq] at h
        split at h
        · cases h
        split at h
        · rename_i e
          rw [Rat.intCast_inj.1 e]
          rfl
        · cases h
      · rename_i q
        simp only [pyCompare, Nat.reduceEqDiff, ↓reduceIte, decide_eq_true_eq] at h
        split at h
        · cases h
        split at h
        · rename_i e
          subst e
          unfold pyInt
          dsimp only
          rw [if_pos (show (0 : Rat) ≤ ((n : Int) : Rat) from Rat.intCast_le_intCast.2 (by omega : (0 : Int) ≤ n)), Rat.floor_intCast]
        · cases h
      · rename_i s
        cases s <;> simp [pyCompare] at h
    split
    · rename_i h
      intro e
      cases e
      exact key 0 h
    · split
      · rename_i h
        intro e
        cases e
        exact key 1 h
      · intro e
        cases e
  within := by
    intro d x n hx hd
    refine ⟨_, rfl, ?_⟩
    show (pyCmp 0xC x (.int 1) && pyCmp 9 x (.int n)) = true → ∃ i : Nat, pyInt x = _ ∧ _
    intro h
    rw [Bool.and_eq_true] at h
    obtain ⟨h1, h2⟩ := h
    unfold pyCmp at h1 h2
    cases x <;> first | exact hx.elim | (simp [pyCompare] at h1; done) | skip
    · rename_i i
      simp only [pyCompare, Nat.reduceEqDiff, ↓reduceIte, decide_eq_true_eq] at h1 h2
      have a1 : 1 ≤ i := by
        split at h1
        · exact absurd rfl h1
        · rename_i c
          rw [Rat.intCast_lt_intCast] at c
          omega
      have a2 : i < n := by
        split at h2
        · rename_i c
          exact Rat.intCast_lt_intCast.1 c
        · split at h2 <;> cases h2
      refine ⟨i.toNat, ?_, by omega, by omega⟩
      rw [Int.toNat_of_nonneg (by omega)]
      rfl
    · rename_i q
      simp only [pyCompare, Nat.reduceEqDiff, ↓reduceIte, decide_eq_true_eq] at h1 h2
      have a1 : ((1 : Int) : Rat) ≤ q := by
        split at h1
        · exact absurd rfl h1
        · rename_i c
          exact Rat.not_lt.1 c
      have a2 : q < ((n : Int) : Rat) := by
        split at h2
        · assumption
        · split at h2 <;> cases h2
      have b1 := Rat.le_floor_iff.2 a1
      have b2 := Rat.floor_lt_iff.2 a2
      refine ⟨q.floor.toNat, ?_, by omega, by omega⟩
      rw [Int.toNat_of_nonneg (by omega)]
      unfold pyInt
      dsimp only
      rw [if_pos (Rat.le_trans (by decide : (0 : Rat) ≤ ((1 : Int) : Rat)) a1)]
    · rename_i s
      cases s <;> simp [pyCompare] at h1 h2

end CP
