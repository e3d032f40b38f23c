import Verif.Model.DurationPy
import Verif.Spec.DurationPy
import Verif.Props.Duration
import Verif.Lemmas.Duration
/-!
# C90: durations that are not finite
-/

namespace CP
open Spec

theorem floatLimit_rat : ((floatLimit : Nat) : Rat) = 2 ^ 1024 - 2 ^ 970 := by decide +kernel

theorem intCast_abs (i : Int) : (i : Rat).abs = ((i.natAbs : Nat) : Rat) := by
  rw [← Rat.intCast_natCast]
  rcases abs_cases (i : Rat) with ⟨h1, h2⟩ | ⟨h1, h2⟩ <;> rw [h2]
  · have : 0 ≤ i := by rwa [← Rat.intCast_nonneg]
    rw [show (i.natAbs : Int) = i by omega]
  · have : i ≤ 0 := by
      have := Rat.intCast_le_intCast (a := i) (b := 0); exact this.1 h1
    rw [show (i.natAbs : Int) = -i by omega, Rat.intCast_neg]

theorem below_limit (i : Int) : i.natAbs < floatLimit ↔ (i : Rat).abs < 2 ^ 1024 - 2 ^ 970 := by
  rw [intCast_abs, ← floatLimit_rat, Rat.natCast_lt_natCast]

theorem f64Val_below {q : Rat} (h : q.abs < 2 ^ 1024 - 2 ^ 970) : f64Val q = .flt (f64 q) := by
  unfold f64Val; rw [if_neg (Rat.not_le.2 h)]

theorem asFloat_finite (P : PyOps) {x : Val} {d : Rat} (h : FiniteFloat x d) : asFloat (doubleOps P) x = .ok (.flt d) := by
  cases h with
  | int h1 h2 =>
    show intToFloat _ _ = _
    unfold intToFloat
    rw [if_pos ((below_limit _).2 h1)]
    show Except.ok (f64Val _) = _
    rw [f64Val_below h1, f64_eq_iff.2 h2]
  | flt q => rfl

/-- A number as a float. -/
theorem asFloat_cases (P : PyOps) {x : Val} (h : PyNumber x) :
    (∃ d, FiniteFloat x d ∧ asFloat (doubleOps P) x = .ok (.flt d)) ∨
    (∃ i : Int, x = .int i ∧ 2 ^ 1024 - 2 ^ 970 ≤ (i : Rat).abs ∧ asFloat (doubleOps P) x = .error .overflowError) ∨
    ((∃ s, x = .inf s) ∧ asFloat (doubleOps P) x = .ok x) ∨ (x = .nan ∧ asFloat (doubleOps P) x = .ok .nan) := by
  cases h with
  | int i =>
    by_cases hi : (i : Rat).abs < 2 ^ 1024 - 2 ^ 970
    · have hf : FiniteFloat (.int i) (f64 i) := .int hi (f64_nearest _)
      exact .inl ⟨_, hf, asFloat_finite P hf⟩
    · refine .inr (.inl ⟨i, rfl, Rat.not_lt.1 hi, ?_⟩)
      show intToFloat _ _ = _
      unfold intToFloat
      rw [if_neg (fun h => hi ((below_limit i).1 h))]
  | @flt q _ _ => exact .inl ⟨q, .flt q, rfl⟩
  | inf s => exact .inr (.inr (.inl ⟨⟨s, rfl⟩, rfl⟩))
  | nan => exact .inr (.inr (.inr ⟨rfl, rfl⟩))

theorem required_ints (P : PyOps) (i j : Int) : requiredSamples P (.int i) (.int j) = .ok (i * j) := rfl

theorem times_floats (P : PyOps) {x y : Val} (h : ∀ i j, x = .int i → y ≠ .int j) :
    pyArith P 5 x y = (match asFloat P x with
      | .error e => .error e
      | .ok a => match asFloat P y with
        | .error e => .error e
        | .ok b => .ok (mulFloat P a b)) := by
  unfold pyArith
  rw [if_neg (by decide)]
  split
  · exact absurd rfl (h _ _ rfl)
  · rfl

/-- The product of two numbers of which one is a float. -/
theorem required_floats (P : PyOps) {x y : Val} (h : ∀ i j, x = .int i → y ≠ .int j) :
    requiredSamples P x y = (match asFloat (doubleOps P) x with
      | .error e => .error e
      | .ok a => match asFloat (doubleOps P) y with
        | .error e => .error e
        | .ok b => pyInt (mulFloat (doubleOps P) a b)) := by
  unfold requiredSamples
  rw [times_floats _ h]
  cases asFloat (doubleOps P) x with
  | error e => rfl
  | ok a => cases asFloat (doubleOps P) y with
    | error e => rfl
    | ok b => rfl

theorem pyInt_flt (q : Rat) : pyInt (.flt q) = .ok (truncRat q) := rfl

/-- The floats `d` and `r` multiplied. -/
theorem product_finite (P : PyOps) (d r : Rat) :
    pyInt (mulFloat (doubleOps P) (.flt d) (.flt r)) =
      if 2 ^ 1024 - 2 ^ 970 ≤ (d * r).abs then .error .overflowError else .ok (truncRat (f64 (d * r))) := by
  show pyInt (f64Val (d * r)) = _
  unfold f64Val
  split
  · rfl
  · rfl

theorem finite_unique {x : Val} {d r : Rat} (h : FiniteFloat x d) (h' : FiniteFloat x r) : d = r := by
  cases h with
  | int h1 h2 => cases h' with
    | int h3 h4 => exact nearestDouble_unique h2 h4
  | flt q => cases h'; rfl

theorem finite_int {i : Int} {d : Rat} (h : FiniteFloat (.int i) d) : (i : Rat).abs < 2 ^ 1024 - 2 ^ 970 := by cases h; assumption

theorem finite_not_inf {s : Bool} {d : Rat} (h : FiniteFloat (.inf s) d) : False := by cases h

theorem finite_not_nan {d : Rat} (h : FiniteFloat .nan d) : False := by cases h

theorem not_noProduct_big {x y : Val} {i : Int} (h : x = .int i ∨ y = .int i) (hi : 2 ^ 1024 - 2 ^ 970 ≤ (i : Rat).abs) : ¬ NoProduct x y :=
  fun hn => Rat.not_le.2 (hn.2 i h) hi

theorem big_not_finite {i : Int} {d : Rat} (hi : 2 ^ 1024 - 2 ^ 970 ≤ (i : Rat).abs) (h : FiniteFloat (.int i) d) : False :=
  Rat.not_le.2 (finite_int h) hi

/-- All outcomes of the product of two numbers of which one is a float. -/
theorem required_cases (P : PyOps) {x y : Val} (hx : PyNumber x) (hy : PyNumber y) (h : ∀ i j, x = .int i → y ≠ .int j) :
    (∃ d r, FiniteFloat x d ∧ FiniteFloat y r ∧ (d * r).abs < 2 ^ 1024 - 2 ^ 970 ∧ requiredSamples P x y = .ok (truncRat (f64 (d * r)))) ∨
    (NoProduct x y ∧ requiredSamples P x y = .error .valueError) ∨
    (¬ NoProduct x y ∧ (∀ d r, FiniteFloat x d → FiniteFloat y r → 2 ^ 1024 - 2 ^ 970 ≤ (d * r).abs) ∧
      requiredSamples P x y = .error .overflowError) := by
  rw [required_floats P h]
  rcases asFloat_cases P hx with ⟨d, fx, ex⟩ | ⟨i, rfl, bi, ex⟩ | ⟨⟨s, rfl⟩, ex⟩ | ⟨rfl, ex⟩ <;> rw [ex] <;>
    rcases asFloat_cases P hy with ⟨r, fy, ey⟩ | ⟨j, rfl, bj, ey⟩ | ⟨⟨t, rfl⟩, ey⟩ | ⟨rfl, ey⟩ <;> rw [ey] <;> dsimp only
  · rw [product_finite]
    by_cases hb : 2 ^ 1024 - 2 ^ 970 ≤ (d * r).abs
    · rw [if_pos hb]
      refine .inr (.inr ⟨fun hn => ?_, fun d' r' h1 h2 => ?_, rfl⟩)
      · rcases hn.1 with e | e | ⟨s, e, -⟩ | ⟨s, e, -⟩
        · subst e; exact finite_not_nan fx
        · subst e; exact finite_not_nan fy
        · subst e; exact finite_not_inf fx
        · subst e; exact finite_not_inf fy
      · rw [finite_unique h1 fx, finite_unique h2 fy]; exact hb
    · rw [if_neg hb]
      exact .inl ⟨d, r, fx, fy, Rat.not_le.1 hb, rfl⟩
  · exact .inr (.inr ⟨not_noProduct_big (.inr rfl) bj, fun _ _ _ h2 => (big_not_finite bj h2).elim, rfl⟩)
  · show _ ∨ _ ∧ pyInt (infTimes t d) = _ ∨ _ ∧ _ ∧ pyInt (infTimes t d) = _
    unfold infTimes
    by_cases h0 : d = 0
    · subst h0
      rw [if_pos rfl]
      refine .inr (.inl ⟨⟨.inr (.inr (.inr ⟨t, rfl, fx⟩)), fun i hi => ?_⟩, rfl⟩)
      rcases hi with rfl | hi
      · exact finite_int fx
      · cases hi
    · rw [if_neg h0]
      refine .inr (.inr ⟨fun hn => ?_, fun _ _ _ h2 => (finite_not_inf h2).elim, rfl⟩)
      rcases hn.1 with e | e | ⟨s, e, -⟩ | ⟨s, -, e⟩
      · subst e; exact finite_not_nan fx
      · cases e
      · subst e; exact finite_not_inf fx
      · exact h0 (finite_unique fx e)
  · refine .inr (.inl ⟨⟨.inr (.inl rfl), fun i hi => ?_⟩, rfl⟩)
    rcases hi with rfl | hi
    · exact finite_int fx
    · cases hi
  · exact .inr (.inr ⟨not_noProduct_big (.inl rfl) bi, fun _ _ h1 _ => (big_not_finite bi h1).elim, rfl⟩)
  · exact .inr (.inr ⟨not_noProduct_big (.inl rfl) bi, fun _ _ h1 _ => (big_not_finite bi h1).elim, rfl⟩)
  · exact .inr (.inr ⟨not_noProduct_big (.inl rfl) bi, fun _ _ h1 _ => (big_not_finite bi h1).elim, rfl⟩)
  · exact .inr (.inr ⟨not_noProduct_big (.inl rfl) bi, fun _ _ h1 _ => (big_not_finite bi h1).elim, rfl⟩)
  · show _ ∨ _ ∧ pyInt (infTimes s r) = _ ∨ _ ∧ _ ∧ pyInt (infTimes s r) = _
    unfold infTimes
    by_cases h0 : r = 0
    · subst h0
      rw [if_pos rfl]
      refine .inr (.inl ⟨⟨.inr (.inr (.inl ⟨s, rfl, fy⟩)), fun i hi => ?_⟩, rfl⟩)
      rcases hi with hi | rfl
      · cases hi
      · exact finite_int fy
    · rw [if_neg h0]
      refine .inr (.inr ⟨fun hn => ?_, fun _ _ h1 _ => (finite_not_inf h1).elim, rfl⟩)
      rcases hn.1 with e | e | ⟨s, -, e⟩ | ⟨s, e, -⟩
      · cases e
      · subst e; exact finite_not_nan fy
      · exact h0 (finite_unique fy e)
      · subst e; exact finite_not_inf fy
  · exact .inr (.inr ⟨not_noProduct_big (.inr rfl) bj, fun _ _ _ h2 => (big_not_finite bj h2).elim, rfl⟩)
  · refine .inr (.inr ⟨fun hn => ?_, fun _ _ h1 _ => (finite_not_inf h1).elim, rfl⟩)
    rcases hn.1 with e | e | ⟨s, -, e⟩ | ⟨s, -, e⟩
    · cases e
    · cases e
    · exact finite_not_inf e
    · exact finite_not_inf e
  · refine .inr (.inl ⟨⟨.inr (.inl rfl), fun i hi => ?_⟩, rfl⟩)
    rcases hi with hi | hi <;> cases hi
  · refine .inr (.inl ⟨⟨.inl rfl, fun i hi => ?_⟩, rfl⟩)
    rcases hi with hi | rfl
    · cases hi
    · exact finite_int fy
  · exact .inr (.inr ⟨not_noProduct_big (.inr rfl) bj, fun _ _ _ h2 => (big_not_finite bj h2).elim, rfl⟩)
  · refine .inr (.inl ⟨⟨.inl rfl, fun i hi => ?_⟩, rfl⟩)
    rcases hi with hi | hi <;> cases hi
  · refine .inr (.inl ⟨⟨.inl rfl, fun i hi => ?_⟩, rfl⟩)
    rcases hi with hi | hi <;> cases hi

theorem duration_trunc (p : Pack) (q : Rat) (m : Bool) : p.duration ((truncRat q : Int) : Rat) m = p.duration q m := by
  unfold Pack.duration; rw [truncRat_int]

/-- C90, exactly: which durations and rates are taken, with which effect; when an exception is raised, nothing is changed.  Two ints are
always taken.  Else the product of the floats is, if it is finite; it is ValueError if there is no product, OverflowError if it
is too large. -/
theorem C90_exact (P : PyOps) (p : Pack) {x y : Val} (m : Bool) (hx : PyNumber x) (hy : PyNumber y) :
    ((p.durationPy P x y m).2 = none ↔ (∃ i j, x = .int i ∧ y = .int j) ∨
      ∃ d r, FiniteFloat x d ∧ FiniteFloat y r ∧ (d * r).abs < 2 ^ 1024 - 2 ^ 970) ∧
    (∀ e, (p.durationPy P x y m).2 = some e → (p.durationPy P x y m).1 = p ∧
      (NoProduct x y ∧ e = .valueError ∨ ¬ NoProduct x y ∧ e = .overflowError)) ∧
    (∀ i j, x = .int i → y = .int j → p.durationPy P x y m = (p.duration ((i * j : Int) : Rat) m, none)) ∧
    (∀ d r z, FiniteFloat x d → FiniteFloat y r → (∀ i j, x = .int i → y ≠ .int j) → (d * r).abs < 2 ^ 1024 - 2 ^ 970 →
      NearestDouble z (d * r) → p.durationPy P x y m = (p.duration z m, none)) := by
  by_cases hi : ∃ i j, x = .int i ∧ y = .int j
  · obtain ⟨i, j, rfl, rfl⟩ := hi
    refine ⟨⟨fun _ => .inl ⟨i, j, rfl, rfl⟩, fun _ => rfl⟩, ?_, ?_, ?_⟩
    · intro e he; cases he
    · intro i' j' h1 h2; cases h1; cases h2; rfl
    · intro d r z _ _ h; exact absurd rfl (h i j rfl)
  have hn : ∀ i j, x = .int i → y ≠ .int j := fun i j h1 h2 => hi ⟨i, j, h1, h2⟩
  have hs : p.durationPy P x y m = match requiredSamples P x y with
    | .error e => (p, some e)
    | .ok n => (p.duration n m, none) := rfl
  rw [hs]
  rcases required_cases P hx hy hn with ⟨d, r, h1, h2, h3, h4⟩ | ⟨h1, h2⟩ | ⟨h1, h2, h3⟩
  · rw [h4]
    refine ⟨⟨fun _ => .inr ⟨d, r, h1, h2, h3⟩, fun _ => rfl⟩, ?_, ?_, ?_⟩
    · intro e he; cases he
    · intro i j e1 e2; exact absurd e2 (hn i j e1)
    · intro d' r' z k1 k2 _ k4 k5
      rw [finite_unique k1 h1, finite_unique k2 h2] at k5
      dsimp only
      rw [← f64_eq_iff.2 k5, duration_trunc]
  · rw [h2]
    refine ⟨⟨fun h => (by cases h), fun h => ?_⟩, ?_, ?_, ?_⟩
    · rcases h with h | ⟨d, r, k1, k2, k3⟩
      · exact absurd h hi
      · rcases h1.1 with e | e | ⟨s, e, -⟩ | ⟨s, e, -⟩
        · subst e; exact (finite_not_nan k1).elim
        · subst e; exact (finite_not_nan k2).elim
        · subst e; exact (finite_not_inf k1).elim
        · subst e; exact (finite_not_inf k2).elim
    · intro e he; cases he; exact ⟨rfl, .inl ⟨h1, rfl⟩⟩
    · intro i j e1 e2; exact absurd e2 (hn i j e1)
    · intro d r z k1 k2
      rcases h1.1 with e | e | ⟨s, e, -⟩ | ⟨s, e, -⟩
      · subst e; exact (finite_not_nan k1).elim
      · subst e; exact (finite_not_nan k2).elim
      · subst e; exact (finite_not_inf k1).elim
      · subst e; exact (finite_not_inf k2).elim
  · rw [h3]
    refine ⟨⟨fun h => (by cases h), fun h => ?_⟩, ?_, ?_, ?_⟩
    · rcases h with h | ⟨d, r, k1, k2, k3⟩
      · exact absurd h hi
      · exact absurd (h2 d r k1 k2) (Rat.not_le.2 k3)
    · intro e he; cases he; exact ⟨rfl, .inr ⟨h1, rfl⟩⟩
    · intro i j e1 e2; exact absurd e2 (hn i j e1)
    · intro d r z k1 k2 _ k4
      exact absurd (h2 d r k1 k2) (Rat.not_le.2 k4)

/-! ### Durations longer than the mask -/

/-- C90 as a user would have it: a duration of more samples than there are is too long for every part of the mask.  With mindur=True
nothing stays, with mindur=False all does.  With `all`, infinite durations and rates too, and products of any size. -/
def LongDurations (all : Bool) : Prop :=
  ∀ (P : PyOps) (E : NpEnv) (p : Pack), Reachable E p → p.mask.bits.length < 2 ^ 53 → ∀ x y,
    NumberFrom (p.mask.bits.length + 1) x → NumberFrom 1 y →
    (all = false → (∃ i j, x = .int i ∧ y = .int j) ∨
      ∃ d r, FiniteFloat x d ∧ FiniteFloat y r ∧ (d * r).abs < 2 ^ 1024 - 2 ^ 970) →
    (p.durationPy P x y true).2 = none ∧ (p.durationPy P x y false).2 = none ∧
    ∀ i : Nat, (p.durationPy P x y true).1.mask.bits[i]? ≠ some true ∧
      ((p.durationPy P x y false).1.mask.bits[i]? = some true ↔ p.mask.bits[i]? = some true)

theorem from_finite {n : Nat} (hn : n ≤ 2 ^ 53) {x : Val} {d : Rat} (h : NumberFrom n x) (hd : FiniteFloat x d) : (n : Rat) ≤ d := by
  cases hd with
  | int h1 h2 => cases h with
    | int h3 =>
      have := f64_mono h3
      rw [f64_eq_iff.2 h2, ← Rat.intCast_natCast, f64_int (by omega), Rat.intCast_natCast] at this
      exact this
  | flt q => cases h with
    | flt _ _ h3 => exact h3

theorem from_number {n : Rat} {x : Val} (hn : 0 ≤ n) (h : NumberFrom n x) : PyNumber x := by
  cases h with
  | int h => exact .int _
  | flt h1 h2 h3 =>
    refine .flt h1 ?_
    rw [Rat.abs_of_nonneg (Rat.le_trans hn h3)]; exact h2
  | inf => exact .inf _

theorem le_trunc {n : Nat} {q : Rat} (h : (n : Rat) ≤ q) : (n : Int) ≤ truncRat q := by
  have h0 : (0 : Rat) ≤ n := Rat.natCast_nonneg
  rw [truncRat_of_nonneg (Rat.le_trans h0 h), Rat.le_floor_iff, Rat.intCast_natCast]
  exact h

/-- A duration with more samples than there are. -/
theorem duration_long {E : NpEnv} {p : Pack} (hp : Reachable E p) {q : Rat} (hq : ((p.mask.bits.length + 1 : Nat) : Rat) ≤ q) (i : Nat) :
    (p.duration q true).mask.bits[i]? ≠ some true ∧ ((p.duration q false).mask.bits[i]? = some true ↔ p.mask.bits[i]? = some true) := by
  have h1 := le_trunc hq
  rw [(C06_max_duration E p hp q).2.2.1 i, ne_eq, (C05_min_duration E p hp q).2.2.1 i]
  refine ⟨?_, ?_, ?_⟩
  · rintro ⟨s, t, ⟨-, h3, -⟩, -, -, h8⟩
    omega
  · rintro ⟨s, t, ⟨-, h2, h3, -⟩, h4, h5, -⟩
    exact h3 i h4 h5
  · intro h
    obtain ⟨s, t, hr, h4, h5⟩ := exists_run h
    refine ⟨s, t, hr, h4, h5, ?_⟩
    have := hr.2.1
    show ((t - s : Nat) : Int) ≤ _
    omega

/-- C90, the part that holds: for finite durations and rates whose product is below the limit of the floats, and all ints.  (Missing: infinite
durations, that raise OverflowError.) -/
theorem C90_long_partial : LongDurations false := by
  intro P E p hp hl x y hx hy ht
  have hx' : NumberFrom ((p.mask.bits.length + 1 : Nat) : Rat) x := by
    rw [Rat.natCast_add]; exact hx
  have key : ∀ q : Rat, ((p.mask.bits.length + 1 : Nat) : Rat) ≤ q → (∀ m, p.durationPy P x y m = (p.duration q m, none)) →
      (p.durationPy P x y true).2 = none ∧ (p.durationPy P x y false).2 = none ∧
      ∀ i : Nat, (p.durationPy P x y true).1.mask.bits[i]? ≠ some true ∧
        ((p.durationPy P x y false).1.mask.bits[i]? = some true ↔ p.mask.bits[i]? = some true) := by
    intro q h1 h2
    rw [h2, h2]
    exact ⟨rfl, rfl, duration_long hp h1⟩
  have nx := from_number Rat.natCast_nonneg hx'
  have ny := from_number (by decide) hy
  by_cases hi : ∃ i j, x = .int i ∧ y = .int j
  · obtain ⟨i, j, rfl, rfl⟩ := hi
    refine key ((i * j : Int) : Rat) ?_ fun m => (C90_exact P p m nx ny).2.2.1 i j rfl rfl
    have h1 : ((p.mask.bits.length + 1 : Nat) : Int) ≤ i := by
      cases hx' with
      | int h => rw [← Rat.intCast_natCast, Rat.intCast_le_intCast] at h; exact h
    have h2 : 1 ≤ j := by
      cases hy with
      | int h => exact Rat.intCast_le_intCast.1 h
    rw [← Rat.intCast_natCast, Rat.intCast_le_intCast]
    have := Int.mul_le_mul_of_nonneg_left h2 (show 0 ≤ i by omega)
    omega
  · rcases ht rfl with h | ⟨d, r, h1, h2, h3⟩
    · exact absurd h hi
    · have hd := from_finite (by omega) hx' h1
      have hr : (1 : Rat) ≤ r := from_finite (n := 1) (by decide) hy h2
      have h0 : (0 : Rat) ≤ ((p.mask.bits.length + 1 : Nat) : Rat) := Rat.natCast_nonneg
      have h4 : ((p.mask.bits.length + 1 : Nat) : Rat) ≤ d * r := by
        have := Rat.mul_le_mul_of_nonneg_left hr (Rat.le_trans h0 hd)
        grind
      refine key (f64 (d * r)) ?_ fun m => (C90_exact P p m nx ny).2.2.2 d r _ h1 h2 (fun i j e1 e2 => hi ⟨i, j, e1, e2⟩) h3 (f64_nearest _)
      have h5 := f64_mono h4
      rw [← Rat.intCast_natCast, f64_int (by omega)] at h5
      rw [← Rat.intCast_natCast]; exact h5

/-- C90 as stated is false: `duration(float('inf'), mindur=False)`, that is to say no longest duration, raises OverflowError. -/
theorem C90_counterexample : ¬ LongDurations true := by
  intro h
  have h1 := (h ⟨fun q => .flt q, fun _ _ => .error .valueError, fun _ => .error .valueError, fun _ => [], fun _ _ _ => false,
    fun _ _ _ => .error .valueError⟩ ⟨fun _ _ => none, fun _ v => v⟩ ex28 (Reachable.init _ _ _) (by decide +kernel) (.inf false) (.int 1) .inf
    (.int (by decide)) (by intro h; cases h)).1
  have h2 : ∀ P, (ex28.durationPy P (.inf false) (.int 1) true).2 = some .overflowError := by
    intro P
    have := (C90_exact P ex28 (x := .inf false) (y := .int 1) true (.inf _) (.int _))
    rcases hc : (ex28.durationPy P (.inf false) (.int 1) true).2 with _ | e
    · rcases this.1.1 hc with ⟨i, j, e, -⟩ | ⟨d, r, e, -⟩
      · cases e
      · exact (finite_not_inf e).elim
    · rcases (this.2.1 e hc).2 with ⟨hn, -⟩ | ⟨-, he⟩
      · rcases hn.1 with e | e | ⟨s, -, e⟩ | ⟨s, e, -⟩
        · cases e
        · cases e
        · cases e with
          | int _ h2 => exact absurd (f64_eq_iff.2 h2) (by decide +kernel)
        · cases e
      · rw [he]
  rw [h2] at h1
  cases h1

/-- A duration of 29.0 is longer than 28 samples. -/
example (P : PyOps) (i : Nat) : (ex28.durationPy P (.flt 29) (.int 1) true).1.mask.bits[i]? ≠ some true := by
  have h2 : FiniteFloat (.int 1) 1 := .int (by decide +kernel) (f64_eq_iff.1 (by decide +kernel))
  exact ((C90_long_partial P ⟨fun _ _ => none, fun _ v => v⟩ ex28 (Reachable.init _ _ _) (by decide +kernel) (.flt 29) (.int 1)
    (.flt (isDouble_int (i := 29) (by decide)) (by decide +kernel) (by decide +kernel)) (.int (by decide))
    (fun _ => .inr ⟨29, 1, .flt 29, h2, by decide +kernel⟩)).2.2 i).1

/-- A product that is too large: 1e200 seconds at 1e200 samples a second. -/
example (P : PyOps) (p : Pack) : (p.durationPy P (.flt (f64 (10 ^ 200))) (.flt (f64 (10 ^ 200))) true).2 ≠ none := by
  intro h
  rcases (C90_exact P p true (.flt (f64_isDouble _) (by decide +kernel)) (.flt (f64_isDouble _) (by decide +kernel))).1.1 h with ⟨i, j, e, -⟩ | ⟨d, r, h1, h2, h3⟩
  · cases e
  · cases h1; cases h2; revert h3; decide +kernel

end CP
