import Verif.Model.Datautils
import Verif.Spec.Runs
/-!
# Lemmas about `startstop_bool` and `slicelist`
-/

namespace CP
open Spec

theorem startstopLoop_length (st : Bool) (a b : List Bool) :
    (startstopLoop st a b).length = min a.length b.length := by
  induction a generalizing st b with
  | nil => simp [startstopLoop]
  | cons x xs ih =>
    cases b with
    | nil => simp [startstopLoop]
    | cons y ys =>
      simp only [startstopLoop]
      split
      · simp [ih]
      · split
        · simp [ih]
        · split <;> simp [ih]

/-- Trigger with the flag already set at the beginning. -/
def TrigFrom (st : Bool) (a b : List Bool) (i : Nat) : Prop :=
  TriggerOn a b i ∨ (st = true ∧ ∀ k, k ≤ i → b[k]? = some false)

theorem trigFrom_cons_zero (st x y : Bool) (xs ys : List Bool) :
    TrigFrom st (x :: xs) (y :: ys) 0 ↔ y = false ∧ (x = true ∨ st = true) := by
  constructor
  · rintro (⟨j, hj, h1, h2⟩ | ⟨h1, h2⟩)
    · have : j = 0 := by omega
      subst this
      have := h2 0 (by omega) (by omega)
      simp_all
    · have := h2 0 (by omega)
      simp_all
  · rintro ⟨hy, hx | hs⟩
    · refine Or.inl ⟨0, by omega, by simp [hx], ?_⟩
      intro k _ hk
      have : k = 0 := by omega
      subst this; simp [hy]
    · refine Or.inr ⟨hs, ?_⟩
      intro k hk
      have : k = 0 := by omega
      subst this; simp [hy]

theorem trigFrom_cons_succ (st x y : Bool) (xs ys : List Bool) (i : Nat) :
    TrigFrom st (x :: xs) (y :: ys) (i + 1) ↔
      TrigFrom (if y then false else (x || st)) xs ys i := by
  constructor
  · rintro (⟨j, hj, h1, h2⟩ | ⟨h1, h2⟩)
    · cases j with
      | zero =>
        have hy := h2 0 (by omega) (by omega)
        refine Or.inr ⟨by simp_all, ?_⟩
        intro k hk
        have := h2 (k + 1) (by omega) (by omega)
        simpa using this
      | succ j =>
        refine Or.inl ⟨j, by omega, by simpa using h1, ?_⟩
        intro k hk1 hk2
        have := h2 (k + 1) (by omega) (by omega)
        simpa using this
    · have hy := h2 0 (by omega)
      refine Or.inr ⟨by simp_all, ?_⟩
      intro k hk
      have := h2 (k + 1) (by omega)
      simpa using this
  · rintro (⟨j, hj, h1, h2⟩ | ⟨h1, h2⟩)
    · refine Or.inl ⟨j + 1, by omega, by simpa using h1, ?_⟩
      intro k hk1 hk2
      cases k with
      | zero => omega
      | succ k => simpa using h2 k (by omega) (by omega)
    · have hy : y = false := by cases y <;> simp_all
      have hxs : x = true ∨ st = true := by cases y <;> cases x <;> simp_all
      rcases hxs with hx | hs
      · refine Or.inl ⟨0, by omega, by simp [hx], ?_⟩
        intro k _ hk
        cases k with
        | zero => simp [hy]
        | succ k => simpa using h2 k (by omega)
      · refine Or.inr ⟨hs, ?_⟩
        intro k hk
        cases k with
        | zero => simp [hy]
        | succ k => simpa using h2 k (by omega)

theorem startstopLoop_cons (st x y : Bool) (xs ys : List Bool) :
    startstopLoop st (x :: xs) (y :: ys) =
      (!y && (x || st)) :: startstopLoop (if y then false else (x || st)) xs ys := by
  cases st <;> cases x <;> cases y <;> simp [startstopLoop]

theorem startstopLoop_spec (st : Bool) (a b : List Bool) (i : Nat)
    (hi : i < min a.length b.length) :
    (startstopLoop st a b)[i]? = some true ↔ TrigFrom st a b i := by
  induction a generalizing st b i with
  | nil => simp at hi
  | cons x xs ih =>
    cases b with
    | nil => simp at hi
    | cons y ys =>
      rw [startstopLoop_cons]
      cases i with
      | zero =>
        rw [trigFrom_cons_zero]
        cases y <;> simp
      | succ i =>
        rw [trigFrom_cons_succ]
        simp only [List.getElem?_cons_succ]
        apply ih
        simp at hi
        omega

/-! ### slicelist -/

/-- Loop invariant of `slicelist` at index `i` of the whole mask `b`. -/
structure SLInv (b : List Bool) (i : Nat) (started : Bool) (start : Nat)
    (acc : List (Nat × Nat)) : Prop where
  mem : ∀ s t, (s, t) ∈ acc ↔ (IsRun b s t ∧ t < i)
  sorted : acc.Pairwise (fun x y => x.2 < y.1)
  on : started = true →
    start < i ∧ (∀ k, start ≤ k → k < i → b[k]? = some true) ∧
    (∀ k, k + 1 = start → b[k]? = some false)
  off : started = false → ∀ k, k + 1 = i → b[k]? = some false

theorem run_left_unique {b : List Bool} {s s' t t' : Nat} (h : IsRun b s t)
    (hs' : s' < t)
    (hall : ∀ k, s' ≤ k → k < t' → b[k]? = some true)
    (hl : ∀ k, k + 1 = s' → b[k]? = some false)
    (ht' : s < t') : s = s' := by
  obtain ⟨h1, h2, h3, h4, h5⟩ := h
  rcases Nat.lt_trichotomy s s' with hlt | heq | hgt
  · have h6 := hl (s' - 1) (by omega)
    have h7 := h3 (s' - 1) (by omega) (by omega)
    rw [h6] at h7; simp at h7
  · exact heq
  · have h6 := h4 (s - 1) (by omega)
    have h7 := hall (s - 1) (by omega) (by omega)
    rw [h6] at h7; simp at h7

theorem SLInv.step_start {b : List Bool} {i start : Nat} {acc}
    (h : SLInv b i false start acc) (hi : b[i]? = some true) :
    SLInv b (i + 1) true i acc := by
  refine ⟨?_, h.sorted, ?_, ?_⟩
  · intro s t
    rw [h.mem]
    constructor
    · rintro ⟨h1, h2⟩; exact ⟨h1, by omega⟩
    · rintro ⟨h1, h2⟩
      refine ⟨h1, ?_⟩
      rcases Nat.lt_or_ge t i with h3 | h3
      · exact h3
      · have : t = i := by omega
        subst this
        have := h1.2.2.2.2
        simp [hi] at this
  · intro _
    refine ⟨by omega, ?_, ?_⟩
    · intro k h1 h2
      have : k = i := by omega
      subst this; exact hi
    · exact h.off rfl
  · simp

theorem SLInv.step_stop {b : List Bool} {i start : Nat} {acc}
    (h : SLInv b i true start acc) (hi : b[i]? = some false) :
    SLInv b (i + 1) false start (acc ++ [(start, i)]) := by
  obtain ⟨h1, h2, h3⟩ := h.on rfl
  have hlen : i < b.length := by
    rcases Nat.lt_or_ge i b.length with hh | hh
    · exact hh
    · simp [List.getElem?_eq_none hh] at hi
  have hrun : IsRun b start i := ⟨h1, by omega, h2, h3, Or.inr hi⟩
  refine ⟨?_, ?_, by simp, ?_⟩
  · intro s t
    rw [List.mem_append, h.mem]
    constructor
    · rintro (⟨h4, h5⟩ | h4)
      · exact ⟨h4, by omega⟩
      · simp at h4; obtain ⟨rfl, rfl⟩ := h4; exact ⟨hrun, by omega⟩
    · rintro ⟨h4, h5⟩
      rcases Nat.lt_or_ge t i with h6 | h6
      · exact Or.inl ⟨h4, h6⟩
      · have : t = i := by omega
        subst this
        have : s = start := run_left_unique h4 (by omega) h2 h3 h4.1
        subst this
        exact Or.inr (by simp)
  · rw [List.pairwise_append]
    refine ⟨h.sorted, by simp, ?_⟩
    rintro ⟨s, t⟩ hm y hy
    simp at hy; subst hy
    obtain ⟨h4, h5⟩ := (h.mem s t).1 hm
    show t < start
    rcases Nat.lt_or_ge t start with h6 | h6
    · exact h6
    · have h7 := h4.2.2.2.2
      have h8 := h2 t h6 h5
      rw [h8] at h7; simp at h7
  · intro _ k hk
    have : k = i := by omega
    subst this; exact hi

theorem SLInv.step_same {b : List Bool} {i start : Nat} {started : Bool} {acc}
    (h : SLInv b i started start acc) (hi : b[i]? = some started) :
    SLInv b (i + 1) started start acc := by
  refine ⟨?_, h.sorted, ?_, ?_⟩
  · intro s t
    rw [h.mem]
    constructor
    · rintro ⟨h1, h2⟩; exact ⟨h1, by omega⟩
    · rintro ⟨h1, h2⟩
      refine ⟨h1, ?_⟩
      rcases Nat.lt_or_ge t i with h3 | h3
      · exact h3
      · have : t = i := by omega
        subst this
        have h4 := h1.2.2.2.2
        have h5 := h1.2.2.1 (t - 1) (by have := h1.1; omega) (by have := h1.1; omega)
        cases started with
        | true => simp [hi] at h4
        | false =>
          have h6 := h.off rfl (t - 1) (by have := h1.1; omega)
          rw [h6] at h5; simp at h5
  · intro hs
    obtain ⟨h1, h2, h3⟩ := h.on hs
    refine ⟨by omega, ?_, h3⟩
    intro k h4 h5
    rcases Nat.lt_or_ge k i with h6 | h6
    · exact h2 k h4 h6
    · have : k = i := by omega
      subst this; rw [hi, hs]
  · intro hs k hk
    have : k = i := by omega
    subst this; rw [hi, hs]

theorem slicelistLoop_inv (b pre bs : List Bool) (hb : b = pre ++ bs)
    (started : Bool) (start : Nat) (e : Bool) (acc : List (Nat × Nat))
    (he : e = started)
    (h : SLInv b pre.length started start acc) :
    (∀ s t, (s, t) ∈ slicelistLoop bs pre.length started start e acc ↔ IsRun b s t) ∧
    (slicelistLoop bs pre.length started start e acc).Pairwise (fun x y => x.2 < y.1) := by
  induction bs generalizing pre started start e acc with
  | nil =>
    subst he
    have hbl : b.length = pre.length := by simp [hb]
    simp only [slicelistLoop]
    cases e with
    | false =>
      refine ⟨?_, by simpa using h.sorted⟩
      intro s t
      simp only [Bool.false_eq_true, if_false]
      rw [h.mem]
      constructor
      · exact fun hh => hh.1
      · intro hh
        refine ⟨hh, ?_⟩
        rcases Nat.lt_or_ge t pre.length with h3 | h3
        · exact h3
        · have h4 := hh.2.1
          have h5 := hh.2.2.1 (t - 1) (by have := hh.1; omega) (by have := hh.1; omega)
          have h6 := h.off rfl (t - 1) (by have := hh.1; omega)
          rw [h6] at h5; simp at h5
    | true =>
      obtain ⟨h1, h2, h3⟩ := h.on rfl
      have hnone : b[pre.length]? = none := List.getElem?_eq_none (by omega)
      have hrun : IsRun b start pre.length := ⟨h1, by omega, h2, h3, Or.inl hnone⟩
      simp only [if_true]
      constructor
      · intro s t
        rw [List.mem_append, h.mem]
        constructor
        · rintro (⟨h4, h5⟩ | h4)
          · exact h4
          · simp at h4; obtain ⟨rfl, rfl⟩ := h4; exact hrun
        · intro h4
          rcases Nat.lt_or_ge t pre.length with h6 | h6
          · exact Or.inl ⟨h4, h6⟩
          · have : t = pre.length := by have := h4.2.1; omega
            subst this
            have : s = start := run_left_unique h4 (by omega) h2 h3 h4.1
            subst this
            exact Or.inr (by simp)
      · rw [List.pairwise_append]
        refine ⟨h.sorted, by simp, ?_⟩
        rintro ⟨s, t⟩ hm y hy
        simp at hy; subst hy
        obtain ⟨h4, h5⟩ := (h.mem s t).1 hm
        show t < start
        rcases Nat.lt_or_ge t start with h6 | h6
        · exact h6
        · have h7 := h4.2.2.2.2
          have h8 := h2 t h6 h5
          rw [h8] at h7; simp at h7
  | cons x xs ih =>
    have hx : b[pre.length]? = some x := by simp [hb]
    have hb' : b = (pre ++ [x]) ++ xs := by simp [hb]
    have hlen : (pre ++ [x]).length = pre.length + 1 := by simp
    simp only [slicelistLoop]
    cases started <;> cases x <;>
      simp only [Bool.not_false, Bool.not_true, Bool.and_true, Bool.and_false,
        Bool.false_eq_true, if_false, if_true, Bool.and_self]
    · have := ih (pre ++ [false]) hb' false start false acc rfl (by rw [hlen]; exact h.step_same hx)
      rwa [hlen] at this
    · have := ih (pre ++ [true]) hb' true pre.length true acc rfl
        (by rw [hlen]; exact h.step_start hx)
      rwa [hlen] at this
    · have := ih (pre ++ [false]) hb' false start false _ rfl
        (by rw [hlen]; exact h.step_stop hx)
      rwa [hlen] at this
    · have := ih (pre ++ [true]) hb' true start true acc rfl (by rw [hlen]; exact h.step_same hx)
      rwa [hlen] at this

theorem slicelist_spec (b : List Bool) :
    (∀ s t, (s, t) ∈ slicelist b ↔ IsRun b s t) ∧
    (slicelist b).Pairwise (fun x y => x.2 < y.1) := by
  have h0 : SLInv b 0 false 0 [] := by
    refine ⟨?_, by simp, by simp, ?_⟩
    · intro s t; simp
    · intro _ k hk; omega
  exact slicelistLoop_inv b [] b rfl false 0 false [] rfl h0

theorem mem_slicelist {b : List Bool} {s t : Nat} : (s, t) ∈ slicelist b ↔ IsRun b s t :=
  (slicelist_spec b).1 s t

theorem slicelist_pairwise (b : List Bool) :
    (slicelist b).Pairwise (fun x y => x.2 < y.1) := (slicelist_spec b).2

end CP
