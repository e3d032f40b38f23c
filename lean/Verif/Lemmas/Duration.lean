import Verif.Model.Pack
import Verif.Lemmas.Runs
/-!
# Lemmas about `duration`
-/

namespace CP
open Spec

theorem IsRun.unique {b : List Bool} {s t s' t' i : Nat} (h : IsRun b s t) (h' : IsRun b s' t')
    (hi : s ≤ i ∧ i < t) (hi' : s' ≤ i ∧ i < t') : s = s' ∧ t = t' := by
  have hs : s = s' := run_left_unique h (by omega) h'.2.2.1 h'.2.2.2.1 (by omega)
  refine ⟨hs, ?_⟩
  obtain ⟨a1, a2, a3, a4, a5⟩ := h
  obtain ⟨b1, b2, b3, b4, b5⟩ := h'
  rcases Nat.lt_trichotomy t t' with hlt | heq | hgt
  · have := b3 t (by omega) hlt
    rw [this] at a5; simp at a5
  · exact heq
  · have := a3 t' (by omega) hgt
    rw [this] at b5; simp at b5

/-- Every true position is in some run. -/
theorem exists_run {b : List Bool} {i : Nat} (h : b[i]? = some true) :
    ∃ s t, IsRun b s t ∧ s ≤ i ∧ i < t := by
  -- left end
  have hleft : ∃ s, s ≤ i ∧ (∀ k, s ≤ k → k ≤ i → b[k]? = some true) ∧
      (∀ k, k + 1 = s → b[k]? = some false) := by
    induction i with
    | zero =>
      refine ⟨0, by omega, ?_, ?_⟩
      · intro k _ hk
        have : k = 0 := by omega
        subst this; exact h
      · intro k hk; omega
    | succ i ih =>
      rcases hb : b[i]? with _ | v
      · have h1 : b.length ≤ i := by simpa using hb
        have h2 : i + 1 < b.length := by
          rcases Nat.lt_or_ge (i + 1) b.length with hh | hh
          · exact hh
          · simp [List.getElem?_eq_none hh] at h
        omega
      · cases v with
        | false =>
          refine ⟨i + 1, by omega, ?_, ?_⟩
          · intro k h1 h2
            have : k = i + 1 := by omega
            subst this; exact h
          · intro k hk
            have : k = i := by omega
            subst this; exact hb
        | true =>
          obtain ⟨s, h1, h2, h3⟩ := ih hb
          refine ⟨s, by omega, ?_, h3⟩
          intro k h4 h5
          rcases Nat.lt_or_ge k (i + 1) with h6 | h6
          · exact h2 k h4 (by omega)
          · have : k = i + 1 := by omega
            subst this; exact h
  have hright : ∃ t, i < t ∧ t ≤ b.length ∧ (∀ k, i ≤ k → k < t → b[k]? = some true) ∧
      (b[t]? = none ∨ b[t]? = some false) := by
    clear hleft
    have hlen : i < b.length := by
      rcases Nat.lt_or_ge i b.length with hh | hh
      · exact hh
      · simp [List.getElem?_eq_none hh] at h
    generalize hn : b.length - i = n
    induction n generalizing i with
    | zero => omega
    | succ n ih =>
      rcases hb : b[i + 1]? with _ | v
      · refine ⟨i + 1, by omega, by omega, ?_, Or.inl hb⟩
        intro k h1 h2
        have : k = i := by omega
        subst this; exact h
      · cases v with
        | false =>
          refine ⟨i + 1, by omega, by omega, ?_, Or.inr hb⟩
          intro k h1 h2
          have : k = i := by omega
          subst this; exact h
        | true =>
          have hl : i + 1 < b.length := by
            rcases Nat.lt_or_ge (i + 1) b.length with hh | hh
            · exact hh
            · simp [List.getElem?_eq_none hh] at hb
          obtain ⟨t, h1, h2, h3, h4⟩ := ih hb hl (by omega)
          refine ⟨t, by omega, h2, ?_, h4⟩
          intro k h5 h6
          rcases Nat.lt_or_ge i k with h7 | h7
          · exact h3 k (by omega) h6
          · have : k = i := by omega
            subst this; exact h
  obtain ⟨s, s1, s2, s3⟩ := hleft
  obtain ⟨t, t1, t2, t3, t4⟩ := hright
  refine ⟨s, t, ⟨by omega, t2, ?_, s3, t4⟩, s1, t1⟩
  intro k h1 h2
  rcases Nat.lt_or_ge k i with h3 | h3
  · exact s2 k h1 (by omega)
  · exact t3 k h3 h2

/-- The slice is removed by `duration`. -/
def removes (req : Int) (mindur : Bool) (sc : Nat × Nat) : Bool :=
  if mindur then decide ((sc.2 : Int) - sc.1 < req) else decide ((sc.2 : Int) - sc.1 > req)

theorem durationStep_getElem? (req : Int) (m : Bool) (bits : List Bool) (sc : Nat × Nat) (i : Nat) :
    (durationStep req m bits sc)[i]? =
      bits[i]?.map (fun b => b && !(removes req m sc && decide (sc.1 ≤ i ∧ i < sc.2))) := by
  unfold durationStep falsify removes
  cases m <;> simp only [reduceCtorEq, and_false, and_true, if_false, if_true, Bool.false_eq_true]
  · split
    · rename_i h
      simp only [List.getElem?_mapIdx]
      cases bits[i]? with
      | none => simp
      | some b =>
        by_cases hr : sc.1 ≤ i ∧ i < sc.2 <;> simp [hr, h]
    · rename_i h
      cases bits[i]? <;> simp [h]
  · split
    · rename_i h
      simp only [List.getElem?_mapIdx]
      cases bits[i]? with
      | none => simp
      | some b =>
        by_cases hr : sc.1 ≤ i ∧ i < sc.2 <;> simp [hr, h]
    · rename_i h
      cases bits[i]? <;> simp [h]

theorem durationFold_getElem? (req : Int) (m : Bool) (l : List (Nat × Nat)) (bits : List Bool)
    (i : Nat) :
    (l.foldl (durationStep req m) bits)[i]? =
      bits[i]?.map (fun b =>
        b && !(l.any fun sc => removes req m sc && decide (sc.1 ≤ i ∧ i < sc.2))) := by
  induction l generalizing bits with
  | nil => simp
  | cons sc l ih =>
    rw [List.foldl_cons, ih, durationStep_getElem?]
    cases bits[i]? with
    | none => simp
    | some b => simp [Bool.and_assoc]

theorem getElem?_eq_length {α β : Type} {l : List α} {l' : List β}
    (h : ∀ i : Nat, (l[i]?).isSome = (l'[i]?).isSome) : l.length = l'.length := by
  rcases Nat.lt_trichotomy l.length l'.length with h1 | h1 | h1
  · have := h l.length
    simp [h1] at this
  · exact h1
  · have := h l'.length
    simp [h1] at this

theorem durationFold_length (req : Int) (m : Bool) (l : List (Nat × Nat)) (bits : List Bool) :
    (l.foldl (durationStep req m) bits).length = bits.length := by
  apply getElem?_eq_length
  intro i
  rw [durationFold_getElem?]
  simp

/-- Lengths kept by `duration`. -/
def keeps (req : Int) (mindur : Bool) (n : Nat) : Prop :=
  if mindur then req ≤ n else (n : Int) ≤ req

theorem durationFold_true (req : Int) (m : Bool) (bits : List Bool) (i : Nat) :
    ((slicelist bits).foldl (durationStep req m) bits)[i]? = some true ↔
      InRunWith (keeps req m) bits i := by
  rw [durationFold_getElem?]
  constructor
  · intro h
    rcases hb : bits[i]? with _ | b
    · simp [hb] at h
    · rw [hb] at h
      simp only [Option.map_some, Option.some.injEq, Bool.and_eq_true, Bool.not_eq_true'] at h
      obtain ⟨hbt, hany⟩ := h
      subst hbt
      obtain ⟨s, t, hr, h1, h2⟩ := exists_run hb
      refine ⟨s, t, hr, h1, h2, ?_⟩
      rw [List.any_eq_false] at hany
      have := hany (s, t) (mem_slicelist.2 hr)
      have hst := hr.1
      unfold keeps
      unfold removes at this
      cases m <;> simp [h1, h2] at this ⊢ <;> omega
  · rintro ⟨s, t, hr, h1, h2, hk⟩
    have hb : bits[i]? = some true := hr.2.2.1 i h1 h2
    rw [hb]
    simp only [Option.map_some, Option.some.injEq, Bool.and_eq_true, Bool.not_eq_true', true_and]
    rw [List.any_eq_false]
    rintro ⟨s', t'⟩ hm hrem
    have hr' := mem_slicelist.1 hm
    simp only [Bool.and_eq_true, decide_eq_true_eq] at hrem
    obtain ⟨hrem, h3, h4⟩ := hrem
    obtain ⟨rfl, rfl⟩ := IsRun.unique hr hr' ⟨h1, h2⟩ ⟨h3, h4⟩
    have hst := hr.1
    unfold keeps at hk
    unfold removes at hrem
    cases m <;> simp at hrem hk <;> omega

theorem bits_ext {a b : List Bool} (hl : a.length = b.length)
    (h : ∀ i : Nat, a[i]? = some true ↔ b[i]? = some true) : a = b := by
  apply List.ext_getElem?
  intro i
  have hh := h i
  rcases Nat.lt_or_ge i a.length with h1 | h1
  · have h2 : i < b.length := by omega
    rw [List.getElem?_eq_getElem h1, List.getElem?_eq_getElem h2] at hh ⊢
    simp only [Option.some.injEq] at hh ⊢
    cases ha : a[i] <;> cases hb : b[i] <;> simp_all
  · rw [List.getElem?_eq_none h1, List.getElem?_eq_none (by omega)]

/-- Runs of a mask filtered by run length are the runs of that length. -/
theorem isRun_filtered {ok : Nat → Prop} {b c : List Bool} (hl : c.length = b.length)
    (h : ∀ i : Nat, c[i]? = some true ↔ InRunWith ok b i) (s t : Nat) :
    IsRun c s t ↔ IsRun b s t ∧ ok (t - s) := by
  have hfalse : ∀ k : Nat, b[k]? = some false → c[k]? = some false := by
    intro k hk
    have hkl : k < b.length := by
      rcases Nat.lt_or_ge k b.length with hh | hh
      · exact hh
      · simp [List.getElem?_eq_none hh] at hk
    have hc : k < c.length := by omega
    rcases hv : c[k] with _ | _
    · rw [List.getElem?_eq_getElem hc, hv]
    · exfalso
      have h1 : c[k]? = some true := by rw [List.getElem?_eq_getElem hc, hv]
      obtain ⟨s, t, hr, h2, h3, _⟩ := (h k).1 h1
      have := hr.2.2.1 k h2 h3
      rw [hk] at this; simp at this
  have hnone : ∀ k : Nat, b[k]? = none → c[k]? = none := by
    intro k hk
    have : b.length ≤ k := by simpa using hk
    exact List.getElem?_eq_none (by omega)
  have back : ∀ s t, IsRun b s t → ok (t - s) → IsRun c s t := by
    intro s t hr hok
    refine ⟨hr.1, by have := hr.2.1; omega, ?_, ?_, ?_⟩
    · intro k h1 h2
      exact (h k).2 ⟨s, t, hr, h1, h2, hok⟩
    · intro k hk
      exact hfalse k (hr.2.2.2.1 k hk)
    · rcases hr.2.2.2.2 with h1 | h1
      · exact Or.inl (hnone t h1)
      · exact Or.inr (hfalse t h1)
  constructor
  · intro hc
    have hs : c[s]? = some true := hc.2.2.1 s (by omega) hc.1
    obtain ⟨s', t', hr, h1, h2, hok⟩ := (h s).1 hs
    have hc' := back s' t' hr hok
    obtain ⟨rfl, rfl⟩ := IsRun.unique hc hc' ⟨Nat.le_refl _, hc.1⟩ ⟨h1, h2⟩
    exact ⟨hr, hok⟩
  · rintro ⟨hr, hok⟩
    exact back s t hr hok

theorem keeps_filtered {req : Int} {m : Bool} (bits : List Bool) (s t : Nat) :
    IsRun ((slicelist bits).foldl (durationStep req m) bits) s t ↔
      IsRun bits s t ∧ keeps req m (t - s) :=
  isRun_filtered (durationFold_length _ _ _ _) (durationFold_true req m bits) s t

end CP
