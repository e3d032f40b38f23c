import Verif.Model.Pack
import Verif.Lemmas.Duration
/-!
# Concatenation of the slices equals boolean indexing
-/

namespace CP

/-- Elements where the mask is true. -/
def selectTrue {α : Type} : List α → List Bool → List α
  | v :: vs, b :: bs => if b then v :: selectTrue vs bs else selectTrue vs bs
  | _, _ => []

theorem selectTrue_eq {α : Type} (els : List α) (bits : List Bool) :
    ((els.zip bits).filter (·.2)).map (·.1) = selectTrue els bits := by
  induction els generalizing bits with
  | nil => simp [selectTrue]
  | cons v vs ih =>
    cases bits with
    | nil => simp [selectTrue]
    | cons b bs => cases b <;> simp [selectTrue, ih]

theorem selectTrue_append {α : Type} (a c : List α) (b d : List Bool) (h : a.length = b.length) :
    selectTrue (a ++ c) (b ++ d) = selectTrue a b ++ selectTrue c d := by
  induction a generalizing b with
  | nil =>
    have : b = [] := by cases b <;> simp_all
    subst this; simp [selectTrue]
  | cons v vs ih =>
    cases b with
    | nil => simp at h
    | cons x xs =>
      have := ih xs (by simpa using h)
      cases x <;> simp [selectTrue, this]

theorem pySlice_snoc {α : Type} (epre : List α) (x : α) (ebs : List α) (start : Nat)
    (h : start ≤ epre.length) :
    pySlice (epre ++ x :: ebs) start (epre.length + 1) =
      pySlice (epre ++ x :: ebs) start epre.length ++ [x] := by
  unfold pySlice
  have h1 : (epre ++ x :: ebs).take (epre.length + 1) = epre ++ [x] := by
    rw [List.take_append, List.take_of_length_le (by omega)]; simp
  have h2 : (epre ++ x :: ebs).take epre.length = epre := by simp
  rw [h1, h2, List.drop_append_of_le_length h]

theorem slicelistLoop_flat {α : Type} (els epre ebs : List α) (hels : els = epre ++ ebs)
    (bpre bs : List Bool) (hlp : epre.length = bpre.length) (hlen : ebs.length = bs.length)
    (started e : Bool) (start : Nat) (acc : List (Nat × Nat)) (he : e = started)
    (hs : started = true → start ≤ bpre.length)
    (h : acc.flatMap (fun sc => pySlice els sc.1 sc.2) ++
        (if started then pySlice els start bpre.length else []) = selectTrue epre bpre) :
    (slicelistLoop bs bpre.length started start e acc).flatMap
      (fun sc => pySlice els sc.1 sc.2) = selectTrue els (bpre ++ bs) := by
  induction bs generalizing epre ebs bpre started start e acc with
  | nil =>
    have : ebs = [] := by cases ebs <;> simp_all
    subst this
    simp only [List.append_nil] at hels
    subst hels
    subst he
    simp only [slicelistLoop, List.append_nil]
    cases e <;> simpa using h
  | cons b bs ih =>
    cases ebs with
    | nil => simp at hlen
    | cons x ebs =>
      have hsel : selectTrue (epre ++ [x]) (bpre ++ [b]) =
          selectTrue epre bpre ++ (if b then [x] else []) := by
        rw [selectTrue_append _ _ _ _ hlp]
        cases b <;> simp [selectTrue]
      have hels' : els = (epre ++ [x]) ++ ebs := by simp [hels]
      have hb' : bpre ++ b :: bs = (bpre ++ [b]) ++ bs := by simp
      have hlen2 : (bpre ++ [b]).length = bpre.length + 1 := by simp
      have hsn : ∀ st, st ≤ bpre.length →
          pySlice els st (bpre.length + 1) = pySlice els st bpre.length ++ [x] := by
        intro st hst
        rw [hels, ← hlp]
        exact pySlice_snoc epre x ebs st (by omega)
      rw [hb']
      have IH := fun st' start' e' acc' => ih (epre ++ [x]) ebs hels' (bpre ++ [b])
        (by simp [hlp]) (by simpa using hlen) st' e' start' acc'
      rw [hlen2] at IH
      simp only [slicelistLoop]
      cases started <;> cases b <;>
        simp only [Bool.not_false, Bool.not_true, Bool.and_true, Bool.and_false,
          Bool.false_eq_true, if_false, if_true, Bool.and_self]
      · apply IH _ _ _ _ rfl (by simp)
        rw [hsel]; simpa using h
      · apply IH _ _ _ _ rfl (by intro _; omega)
        rw [hsel, hsn _ (Nat.le_refl _)]
        simp only [if_true]
        simp only [Bool.false_eq_true, if_false, List.append_nil] at h
        rw [h]
        simp [pySlice]
      · apply IH _ _ _ _ rfl (by simp)
        rw [hsel]
        simp only [if_true] at h
        simp [← h]
      · apply IH _ _ _ _ rfl (by intro _; have := hs rfl; omega)
        rw [hsel, hsn _ (hs rfl)]
        simp only [if_true] at h ⊢
        rw [← h]; simp

theorem slicelist_flat {α : Type} (els : List α) (bits : List Bool)
    (h : els.length = bits.length) :
    (slicelist bits).flatMap (fun sc => pySlice els sc.1 sc.2) = selectTrue els bits := by
  have := slicelistLoop_flat els [] els rfl [] bits rfl h false false 0 [] rfl (by simp)
    (by simp [selectTrue])
  simpa [slicelist] using this

end CP
