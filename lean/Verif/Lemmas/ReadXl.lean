import Verif.Model.ReadXl
import Verif.Lemmas.Lookup
/-!
# Lemmas about column letters, splitting and stripping
-/

namespace CP
open Spec

/-- What `str.upper()` does to ASCII letters. -/
structure AsciiUpper (up : Upper) : Prop where
  upper : ∀ c : Char, 65 ≤ c.toNat → c.toNat ≤ 90 → up c = [c]
  lower : ∀ c : Char, 97 ≤ c.toNat → c.toNat ≤ 122 → up c = [Char.ofNat (c.toNat - 32)]

/-- An upper-case ASCII letter. -/
def UpperLetter (c : Char) : Prop := 65 ≤ c.toNat ∧ c.toNat ≤ 90

/-- A column name: letters A-Z, at least one. -/
def ColName (s : List Char) : Prop := s ≠ [] ∧ ∀ c ∈ s, UpperLetter c

/-- The value of letters as a number with digits A=1 .. Z=26. -/
def letterValue : List Char → Nat
  | [] => 0
  | c :: cs => (c.toNat - 64) * 26 ^ cs.length + letterValue cs

theorem flatMap_upper {up : Upper} (hup : AsciiUpper up) {s : List Char}
    (h : ∀ c ∈ s, UpperLetter c) : s.flatMap up = s := by
  induction s with
  | nil => rfl
  | cons c cs ih =>
    have h1 := h c (by simp)
    rw [List.flatMap_cons, hup.upper c h1.1 h1.2, ih (fun x hx => h x (by simp [hx]))]
    rfl

theorem letterLoop_eq {s : List Char} (h : ∀ c ∈ s, UpperLetter c) (res : Nat) :
    letterLoop res s = .ok (res + letterValue s) := by
  induction s generalizing res with
  | nil => rfl
  | cons c cs ih =>
    have h1 := h c (by simp)
    unfold letterLoop
    rw [if_pos (show _ ∧ _ from h1), ih (fun x hx => h x (by simp [hx]))]
    simp [letterValue, Nat.add_assoc]

theorem letter2num_eq {up : Upper} (hup : AsciiUpper up) {s : List Char} (h : ColName s) :
    letter2num up s = .ok (letterValue s - 1) := by
  unfold letter2num
  simp only
  rw [flatMap_upper hup h.2, if_neg (by have := h.1; simpa using this), letterLoop_eq h.2]
  simp

theorem letterValue_snoc (s : List Char) (c : Char) :
    letterValue (s ++ [c]) = 26 * letterValue s + (c.toNat - 64) := by
  induction s with
  | nil => simp [letterValue]
  | cons x xs ih =>
    simp only [List.cons_append, letterValue, ih, List.length_append, List.length_cons,
      List.length_nil, Nat.pow_succ, Nat.mul_add]
    have : (x.toNat - 64) * (26 ^ xs.length * 26) = 26 * ((x.toNat - 64) * 26 ^ xs.length) := by
      rw [← Nat.mul_assoc, Nat.mul_comm]
    rw [this]
    omega

theorem letterValue_pos {s : List Char} (h : ColName s) : 1 ≤ letterValue s := by
  obtain ⟨hne, h⟩ := h
  cases s with
  | nil => exact absurd rfl hne
  | cons c cs =>
    have h1 := h c (by simp)
    unfold letterValue
    have : 1 ≤ (c.toNat - 64) * 26 ^ cs.length :=
      Nat.mul_pos (by have := h1.1; omega) (Nat.pow_pos (by omega))
    omega

theorem ofNat_toNat {n : Nat} (h : n < 128) : (Char.ofNat n).toNat = n := by
  have hv : n.isValidChar := Or.inl (by omega)
  unfold Char.ofNat
  rw [dif_pos hv]
  rfl

theorem ofNat_upper {n : Nat} (h : n < 26) : UpperLetter (Char.ofNat (65 + n)) := by
  unfold UpperLetter
  rw [ofNat_toNat (by omega)]; omega

theorem colname_spec (n : Nat) : ColName (colname n) ∧ letterValue (colname n) = n + 1 := by
  induction n using Nat.strongRecOn with
  | _ n ih =>
    unfold colname
    simp only
    have hu : UpperLetter (Char.ofNat (65 + n % 26)) := ofNat_upper (by omega)
    split
    · rename_i h
      refine ⟨⟨by simp, ?_⟩, ?_⟩
      · intro c hc
        simp only [List.mem_singleton] at hc
        subst hc; exact hu
      · simp [letterValue, ofNat_toNat (show 65 + n % 26 < 128 by omega)]; omega
    · rename_i h
      obtain ⟨h1, h2⟩ := ih (n / 26 - 1) (by omega)
      refine ⟨⟨by simp, ?_⟩, ?_⟩
      · intro c hc
        rcases List.mem_append.1 hc with h3 | h3
        · exact h1.2 c h3
        · simp only [List.mem_singleton] at h3
          subst h3; exact hu
      · rw [letterValue_snoc, h2, ofNat_toNat (show 65 + n % 26 < 128 by omega)]
        omega

theorem ofNat_self {c : Char} : Char.ofNat c.toNat = c := Char.ofNat_toNat c

theorem colname_letterValue {s : List Char} (h : ColName s) : colname (letterValue s - 1) = s := by
  suffices H : ∀ r : List Char, ColName r.reverse → colname (letterValue r.reverse - 1) = r.reverse by
    have := H s.reverse (by simpa using h)
    simpa using this
  intro r
  induction r with
  | nil => intro h; exact absurd rfl h.1
  | cons c r ih =>
    intro h
    rw [List.reverse_cons] at h ⊢
    have hc := h.2 c (by simp)
    obtain ⟨hc1, hc2⟩ := hc
    rw [letterValue_snoc]
    by_cases hr : r = []
    · subst hr
      unfold colname
      simp only [List.reverse_nil, letterValue, Nat.mul_zero, Nat.zero_add]
      rw [dif_pos (by omega)]
      have : 65 + (c.toNat - 64 - 1) % 26 = c.toNat := by omega
      rw [this, ofNat_self]; rfl
    · have hr' : ColName r.reverse := by
        refine ⟨by simpa using hr, ?_⟩
        intro x hx; exact h.2 x (by simp at hx ⊢; exact Or.inl hx)
      have hp := letterValue_pos hr'
      have hi := ih hr'
      unfold colname
      simp only
      have e1 : (26 * letterValue r.reverse + (c.toNat - 64) - 1) / 26 = letterValue r.reverse := by
        omega
      have e2 : 65 + (26 * letterValue r.reverse + (c.toNat - 64) - 1) % 26 = c.toNat := by omega
      rw [e1, e2, dif_neg (by omega), hi, ofNat_self]

theorem letterValue_bounds {s : List Char} (h : ∀ c ∈ s, UpperLetter c) :
    25 * letterValue s + 26 ≤ 26 * 26 ^ s.length ∧ 26 ^ s.length ≤ 25 * letterValue s + 1 := by
  induction s with
  | nil => simp [letterValue]
  | cons c cs ih =>
    obtain ⟨h1, h2⟩ := ih (fun x hx => h x (by simp [hx]))
    obtain ⟨h3, h4⟩ := h c (by simp)
    simp only [letterValue, List.length_cons, Nat.pow_succ]
    generalize 26 ^ cs.length = P at *
    obtain ⟨k, hk⟩ : ∃ k, c.toNat - 64 = k := ⟨_, rfl⟩
    rw [hk]
    have hk1 : 1 * P ≤ k * P := Nat.mul_le_mul_right P (by omega)
    have hk2 : k * P ≤ 26 * P := Nat.mul_le_mul_right P (by omega)
    omega

/-! ### splitting and stripping -/

theorem splitChar_ne_nil (c : Char) (s : List Char) : splitChar c s ≠ [] := by
  induction s with
  | nil => simp [splitChar]
  | cons x xs ih =>
    unfold splitChar
    split
    · simp
    · split <;> simp

theorem splitChar_free {c : Char} {s : List Char} (h : c ∉ s) : splitChar c s = [s] := by
  induction s with
  | nil => rfl
  | cons x xs ih =>
    simp only [List.mem_cons, not_or] at h
    unfold splitChar
    rw [if_neg (Ne.symm h.1), ih h.2]

theorem splitChar_append {c : Char} {s : List Char} (h : c ∉ s) (t : List Char) :
    splitChar c (s ++ c :: t) = s :: splitChar c t := by
  induction s with
  | nil => simp [splitChar]
  | cons x xs ih =>
    simp only [List.mem_cons, not_or] at h
    rw [List.cons_append, splitChar, if_neg (Ne.symm h.1), ih h.2]

/-- `sep.join(parts)` for a one-character separator. -/
def joinChar (c : Char) : List (List Char) → List Char
  | [] => []
  | [p] => p
  | p :: ps => p ++ c :: joinChar c ps

theorem splitChar_join {c : Char} {ps : List (List Char)} (hne : ps ≠ []) (h : ∀ p ∈ ps, c ∉ p) :
    splitChar c (joinChar c ps) = ps := by
  induction ps with
  | nil => exact absurd rfl hne
  | cons p ps ih =>
    cases ps with
    | nil => exact splitChar_free (h p (by simp))
    | cons q qs =>
      show splitChar c (p ++ c :: joinChar c (q :: qs)) = _
      rw [splitChar_append (h p (by simp)), ih (by simp) (fun x hx => h x (by simp [hx]))]

theorem join_splitChar (c : Char) (s : List Char) : joinChar c (splitChar c s) = s := by
  induction s with
  | nil => rfl
  | cons x xs ih =>
    unfold splitChar
    split
    · rename_i h
      subst h
      cases hs : splitChar x xs with
      | nil => exact absurd hs (splitChar_ne_nil _ _)
      | cons p ps =>
        rw [hs] at ih
        show [] ++ x :: joinChar x (p :: ps) = _
        rw [ih]; rfl
    · cases hs : splitChar c xs with
      | nil => exact absurd hs (splitChar_ne_nil _ _)
      | cons p ps =>
        rw [hs] at ih
        cases ps with
        | nil => simp only [joinChar] at ih ⊢; rw [ih]
        | cons q qs =>
          simp only [joinChar, List.cons_append] at ih ⊢
          rw [ih]

theorem splitChar_not_mem {c : Char} {s : List Char} : ∀ p ∈ splitChar c s, c ∉ p := by
  induction s with
  | nil => simp [splitChar]
  | cons x xs ih =>
    unfold splitChar
    split
    · intro p hp
      rcases List.mem_cons.1 hp with h | h
      · subst h; simp
      · exact ih p h
    · rename_i hx
      split
      · intro p hp; simp only [List.mem_singleton] at hp; subst hp
        simp; exact Ne.symm hx
      · rename_i q qs hq
        intro p hp
        rw [hq] at ih
        rcases List.mem_cons.1 hp with h | h
        · subst h
          simp only [List.mem_cons, not_or]
          exact ⟨Ne.symm hx, ih q (by simp)⟩
        · exact ih p (by simp [h])

/-- All whitespace. -/
def AllSpace (s : List Char) : Prop := ∀ c ∈ s, pySpace c = true

theorem dropWhile_all {p : Char → Bool} {s t : List Char} (h : ∀ c ∈ s, p c = true) :
    (s ++ t).dropWhile p = t.dropWhile p := by
  induction s with
  | nil => rfl
  | cons x xs ih =>
    rw [List.cons_append, List.dropWhile_cons, if_pos (h x (by simp))]
    exact ih (fun c hc => h c (by simp [hc]))

theorem dropWhile_head {p : Char → Bool} {t : List Char} (h : ∀ c, t.head? = some c → p c = false) :
    t.dropWhile p = t := by
  cases t with
  | nil => rfl
  | cons x xs => rw [List.dropWhile_cons, if_neg (by simp [h x rfl])]

/-- Stripping takes whitespace off a text that neither begins nor ends with it. -/
theorem strip_pad {a t b : List Char} (ha : AllSpace a) (hb : AllSpace b)
    (h1 : ∀ c, t.head? = some c → pySpace c = false)
    (h2 : ∀ c, t.getLast? = some c → pySpace c = false) : strip (a ++ t ++ b) = t := by
  unfold strip lstrip rstrip
  by_cases ht : t = []
  · subst ht
    simp only [List.append_nil]
    have : (a ++ b).dropWhile pySpace = [] := by
      have := dropWhile_all (t := []) (s := a ++ b) (p := pySpace) (by
        intro x hx
        rcases List.mem_append.1 hx with h | h
        · exact ha x h
        · exact hb x h)
      simpa using this
    rw [this]; rfl
  · rw [List.append_assoc, dropWhile_all ha]
    have h3 : (t ++ b).dropWhile pySpace = t ++ b := by
      apply dropWhile_head
      intro c hc
      apply h1 c
      cases t with
      | nil => exact absurd rfl ht
      | cons x xs => simpa using hc
    rw [h3, List.reverse_append, dropWhile_all (fun c hc => hb c (by simpa using hc))]
    have h4 : t.reverse.dropWhile pySpace = t.reverse := by
      apply dropWhile_head
      intro c hc
      apply h2 c
      simpa using hc
    rw [h4, List.reverse_reverse]

theorem takeWhile_all {p : Char → Bool} {s t : List Char} (h : ∀ c ∈ s, p c = true)
    (ht : ∀ c, t.head? = some c → p c = false) :
    (s ++ t).takeWhile p = s ∧ (s ++ t).dropWhile p = t := by
  constructor
  · induction s with
    | nil =>
      cases t with
      | nil => rfl
      | cons x xs => simp [ht x rfl]
    | cons x xs ih =>
      rw [List.cons_append, List.takeWhile_cons, if_pos (h x (by simp)),
        ih (fun c hc => h c (by simp [hc]))]
  · rw [dropWhile_all h, dropWhile_head ht]

/-! ### mapE -/

theorem mapE_ok_iff {α β : Type} {f : α → Except Exc β} {l : List α} {r : List β} :
    mapE f l = .ok r ↔ r.length = l.length ∧ ∀ i : Nat, ∀ a, l[i]? = some a →
      ∃ b, r[i]? = some b ∧ f a = .ok b := by
  induction l generalizing r with
  | nil =>
    simp only [mapE, Except.ok.injEq, List.length_nil, List.length_eq_zero_iff]
    constructor
    · intro h; subst h; simp
    · intro h; exact h.1.symm
  | cons x xs ih =>
    unfold mapE
    cases hx : f x with
    | error e =>
      simp only [reduceCtorEq, false_iff]
      rintro ⟨_, h⟩
      obtain ⟨b, _, hb⟩ := h 0 x rfl
      rw [hx] at hb; simp at hb
    | ok y =>
      simp only
      cases hxs : mapE f xs with
      | error e =>
        simp only [reduceCtorEq, false_iff]
        rintro ⟨hl, h⟩
        cases r with
        | nil => simp at hl
        | cons b bs =>
          have : mapE f xs = .ok bs := ih.2 ⟨by simpa using hl, fun i a ha => by
            have := h (i + 1) a (by simpa using ha)
            simpa using this⟩
          rw [hxs] at this; simp at this
      | ok ys =>
        have hys := ih.1 hxs
        simp only [Except.ok.injEq]
        constructor
        · intro h
          subst h
          refine ⟨by simp [hys.1], ?_⟩
          intro i a ha
          cases i with
          | zero => simp at ha; subst ha; exact ⟨y, by simp, hx⟩
          | succ i => simp at ha ⊢; exact hys.2 i a ha
        · rintro ⟨hl, h⟩
          cases r with
          | nil => simp at hl
          | cons b bs =>
            obtain ⟨b', hb', hfx⟩ := h 0 x rfl
            rw [hx] at hfx
            simp at hfx hb'
            have : mapE f xs = .ok bs := ih.2 ⟨by simpa using hl, fun i a ha => by
              have := h (i + 1) a (by simpa using ha)
              simpa using this⟩
            rw [hxs] at this
            simp at this
            rw [this, hfx, hb']

theorem mapE_total {α β : Type} {f : α → Except Exc β} {l : List α}
    (h : ∀ a ∈ l, ∃ b, f a = .ok b) : ∃ r, mapE f l = .ok r := by
  induction l with
  | nil => exact ⟨[], rfl⟩
  | cons x xs ih =>
    obtain ⟨y, hy⟩ := h x (by simp)
    obtain ⟨ys, hys⟩ := ih (fun a ha => h a (by simp [ha]))
    exact ⟨y :: ys, by simp [mapE, hy, hys]⟩

end CP
