import Verif.Spec.Text
import Verif.Lemmas.ReadXl
/-!
# Lines, stripping and splitting
-/

namespace CP
open CP.Spec

/-! ### lines -/

theorem fileLines_free {l : List Char} (h : '\n' ∉ l) (hl : l ≠ []) : fileLines l = [l] := by
  induction l with
  | nil => exact absurd rfl hl
  | cons x xs ih =>
    simp only [List.mem_cons, not_or] at h
    rw [fileLines, if_neg (Ne.symm h.1)]
    cases xs with
    | nil => rfl
    | cons y ys => rw [ih h.2 (by simp)]

theorem fileLines_cons {l : List Char} (h : '\n' ∉ l) (t : List Char) :
    fileLines (l ++ '\n' :: t) = (l ++ ['\n']) :: fileLines t := by
  induction l with
  | nil => simp [fileLines]
  | cons x xs ih =>
    simp only [List.mem_cons, not_or] at h
    rw [List.cons_append, fileLines, if_neg (Ne.symm h.1), ih h.2]
    rfl

theorem fileLines_linesOf {t : List Char} {ls : List (List Char)} (h : LinesOf t ls) :
    fileLines t = ls := by
  induction h with
  | nil => rfl
  | last h1 h2 => exact fileLines_free h2 h1
  | cons h1 _ ih => rw [fileLines_cons h1, ih]

theorem linesOf_flatten {t : List Char} {ls : List (List Char)} (h : LinesOf t ls) :
    ls.flatten = t := by
  induction h with
  | nil => rfl
  | last h1 h2 => simp
  | cons h1 _ ih => simp [ih]

theorem linesOf_tail {t l : List Char} {ls : List (List Char)} (h : LinesOf t (l :: ls)) :
    LinesOf (t.drop l.length) ls := by
  cases h with
  | last h1 h2 => simpa using LinesOf.nil
  | cons h1 h2 =>
    rename_i l t
    have : (l ++ '\n' :: t).drop (l ++ ['\n']).length = t := by
      rw [show l ++ '\n' :: t = (l ++ ['\n']) ++ t by simp]
      exact List.drop_left
    rw [this]
    exact h2

theorem readline_linesOf {f : TFile} {l : List Char} {ls : List (List Char)}
    (h : LinesOf (f.chars.drop f.pos) (l :: ls)) :
    f.readline = (l, { f with pos := f.pos + l.length }) := by
  unfold TFile.readline
  rw [fileLines_linesOf h]
  rfl

theorem skip_linesOf {ss ls : List (List Char)} {f : TFile}
    (h : LinesOf (f.chars.drop f.pos) (ss ++ ls)) :
    ∃ p, f.skip ss.length = { f with pos := p } ∧ LinesOf (f.chars.drop p) ls := by
  induction ss generalizing f with
  | nil => exact ⟨f.pos, rfl, h⟩
  | cons s ss ih =>
    have h1 := readline_linesOf h
    have h2 := linesOf_tail h
    rw [List.drop_drop] at h2
    obtain ⟨p, hp, hl⟩ := ih (f := { f with pos := f.pos + s.length }) h2
    refine ⟨p, ?_, hl⟩
    rw [List.length_cons, TFile.skip, h1]
    exact hp

/-! ### stripping -/

theorem stripBy_pad {p : Char → Bool} {a t b : List Char} (ha : ∀ c ∈ a, p c = true)
    (hb : ∀ c ∈ b, p c = true) (h1 : ∀ c, t.head? = some c → p c = false)
    (h2 : ∀ c, t.getLast? = some c → p c = false) : stripBy p (a ++ t ++ b) = t := by
  unfold stripBy
  by_cases ht : t = []
  · subst ht
    simp only [List.append_nil]
    have : (a ++ b).dropWhile p = [] := by
      have := dropWhile_all (t := []) (s := a ++ b) (p := p) (by
        intro x hx
        rcases List.mem_append.1 hx with h | h
        · exact ha x h
        · exact hb x h)
      simpa using this
    rw [this]; rfl
  · rw [List.append_assoc, dropWhile_all ha]
    have h3 : (t ++ b).dropWhile p = t ++ b := by
      apply dropWhile_head
      intro c hc
      apply h1 c
      cases t with
      | nil => exact absurd rfl ht
      | cons x xs => simpa using hc
    rw [h3, List.reverse_append, dropWhile_all (by simpa using hb)]
    rw [dropWhile_head (by intro c hc; apply h2 c; simpa [List.head?_reverse] using hc)]
    simp

theorem dropWhile_prefix (p : Char → Bool) (s : List Char) :
    ∃ a, s = a ++ s.dropWhile p ∧ ∀ c ∈ a, p c = true :=
  ⟨s.takeWhile p, List.takeWhile_append_dropWhile.symm, fun c hc => by
    have := List.all_takeWhile (p := p) (l := s)
    rw [List.all_eq_true] at this
    exact this c hc⟩

theorem dropWhile_head_false {p : Char → Bool} {s : List Char} :
    ∀ c, (s.dropWhile p).head? = some c → p c = false := by
  intro c hc
  have := List.head?_dropWhile_not p s
  rw [hc] at this
  simpa using this

/-- What stripping does. -/
theorem stripBy_spec (p : Char → Bool) (s : List Char) :
    ∃ a b, s = a ++ stripBy p s ++ b ∧ (∀ c ∈ a, p c = true) ∧ (∀ c ∈ b, p c = true) ∧
      (∀ c, (stripBy p s).head? = some c → p c = false) ∧
      (∀ c, (stripBy p s).getLast? = some c → p c = false) := by
  obtain ⟨a, ha, hpa⟩ := dropWhile_prefix p s
  obtain ⟨b, hb, hpb⟩ := dropWhile_prefix p (s.dropWhile p).reverse
  have hb' : s.dropWhile p = stripBy p s ++ b.reverse := by
    have := congrArg List.reverse hb
    rw [List.reverse_append, List.reverse_reverse] at this
    exact this
  refine ⟨a, b.reverse, ?_, hpa, by simpa using hpb, ?_, ?_⟩
  · rw [List.append_assoc, ← hb']; exact ha
  · intro c hc
    apply dropWhile_head_false (p := p) (s := s) c
    rw [hb']
    cases h : stripBy p s with
    | nil => rw [h] at hc; simp at hc
    | cons x xs => rw [h] at hc; simpa using hc
  · intro c hc
    apply dropWhile_head_false (p := p) (s := (s.dropWhile p).reverse) c
    unfold stripBy at hc
    rwa [List.getLast?_reverse] at hc

theorem stripBy_all {p : Char → Bool} {s : List Char} (h : ∀ c ∈ s, p c = true) : stripBy p s = [] := by
  have := stripBy_pad (p := p) (a := s) (t := []) (b := []) h (by simp) (by simp) (by simp)
  simpa using this

theorem trimmed_iff {p : Char → Bool} {s t : List Char} :
    Trimmed (fun c => p c = true) s t ↔ t = stripBy p s := by
  constructor
  · rintro ⟨a, b, rfl, ha, hb, h1, h2⟩
    exact (stripBy_pad ha hb (fun c hc => by simpa using h1 c hc) (fun c hc => by simpa using h2 c hc)).symm
  · rintro rfl
    obtain ⟨a, b, h1, h2, h3, h4, h5⟩ := stripBy_spec p s
    exact ⟨a, b, h1, h2, h3, fun c hc => by simp [h4 c hc], fun c hc => by simp [h5 c hc]⟩

/-! ### splitting at a delimiter -/

theorem splitStrFrom_skip (d : List Char) (k : Nat) (s : List Char) :
    splitStrFrom d k s = splitStrFrom d 0 (s.drop k) := by
  induction k generalizing s with
  | zero => rfl
  | succ k ih =>
    cases s with
    | nil => simp [splitStrFrom]
    | cons x xs => rw [splitStrFrom, ih]; rfl

theorem splitStr_nil (d : List Char) : splitStr d [] = [[]] := by simp [splitStr, splitStrFrom]

theorem splitStr_cons (d : List Char) (x : Char) (xs : List Char) :
    splitStr d (x :: xs) =
      if d.isPrefixOf (x :: xs) then [] :: splitStr d (xs.drop (d.length - 1))
      else match splitStr d xs with
        | [] => [[x]]
        | p :: ps => (x :: p) :: ps := by
  show splitStrFrom d 0 (x :: xs) = _
  rw [splitStrFrom, splitStrFrom_skip]
  rfl

theorem splitStr_ne_nil (d s : List Char) : splitStr d s ≠ [] := by
  cases s with
  | nil => simp [splitStr_nil]
  | cons x xs =>
    rw [splitStr_cons]
    split
    · simp
    · split <;> simp

theorem noDelim_tail {d f : List Char} {x : Char} (h : NoDelim d (x :: f)) : NoDelim d f := by
  intro u v huv
  exact h (x :: u) v (by simp [huv])

/-- A field that ends the text: no delimiter in it. -/
theorem splitStr_last {d f : List Char} (hd : d ≠ []) (h : NoDelim d f) : splitStr d f = [f] := by
  induction f with
  | nil => simp [splitStr_nil]
  | cons x f ih =>
    rw [splitStr_cons, if_neg, ih (noDelim_tail h)]
    intro hp
    rw [List.isPrefixOf_iff_prefix] at hp
    obtain ⟨v, hv⟩ := hp
    have := h [] (v ++ d) (by rw [← hv]; simp)
    simp [hd] at this

theorem splitStr_free {d s : List Char} (h : ¬ d <:+: s) : splitStr d s = [s] := by
  induction s with
  | nil => simp [splitStr_nil]
  | cons x s ih =>
    rw [splitStr_cons, if_neg, ih]
    · rintro ⟨a, b, hab⟩
      exact h ⟨x :: a, b, by simp [← hab]⟩
    · intro hp
      rw [List.isPrefixOf_iff_prefix] at hp
      obtain ⟨v, hv⟩ := hp
      exact h ⟨[], v, by simpa using hv⟩

theorem splitStr_field {d f t : List Char} (hd : d ≠ []) (h : NoDelim d f) :
    splitStr d (f ++ d ++ t) = f :: splitStr d t := by
  induction f with
  | nil =>
    cases d with
    | nil => exact absurd rfl hd
    | cons y ys =>
      rw [List.nil_append, List.cons_append, splitStr_cons, if_pos (by simp [List.isPrefixOf_iff_prefix])]
      simp
  | cons x f ih =>
    rw [List.cons_append, List.cons_append, splitStr_cons, if_neg, ih (noDelim_tail h)]
    intro hp
    rw [List.isPrefixOf_iff_prefix] at hp
    obtain ⟨v, hv⟩ := hp
    -- d is a prefix of x :: f ++ d ++ t, hence of x :: f ++ d
    have hle : d.length ≤ (x :: f ++ d).length := by simp; omega
    have hpre : d <+: x :: f ++ d :=
      List.prefix_of_prefix_length_le (l₃ := x :: (f ++ d ++ t)) ⟨v, hv⟩ ⟨t, by simp⟩ hle
    obtain ⟨w, hw⟩ := hpre
    have hw0 := h [] w (by rw [← hw]; rfl)
    subst hw0
    have := congrArg List.length hw
    simp at this
    omega

theorem splitStr_joined {d : List Char} (hd : d ≠ []) {fs : List (List Char)} (hne : fs ≠ [])
    (h : ∀ f ∈ fs, NoDelim d f) : splitStr d (joined d fs) = fs := by
  induction fs with
  | nil => exact absurd rfl hne
  | cons f fs ih =>
    cases fs with
    | nil => simpa [joined] using splitStr_last hd (h f (by simp))
    | cons g gs =>
      have e : joined d (f :: g :: gs) = f ++ d ++ joined d (g :: gs) := by simp [joined]
      rw [e, splitStr_field hd (h f (by simp)), ih (by simp) (fun f hf => h f (by simp [hf]))]

theorem splitWs_word {ws : Char → Bool} {x : Char} (hx : ¬ ws x = true) (xs : List Char) :
    splitWs ws (x :: xs) =
      (x :: xs.takeWhile (fun c => !ws c)) :: splitWs ws (xs.dropWhile (fun c => !ws c)) := by
  induction xs generalizing x with
  | nil => simp [splitWs, hx]
  | cons y ys ih =>
    rw [splitWs, if_neg hx]
    by_cases hy : ws y = true
    · simp [hy]
    · rw [if_neg (by simpa using hy), ih hy]
      simp [hy]

theorem splitWs_words {ws : Char → Bool} {fs : List (List Char)} {s : List Char}
    (h : Words (fun c => ws c = true) fs s) : splitWs ws s = fs := by
  have hall : ∀ w : List Char, (∀ c ∈ w, ws c = true) → ∀ t, splitWs ws (w ++ t) = splitWs ws t := by
    intro w hw t
    induction w with
    | nil => rfl
    | cons x xs ih =>
      rw [List.cons_append, splitWs, if_pos (hw x (by simp)), ih (fun c hc => hw c (by simp [hc]))]
  induction h with
  | nil hw =>
    have := hall _ hw []
    simpa [splitWs] using this
  | @cons w f fs rest hw hf hfw hr _ ih =>
    rw [List.append_assoc, hall w hw]
    cases f with
    | nil => exact absurd rfl hf
    | cons x xs =>
      rw [List.cons_append, splitWs_word (hfw x (by simp))]
      have hp : ∀ c ∈ xs, (!ws c) = true := by
        intro c hc; have := hfw c (by simp [hc]); simpa using this
      have ht : (xs ++ rest).takeWhile (fun c => !ws c) = xs := by
        rw [List.takeWhile_append_of_pos hp]
        have : rest.takeWhile (fun c => !ws c) = [] := by
          cases rest with
          | nil => rfl
          | cons y ys => rw [List.takeWhile_cons, if_neg (by simp [hr y rfl])]
        simp [this]
      have hdr : (xs ++ rest).dropWhile (fun c => !ws c) = rest := by
        rw [List.dropWhile_append_of_pos hp]
        cases rest with
        | nil => rfl
        | cons y ys => rw [List.dropWhile_cons, if_neg (by simp [hr y rfl])]
      rw [ht, hdr, ih]

/-! ### the characters to strip -/

theorem joinStr_nil_flatten (l : List (List Char)) : joinStr [] l = l.flatten := by
  induction l with
  | nil => rfl
  | cons p ps ih =>
    cases ps with
    | nil => simp [joinStr]
    | cons q qs => rw [joinStr, ih]; simp

theorem mem_stripchars_some {d : List Char} (hd : d ≠ []) {c : Char} :
    c ∈ stripchars (some d) ↔ Pad (some d) c := by
  have e : stripchars (some d) = (splitStr d whites).flatten := by
    cases d with
    | nil => exact absurd rfl hd
    | cons x xs => exact joinStr_nil_flatten _
  rw [e]
  unfold Pad
  by_cases hi : d <:+: whites
  · obtain ⟨u, v, huv⟩ := hi
    have hn : (u ++ d ++ v).Nodup := by rw [huv]; decide
    have hu : NoDelim d u := by
      intro a b hab
      obtain ⟨x, ds, rfl⟩ : ∃ x ds, d = x :: ds := by
        cases d with
        | nil => exact absurd rfl hd
        | cons x ds => exact ⟨x, ds, rfl⟩
      have hn' : (u ++ x :: ds).Nodup := (List.nodup_append.1 hn).1
      have h1 : (u ++ x :: ds)[u.length]? = some x := by simp
      have h2 : (u ++ x :: ds)[a.length]? = some x := by rw [hab]; simp
      have hlt : u.length < (u ++ x :: ds).length := by simp
      have := (List.getElem?_inj hlt hn' ).1 (h1.trans h2.symm)
      have hl := congrArg List.length hab
      simp only [List.length_append, List.length_cons] at hl
      exact List.eq_nil_of_length_eq_zero (by omega)
    have hv : ¬ d <:+: v := by
      rintro ⟨a, b, hab⟩
      cases d with
      | nil => exact hd rfl
      | cons x ds =>
        have : x ∈ v := by rw [← hab]; simp
        exact (List.nodup_append.1 hn).2.2 x (by simp) x this rfl
    rw [← huv, splitStr_field hd hu, splitStr_free hv]
    have hn2 := List.nodup_append.1 hn
    have hn3 := List.nodup_append.1 hn2.1
    constructor
    · intro hc
      simp only [List.flatten_cons, List.flatten_nil, List.append_nil, List.mem_append] at hc
      refine ⟨by rcases hc with h | h <;> simp [h], fun _ hcd => ?_⟩
      rcases hc with h | h
      · exact hn3.2.2 c h c hcd rfl
      · exact hn2.2.2 c (by simp [hcd]) c h rfl
    · rintro ⟨h1, h2⟩
      have := h2 ⟨u, v, rfl⟩
      simp only [List.mem_append] at h1
      simp only [List.flatten_cons, List.flatten_nil, List.append_nil, List.mem_append]
      rcases h1 with (h | h) | h
      · exact .inl h
      · exact absurd h this
      · exact .inr h
  · rw [splitStr_free hi]
    simp [hi]

theorem mem_stripchars_none {c : Char} : c ∈ stripchars none ↔ Pad none c := by
  have : stripchars none = [' ', '\n', '\r', '\x0b', '\x0c'] := by decide +kernel
  rw [this]
  unfold Pad whites
  constructor
  · intro h
    refine ⟨by simp at h ⊢; grind, ?_⟩
    rintro rfl
    simp at h
  · rintro ⟨h1, h2⟩
    simp at h1 h2 ⊢
    grind

end CP
