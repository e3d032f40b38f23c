import Verif.Props.FileNumber
import Verif.Spec.TextNumber
/-!
# Lemmas: `float(text)` and the texts that are numbers
-/

namespace CP
open Spec

theorem lowerAscii_eq (c : Char) : lowerAscii c = c.toLower := by
  by_cases h : 65 ≤ c.toNat ∧ c.toNat ≤ 90
  · have key : ∀ i : Fin 26, lowerAscii (Char.ofNat (65 + i.val)) = (Char.ofNat (65 + i.val)).toLower := by decide
    have := key ⟨c.toNat - 65, by omega⟩
    rw [show 65 + (⟨c.toNat - 65, by omega⟩ : Fin 26).val = c.toNat from by dsimp only; omega, Char.ofNat_toNat] at this
    exact this
  · unfold lowerAscii Char.toLower
    rw [if_neg h, dif_neg]
    intro h'
    exact h ⟨UInt32.le_iff_toNat_le.1 h'.1, UInt32.le_iff_toNat_le.1 h'.2⟩

theorem map_lower (w : List Char) : w.map lowerAscii = w.map Char.toLower :=
  List.map_congr_left fun c _ => lowerAscii_eq c

/-! ### Signs, exponents, decimals -/

theorem takeSign_form (s : List Char) : ∃ sg f, SignIs sg f ∧ s = sg ++ (takeSign s).2 ∧ (takeSign s).1 = decide (f = -1) := by
  unfold takeSign
  split
  · exact ⟨['-'], -1, .inr (.inr ⟨rfl, rfl⟩), rfl, rfl⟩
  · exact ⟨['+'], 1, .inr (.inl ⟨rfl, rfl⟩), rfl, rfl⟩
  · exact ⟨[], 1, .inl ⟨rfl, rfl⟩, rfl, rfl⟩

theorem all_digits {s : List Char} (h : s.all isDigitC = true) : IsDigits asciiDec s := fun c hc => by
  rw [asciiDec_isSome]; exact List.all_eq_true.1 h c hc

theorem parseExponent_form {s : List Char} {k : Int} (h : parseExponent s = some k) : ExponentIs asciiDec s k := by
  unfold parseExponent at h
  split at h
  · rw [← Option.some.inj h]; exact .inl ⟨rfl, rfl⟩
  · rename_i c t
    split at h
    · rename_i hc
      obtain ⟨sg, f, h1, h2, h3⟩ := takeSign_form t
      dsimp only at h
      split at h
      · rename_i hd
        obtain ⟨hd1, hd2⟩ := hd
        refine .inr ⟨c, sg, f, (takeSign t).2, hc, h1, hd1, all_digits hd2, by rw [← h2], ?_⟩
        rw [h3, natOfDigits_eq (all_digits hd2)] at h
        rw [← Option.some.inj h]
        rcases h1 with ⟨-, rfl⟩ | ⟨-, rfl⟩ | ⟨-, rfl⟩ <;> simp
      · simp at h
    · simp at h

theorem takeWhile_isDigits (s : List Char) : IsDigits asciiDec (s.takeWhile isDigitC) := fun c hc => by
  rw [asciiDec_isSome]
  induction s with
  | nil => simp at hc
  | cons x s ih =>
    rw [List.takeWhile_cons] at hc
    split at hc
    · rcases List.mem_cons.1 hc with rfl | hc
      · assumption
      · exact ih hc
    · simp at hc

theorem parseDecimal_form {s : List Char} {q : Rat} (h : parseDecimal s = some q) :
    ∃ a pt b ex k, IsDigits asciiDec a ∧ IsDigits asciiDec b ∧ a ++ b ≠ [] ∧ (pt = ['.'] ∨ (pt = [] ∧ b = [])) ∧
      ExponentIs asciiDec ex k ∧ s = a ++ pt ++ b ++ ex ∧
      q = (digitsValue asciiDec (a ++ b) : Rat) * 10 ^ (k - (b.length : Int)) := by
  unfold parseDecimal at h
  obtain ⟨pt, b, ex, h1, h2, h3, h4⟩ : ∃ pt b ex, takeFrac (s.dropWhile isDigitC) = (b, ex) ∧
      s.dropWhile isDigitC = pt ++ b ++ ex ∧ (pt = ['.'] ∨ (pt = [] ∧ b = [])) ∧ IsDigits asciiDec b := by
    generalize s.dropWhile isDigitC = r
    unfold takeFrac
    split
    · rename_i u
      exact ⟨['.'], _, _, rfl, by simp [List.takeWhile_append_dropWhile], .inl rfl, takeWhile_isDigits u⟩
    · exact ⟨[], [], r, rfl, by simp, .inr ⟨rfl, rfl⟩, by simp [IsDigits]⟩
  rw [h1] at h
  dsimp only at h
  split at h
  · simp at h
  · rename_i hne
    rw [Option.map_eq_some_iff] at h
    obtain ⟨k, hk, rfl⟩ := h
    have ha := takeWhile_isDigits s
    have hab : IsDigits asciiDec (s.takeWhile isDigitC ++ b) := fun c hc => (List.mem_append.1 hc).elim (ha c) (h4 c)
    refine ⟨s.takeWhile isDigitC, pt, b, ex, k, ha, h4, ?_, h3, parseExponent_form hk, ?_, ?_⟩
    · intro h0
      exact hne (by simpa using h0)
    · have := (List.takeWhile_append_dropWhile (p := isDigitC) (l := s)).symm
      rw [h2] at this
      simpa using this
    · rw [natOfDigits_eq hab]

/-! ### Underscores -/

/-- Underscores stand between digits; `before` tells whether a digit comes before the text. -/
def BetweenDigits (before : Bool) (s : List Char) : Prop := ∀ u v, s = u ++ '_' :: v →
  ((u.getLast?.map isDigitC).getD before) = true ∧ (v.head?.map isDigitC).getD false = true

theorem between_cons {b : Bool} {c : Char} {t : List Char} :
    BetweenDigits b (c :: t) ↔ (c = '_' → b = true ∧ (t.head?.map isDigitC).getD false = true) ∧ BetweenDigits (isDigitC c) t := by
  constructor
  · intro h
    refine ⟨fun hc => ?_, fun u v huv => ?_⟩
    · exact h [] t (by rw [hc]; rfl)
    · have := h (c :: u) v (by rw [huv]; rfl)
      refine ⟨?_, this.2⟩
      have h1 := this.1
      rw [List.getLast?_cons] at h1
      cases hu : u.getLast? with
      | none => rw [hu] at h1; simpa using h1
      | some d => rw [hu] at h1; simpa using h1
  · rintro ⟨h1, h2⟩ u v huv
    cases u with
    | nil =>
      simp only [List.nil_append, List.cons.injEq] at huv
      obtain ⟨rfl, rfl⟩ := huv
      exact h1 rfl
    | cons d u =>
      simp only [List.cons_append, List.cons.injEq] at huv
      obtain ⟨rfl, rfl⟩ := huv
      have := h2 u v rfl
      refine ⟨?_, this.2⟩
      have h3 := this.1
      rw [List.getLast?_cons]
      cases hu : u.getLast? with
      | none => rw [hu] at h3; simpa using h3
      | some d => rw [hu] at h3; simpa using h3

theorem dropUnderscores_iff {t r : List Char} {b : Bool} :
    dropUnderscores b t = some r ↔ r = t.filter (· ≠ '_') ∧ BetweenDigits b t := by
  induction t generalizing b r with
  | nil =>
    unfold dropUnderscores
    simp only [Option.some.injEq, List.filter_nil]
    exact ⟨fun h => ⟨h.symm, fun u v huv => by simp at huv⟩, fun h => h.1.symm⟩
  | cons c t ih =>
    rw [between_cons]
    by_cases hc : c = '_'
    · subst hc
      have e : List.filter (fun x => decide (x ≠ '_')) ('_' :: t) = t.filter (· ≠ '_') := by simp
      rw [e]
      cases t with
      | nil => unfold dropUnderscores; simp
      | cons d t =>
        have h0 : isDigitC '_' = false := by decide
        rw [h0]
        have hs : dropUnderscores b ('_' :: d :: t) = if (b && isDigitC d) = true then dropUnderscores false (d :: t) else none := by
          conv => lhs; unfold dropUnderscores
          rfl
        rw [hs]
        by_cases hb : (b && isDigitC d) = true
        · rw [if_pos hb, ih]
          simp only [Bool.and_eq_true] at hb
          constructor
          · rintro ⟨h1, h2⟩; exact ⟨h1, fun _ => ⟨hb.1, by simpa using hb.2⟩, h2⟩
          · rintro ⟨h1, -, h2⟩; exact ⟨h1, h2⟩
        · rw [if_neg hb]
          constructor
          · intro h; simp at h
          · rintro ⟨-, h1, -⟩
            have := h1 rfl
            simp only [List.head?_cons, Option.map_some, Option.getD_some] at this
            exact absurd (by simp [this.1, this.2]) hb
    · have hstep : dropUnderscores b (c :: t) = (dropUnderscores (isDigitC c) t).map (c :: ·) := by
        conv => lhs; unfold dropUnderscores
        split
        · rename_i heq; cases heq
        · rename_i heq; simp only [List.cons.injEq] at heq; exact absurd heq.1 hc
        · rename_i heq; simp only [List.cons.injEq] at heq
          obtain ⟨rfl, rfl⟩ := heq
          rfl
      have e : List.filter (fun x => decide (x ≠ '_')) (c :: t) = c :: t.filter (· ≠ '_') := by simp [hc]
      rw [hstep, Option.map_eq_some_iff, e]
      constructor
      · rintro ⟨r', h1, rfl⟩
        obtain ⟨h2, h3⟩ := ih.1 h1
        exact ⟨by rw [h2], fun h => absurd h hc, h3⟩
      · rintro ⟨rfl, -, h3⟩
        exact ⟨_, ih.2 ⟨rfl, h3⟩, rfl⟩

theorem unscored_between {s n : List Char} : Unscored asciiDec s n ↔ n = s.filter (· ≠ '_') ∧ BetweenDigits false s := by
  unfold Unscored BetweenDigits
  apply and_congr_right
  intro _
  constructor
  · intro h u v huv
    obtain ⟨⟨d, h1, h2⟩, e, h3, h4⟩ := h u v huv
    rw [h1, h3]
    rw [asciiDec_isSome] at h2 h4
    exact ⟨h2, h4⟩
  · intro h u v huv
    obtain ⟨h1, h2⟩ := h u v huv
    constructor
    · cases hu : u.getLast? with
      | none => rw [hu] at h1; simp at h1
      | some d => rw [hu] at h1; exact ⟨d, rfl, by rw [asciiDec_isSome]; simpa using h1⟩
    · cases hv : v.head? with
      | none => rw [hv] at h2; simp at h2
      | some e => rw [hv] at h2; exact ⟨e, rfl, by rw [asciiDec_isSome]; simpa using h2⟩

/-- A sign before it does not matter. -/
theorem between_sign {sg t : List Char} {f : Int} (h : SignIs sg f) : BetweenDigits false (sg ++ t) ↔ BetweenDigits false t := by
  rcases h with ⟨rfl, -⟩ | ⟨rfl, -⟩ | ⟨rfl, -⟩
  · rfl
  · show BetweenDigits false ('+' :: t) ↔ _
    rw [between_cons]
    simp [show isDigitC '+' = false by decide]
  · show BetweenDigits false ('-' :: t) ↔ _
    rw [between_cons]
    simp [show isDigitC '-' = false by decide]

theorem filter_sign {sg : List Char} {f : Int} (h : SignIs sg f) : sg.filter (· ≠ '_') = sg := by
  rcases h with ⟨rfl, -⟩ | ⟨rfl, -⟩ | ⟨rfl, -⟩ <;> rfl

/-! ### A text without whitespace around it -/

theorem floatOf_f64Val (w : Rat) : FloatOf w (f64Val w) := by
  unfold f64Val
  split
  · rename_i h; exact .over h
  · rename_i h; exact .nearest (f64_eq_iff.1 rfl) (Rat.not_le.1 h)

/-- A number does not begin with a letter. -/
theorem floatText_sign {sg : List Char} {f : Int} (h1 : SignIs sg f) {c : Char} {t r : List Char} {q : Rat}
    (hc : isDigitC c = true ∨ c = '.') (hu : dropUnderscores false (c :: t) = some r) (hq : parseDecimal r = some q) :
    floatText (sg ++ c :: t) = some (f64Val ((f : Rat) * q)) := by
  unfold floatText
  obtain ⟨s1, s2⟩ := takeSign_spec (t := c :: t) h1 (fun d hd' => by
    simp only [List.head?_cons, Option.some.injEq] at hd'
    subst hd'
    rcases hc with hc | rfl
    · have := digit_not_sign (c := c) (by rw [asciiDec_isSome]; exact hc)
      exact ⟨this.1, this.2.1⟩
    · decide)
  rw [s1]
  dsimp only
  have hl : lowerAscii c = c := by
    unfold lowerAscii
    rw [if_neg]
    rcases hc with hc | rfl
    · unfold isDigitC at hc
      simp only [Bool.and_eq_true, decide_eq_true_eq] at hc
      omega
    · decide
  have hw : ∀ (d : Char) (u : List Char), d = 'n' ∨ d = 'i' → (c :: t).map lowerAscii ≠ d :: u := by
    intro d u hd' e
    rw [List.map_cons, hl] at e
    have e1 : c = d := (List.cons.inj e).1
    subst e1
    rcases hd' with rfl | rfl <;> revert hc <;> decide
  rw [show "nan".toList = ['n', 'a', 'n'] from rfl, show "inf".toList = ['i', 'n', 'f'] from rfl,
    show "infinity".toList = 'i' :: "nfinity".toList from rfl,
    if_neg (hw 'n' _ (.inl rfl)), if_neg (fun e => e.elim (hw 'i' _ (.inr rfl)) (hw 'i' _ (.inr rfl))), hu]
  dsimp only
  rw [hq]
  rcases s2 with rfl | rfl
  · simp
  · simp only [decide_true, if_true, Option.map_some, Option.some.injEq]
    congr 1
    rw [show ((-1 : Int) : Rat) = -1 from rfl]; grind

theorem lower_sign {c : Char} : c = '-' ∨ c = '+' → c.toLower = c := by
  rintro (rfl | rfl) <;> decide

theorem word_head {w x : List Char} {d : Char} (h : w.map Char.toLower = d :: x) (hd : d ≠ '-' ∧ d ≠ '+') :
    ∀ c, w.head? = some c → c ≠ '-' ∧ c ≠ '+' := by
  intro c hc
  cases w with
  | nil => simp at hc
  | cons e w =>
    simp only [List.head?_cons, Option.some.injEq] at hc
    subst hc
    rw [List.map_cons, List.cons.injEq] at h
    constructor
    · intro h'; rw [lower_sign (.inl h')] at h; exact hd.1 (h.1 ▸ h')
    · intro h'; rw [lower_sign (.inr h')] at h; exact hd.2 (h.1 ▸ h')

theorem floatText_iff {s : List Char} {v : Val} : floatText s = some v ↔ WordIs asciiDec s v := by
  constructor
  · intro h
    obtain ⟨sg, f, h1, h2, h3⟩ := takeSign_form s
    unfold floatText at h
    dsimp only at h
    rw [map_lower, h3] at h
    generalize (takeSign s).2 = t at h h2
    subst h2
    split at h
    · rename_i hn
      rw [← Option.some.inj h]; exact .nan h1 hn
    · split at h
      · rename_i hi
        rw [← Option.some.inj h]; exact .inf h1 hi
      · split at h
        · simp at h
        · rename_i r hr
          rw [Option.map_eq_some_iff] at h
          obtain ⟨q, hq, rfl⟩ := h
          obtain ⟨hr1, hr2⟩ := dropUnderscores_iff.1 hr
          obtain ⟨a, pt, b, ex, k, p1, p2, p3, p4, p5, p6, p7⟩ := parseDecimal_form hq
          have e : (if decide (f = -1) = true then -q else q) = (f : Rat) * q := by
            rcases h1 with ⟨-, rfl⟩ | ⟨-, rfl⟩ | ⟨-, rfl⟩
            · simp
            · simp
            · rw [if_pos (by decide), show ((-1 : Int) : Rat) = -1 from rfl]; grind
          refine .number (n := sg ++ r) (unscored_between.2 ⟨?_, (between_sign h1).2 hr2⟩)
            ⟨sg, f, a, pt, b, ex, k, h1, p1, p2, p3, p4, p5, by rw [p6], rfl⟩ ?_
          · rw [List.filter_append, filter_sign h1, hr1]
          · rw [e, p7]; exact floatOf_f64Val _
  · intro h
    cases h with
    | @number _ n w _ hu hn hv =>
      obtain ⟨u1, u2⟩ := unscored_between.1 hu
      obtain ⟨sg, f, a, pt, b, ex, k, h1, h2, h3, h4, h5, h6, h7, rfl⟩ := hn
      have hdec := parseDecimal_spec h2 h3 h4 h5 h6
      have hhead : ∃ c t, a ++ pt ++ b ++ ex = c :: t ∧ (isDigitC c = true ∨ c = '.') := by
        cases a with
        | cons c x => exact ⟨c, _, rfl, .inl (asciiDec_isSome ▸ h2 c (List.mem_cons_self ..))⟩
        | nil =>
          rcases h5 with rfl | ⟨rfl, rfl⟩
          · exact ⟨'.', _, rfl, .inr rfl⟩
          · exact absurd rfl h4
      generalize a ++ pt ++ b ++ ex = r at *
      obtain ⟨c, r', rfl, hc⟩ := hhead
      have hfirst : ∀ (x : Char) (y z : List Char), BetweenDigits false y → x :: z = y.filter (· ≠ '_') →
          ∃ y', y = x :: y' ∧ z = y'.filter (· ≠ '_') := by
        intro x y z hy hxy
        cases y with
        | nil => simp at hxy
        | cons y0 y =>
          have hne : y0 ≠ '_' := fun h0 => by
            have := (between_cons.1 hy).1 h0
            simp at this
          rw [List.filter_cons_of_pos (by simpa using hne), List.cons.injEq] at hxy
          exact ⟨y, by rw [hxy.1], hxy.2⟩
      obtain ⟨t, rfl, ht⟩ : ∃ t, s = sg ++ c :: t ∧ c :: r' = (c :: t).filter (· ≠ '_') := by
        rw [h7] at u1
        rcases h1 with ⟨rfl, -⟩ | ⟨rfl, -⟩ | ⟨rfl, -⟩
        · obtain ⟨t, ht1, ht2⟩ := hfirst _ _ _ u2 u1
          exact ⟨t, ht1, by rw [← ht1]; exact u1⟩
        · obtain ⟨y, rfl, hy⟩ := hfirst _ _ _ u2 u1
          obtain ⟨t, ht1, ht2⟩ := hfirst _ _ _ ((between_sign (sg := ['+']) (.inr (.inl ⟨rfl, rfl⟩))).1 u2) hy
          exact ⟨t, by rw [ht1]; rfl, by rw [← ht1]; exact hy⟩
        · obtain ⟨y, rfl, hy⟩ := hfirst _ _ _ u2 u1
          obtain ⟨t, ht1, ht2⟩ := hfirst _ _ _ ((between_sign (sg := ['-']) (.inr (.inr ⟨rfl, rfl⟩))).1 u2) hy
          exact ⟨t, by rw [ht1]; rfl, by rw [← ht1]; exact hy⟩
      rw [floatText_sign h1 hc (dropUnderscores_iff.2 ⟨ht, (between_sign h1).1 u2⟩) hdec, f64Val_floatOf hv]
    | @nan sg f w h1 h2 =>
      have h3 := (takeSign_spec h1 (word_head (by rw [h2]; rfl) (by decide))).1
      unfold floatText
      rw [h3]
      dsimp only
      rw [map_lower, if_pos h2]
    | @inf sg f w h1 h2 =>
      have h3 := (takeSign_spec h1 (t := w) (by
        rcases h2 with h2 | h2 <;> exact word_head (by rw [h2]; rfl) (by decide))).1
      unfold floatText
      rw [h3]
      dsimp only
      rw [map_lower, if_neg, if_pos h2]
      intro h4
      rw [h4] at h2
      revert h2; decide

/-! ### Digits of all scripts -/

section
variable {dec : Char → Option Nat}

theorem toAscii_isSome (hd : Decimals dec) (c : Char) : (asciiDec (toAscii dec c)).isSome = (dec c).isSome := by
  cases hc : dec c with
  | some v =>
    have := (toAscii_digit hd (c := c) (by rw [hc]; rfl)).1
    rw [this]; rfl
  | none =>
    rw [toAscii_none hc]
    by_cases h : isDigitC c = true
    · have h1 := isDigitC_iff.1 h
      have h2 : c.toNat < 128 := by
        unfold isDigitC at h
        simp only [Bool.and_eq_true, decide_eq_true_eq] at h
        omega
      rw [hd.ascii c h2, if_pos h1] at hc
      simp at hc
    · rw [asciiDec_isSome]; simpa using h

theorem toAscii_other (hd : Decimals dec) {c x : Char} (hx : x.toNat < 128 ∧ isDigitC x = false) : toAscii dec c = x ↔ c = x := by
  have hno : dec x = none := by
    rw [hd.ascii x hx.1, if_neg fun h => by have := hx.2; rw [isDigitC_iff.2 h] at this; simp at this]
  cases hc : dec c with
  | none => rw [toAscii_none hc]
  | some v =>
    have h1 := (toAscii_digit hd (c := c) (by rw [hc]; rfl)).1
    rw [asciiDec_isSome] at h1
    constructor
    · intro h; rw [h, hx.2] at h1; simp at h1
    · rintro rfl; rw [hno] at hc; simp at hc

theorem toLower_digit {c : Char} (h : isDigitC c = true) : c.toLower = c := by
  rw [← lowerAscii_eq]
  unfold lowerAscii
  unfold isDigitC at h
  simp only [Bool.and_eq_true, decide_eq_true_eq] at h
  rw [if_neg (by omega)]

theorem toAscii_lower (hd : Decimals dec) {c l : Char} (hl : 97 ≤ l.toNat ∧ l.toNat ≤ 122) :
    (toAscii dec c).toLower = l ↔ c.toLower = l := by
  cases hc : dec c with
  | none => rw [toAscii_none hc]
  | some v =>
    have h1 := (toAscii_digit hd (c := c) (by rw [hc]; rfl)).1
    rw [asciiDec_isSome] at h1
    rw [toLower_digit h1]
    constructor
    · intro h
      rw [h] at h1
      unfold isDigitC at h1
      simp only [Bool.and_eq_true, decide_eq_true_eq] at h1
      omega
    · intro h
      exfalso
      rw [← lowerAscii_eq] at h
      unfold lowerAscii at h
      have hsm : c.toNat < 128 ∧ isDigitC c = false := by
        split at h
        · refine ⟨by omega, ?_⟩
          unfold isDigitC
          simp only [Bool.and_eq_false_iff, decide_eq_false_iff_not]
          omega
        · subst h
          refine ⟨by omega, ?_⟩
          unfold isDigitC
          simp only [Bool.and_eq_false_iff, decide_eq_false_iff_not]
          omega
      rw [hd.ascii c hsm.1, if_neg fun h => by have := hsm.2; rw [isDigitC_iff.2 h] at this; simp at this] at hc
      simp at hc

theorem lower_word (hd : Decimals dec) {w x : List Char} (hx : ∀ l ∈ x, 97 ≤ l.toNat ∧ l.toNat ≤ 122) :
    (w.map (toAscii dec)).map Char.toLower = x ↔ w.map Char.toLower = x := by
  induction w generalizing x with
  | nil => exact Iff.rfl
  | cons c w ih =>
    cases x with
    | nil => simp
    | cons l x =>
      simp only [List.map_cons, List.cons.injEq]
      rw [toAscii_lower hd (hx l (List.mem_cons_self ..)), ih fun l hl => hx l (List.mem_cons_of_mem _ hl)]

theorem filter_toAscii (hd : Decimals dec) (s : List Char) :
    (s.map (toAscii dec)).filter (· ≠ '_') = (s.filter (· ≠ '_')).map (toAscii dec) := by
  rw [List.filter_map]
  congr 1
  apply List.filter_congr
  intro c _
  simp only [Function.comp_apply, ne_eq, decide_not]
  congr 1
  exact decide_eq_decide.2 (toAscii_other hd (by decide))

theorem unscored_toAscii (hd : Decimals dec) {s n : List Char} :
    Unscored asciiDec (s.map (toAscii dec)) n ↔ ∃ m, n = m.map (toAscii dec) ∧ Unscored dec s m := by
  have key : (∀ u v, s.map (toAscii dec) = u ++ '_' :: v → (∃ d, u.getLast? = some d ∧ (asciiDec d).isSome = true) ∧
        ∃ e, v.head? = some e ∧ (asciiDec e).isSome = true) ↔
      (∀ u v, s = u ++ '_' :: v → (∃ d, u.getLast? = some d ∧ (dec d).isSome = true) ∧
        ∃ e, v.head? = some e ∧ (dec e).isSome = true) := by
    constructor
    · intro h u v huv
      obtain ⟨⟨d, h1, h2⟩, e, h3, h4⟩ := h (u.map (toAscii dec)) (v.map (toAscii dec)) (by
        rw [huv, List.map_append, List.map_cons, (toAscii_other hd (c := '_') (by decide)).2 rfl])
      rw [List.getLast?_map, Option.map_eq_some_iff] at h1
      rw [List.head?_map, Option.map_eq_some_iff] at h3
      obtain ⟨d', h1, rfl⟩ := h1
      obtain ⟨e', h3, rfl⟩ := h3
      rw [toAscii_isSome hd] at h2 h4
      exact ⟨⟨d', h1, h2⟩, e', h3, h4⟩
    · intro h u v huv
      rw [List.map_eq_append_iff] at huv
      obtain ⟨u', r, rfl, rfl, hr⟩ := huv
      rw [List.map_eq_cons_iff] at hr
      obtain ⟨c, v', rfl, hc, rfl⟩ := hr
      rw [toAscii_other hd (by decide)] at hc
      subst hc
      obtain ⟨⟨d, h1, h2⟩, e, h3, h4⟩ := h u' v' rfl
      rw [← toAscii_isSome hd] at h2 h4
      exact ⟨⟨_, by rw [List.getLast?_map, h1]; rfl, h2⟩, _, by rw [List.head?_map, h3]; rfl, h4⟩
  unfold Unscored
  rw [key, filter_toAscii hd]
  constructor
  · rintro ⟨rfl, h⟩; exact ⟨_, rfl, rfl, h⟩
  · rintro ⟨m, rfl, rfl, h⟩; exact ⟨rfl, h⟩

theorem digits_toAscii (hd : Decimals dec) {s : List Char} : IsDigits asciiDec (s.map (toAscii dec)) ↔ IsDigits dec s := by
  unfold IsDigits
  constructor
  · intro h c hc
    rw [← toAscii_isSome hd]; exact h _ (List.mem_map_of_mem hc)
  · intro h c hc
    obtain ⟨d, hd', rfl⟩ := List.mem_map.1 hc
    rw [toAscii_isSome hd]; exact h d hd'

theorem sign_toAscii (hd : Decimals dec) {s : List Char} {f : Int} : SignIs (s.map (toAscii dec)) f ↔ SignIs s f := by
  refine ⟨?_, map_sign hd⟩
  have one : ∀ x, (x.toNat < 128 ∧ isDigitC x = false) → s.map (toAscii dec) = [x] → s = [x] := by
    intro x hx h
    rw [List.map_eq_cons_iff] at h
    obtain ⟨c, t, rfl, h1, h2⟩ := h
    rw [toAscii_other hd hx] at h1
    rw [h1, List.map_eq_nil_iff.1 h2]
  rintro (⟨h, rfl⟩ | ⟨h, rfl⟩ | ⟨h, rfl⟩)
  · exact .inl ⟨List.map_eq_nil_iff.1 h, rfl⟩
  · exact .inr (.inl ⟨one _ (by decide) h, rfl⟩)
  · exact .inr (.inr ⟨one _ (by decide) h, rfl⟩)

theorem exponent_toAscii (hd : Decimals dec) {s : List Char} {k : Int} :
    ExponentIs asciiDec (s.map (toAscii dec)) k ↔ ExponentIs dec s k := by
  refine ⟨?_, map_exponent hd⟩
  rintro (⟨h, rfl⟩ | ⟨e, sg, f, ds, he, hs, hne, hds, h, rfl⟩)
  · exact .inl ⟨List.map_eq_nil_iff.1 h, rfl⟩
  · rw [List.map_eq_cons_iff] at h
    obtain ⟨c, t, rfl, h1, h2⟩ := h
    rw [List.map_eq_append_iff] at h2
    obtain ⟨sg', ds', rfl, rfl, rfl⟩ := h2
    have he' : e.toNat < 128 ∧ isDigitC e = false := by rcases he with rfl | rfl <;> decide
    rw [toAscii_other hd he'] at h1
    subst h1
    have h3 := (digits_toAscii hd).1 hds
    exact .inr ⟨c, sg', f, ds', he, (sign_toAscii hd).1 hs, by simpa using hne, h3, rfl, by rw [(map_digits hd h3).2]⟩

theorem numeral_toAscii (hd : Decimals dec) {n : List Char} {w : Rat} :
    NumeralIs asciiDec (n.map (toAscii dec)) w ↔ NumeralIs dec n w := by
  refine ⟨?_, map_numeral hd⟩
  rintro ⟨sg, f, a, pt, b, ex, k, h1, h2, h3, h4, h5, h6, h7, rfl⟩
  rw [List.map_eq_append_iff] at h7
  obtain ⟨sg', r, rfl, rfl, h7⟩ := h7
  rw [List.map_eq_append_iff] at h7
  obtain ⟨r, ex', rfl, h7, rfl⟩ := h7
  rw [List.map_eq_append_iff] at h7
  obtain ⟨r, b', rfl, h7, rfl⟩ := h7
  rw [List.map_eq_append_iff] at h7
  obtain ⟨a', pt', rfl, rfl, rfl⟩ := h7
  have h2 := (digits_toAscii hd).1 h2
  have h3 := (digits_toAscii hd).1 h3
  have hab : IsDigits dec (a' ++ b') := fun c hc => (List.mem_append.1 hc).elim (h2 c) (h3 c)
  refine ⟨sg', f, a', pt', b', ex', k, (sign_toAscii hd).1 h1, h2, h3, ?_, ?_, (exponent_toAscii hd).1 h6, rfl, ?_⟩
  · intro h0; apply h4; rw [← List.map_append, h0]; rfl
  · rcases h5 with h5 | ⟨h5, h6⟩
    · left
      rw [List.map_eq_cons_iff] at h5
      obtain ⟨c, t, rfl, h1, h2⟩ := h5
      rw [toAscii_other hd (by decide)] at h1
      rw [h1, List.map_eq_nil_iff.1 h2]
    · exact .inr ⟨List.map_eq_nil_iff.1 h5, List.map_eq_nil_iff.1 h6⟩
  · rw [← List.map_append, (map_digits hd hab).2, List.length_map]

theorem word_toAscii (hd : Decimals dec) {s : List Char} {v : Val} :
    WordIs asciiDec (s.map (toAscii dec)) v ↔ WordIs dec s v := by
  have hn : ∀ l ∈ "nan".toList, 97 ≤ l.toNat ∧ l.toNat ≤ 122 := by decide
  have hi : ∀ l ∈ "inf".toList, 97 ≤ l.toNat ∧ l.toNat ≤ 122 := by decide
  have hy : ∀ l ∈ "infinity".toList, 97 ≤ l.toNat ∧ l.toNat ≤ 122 := by decide
  constructor
  · intro h
    generalize e : s.map (toAscii dec) = t at h
    cases h with
    | number h1 h2 h3 =>
      subst e
      obtain ⟨m, rfl, h4⟩ := (unscored_toAscii hd).1 h1
      exact .number h4 ((numeral_toAscii hd).1 h2) h3
    | nan h1 h2 =>
      rw [List.map_eq_append_iff] at e
      obtain ⟨sg', w', rfl, rfl, rfl⟩ := e
      exact .nan ((sign_toAscii hd).1 h1) ((lower_word hd hn).1 h2)
    | inf h1 h2 =>
      rw [List.map_eq_append_iff] at e
      obtain ⟨sg', w', rfl, rfl, rfl⟩ := e
      exact .inf ((sign_toAscii hd).1 h1) (h2.imp (lower_word hd hi).1 (lower_word hd hy).1)
  · intro h
    cases h with
    | number h1 h2 h3 => exact .number ((unscored_toAscii hd).2 ⟨_, rfl, h1⟩) ((numeral_toAscii hd).2 h2) h3
    | nan h1 h2 =>
      rw [List.map_append]
      exact .nan ((sign_toAscii hd).2 h1) ((lower_word hd hn).2 h2)
    | inf h1 h2 =>
      rw [List.map_append]
      exact .inf ((sign_toAscii hd).2 h1) (h2.imp (lower_word hd hi).2 (lower_word hd hy).2)

/-! ### Whitespace around -/

/-- The characters of a number. -/
theorem word_chars {t : List Char} {v : Val} (h : WordIs asciiDec t v) : ∀ c ∈ t, pySpace c = false ∧ c ≠ ',' := by
  have hs : ∀ c, isDigitC c = true ∨ c ∈ numeralChars → pySpace c = false ∧ c ≠ ',' := fun c hc => by
    refine ⟨(numChar_facts hc).1, ?_⟩
    rintro rfl
    revert hc; decide
  have hw : ∀ w x : List Char, w.map Char.toLower = x → (∀ l ∈ x, 97 ≤ l.toNat ∧ l.toNat ≤ 122) →
      ∀ c ∈ w, pySpace c = false ∧ c ≠ ',' := by
    intro w x h hx c hc
    have h1 := hx c.toLower (by rw [← h]; exact List.mem_map_of_mem hc)
    rw [← lowerAscii_eq] at h1
    unfold lowerAscii at h1
    have h2 : 65 ≤ c.toNat ∧ c.toNat ≤ 122 := by
      split at h1 <;> omega
    refine ⟨by unfold pySpace; simp; omega, ?_⟩
    rintro rfl
    revert h2; decide
  cases h with
  | @number _ n w _ h1 h2 h3 =>
    intro c hc
    by_cases h0 : c = '_'
    · rw [h0]; decide
    · have : c ∈ n := by rw [h1.1]; exact List.mem_filter.2 ⟨hc, by simpa using h0⟩
      exact hs c (numeral_chars h2 c this)
  | nan h1 h2 =>
    intro c hc
    rcases List.mem_append.1 hc with hc | hc
    · exact hs c (.inr (sign_chars h1 c hc))
    · exact hw _ _ h2 (by decide) c hc
  | inf h1 h2 =>
    intro c hc
    rcases List.mem_append.1 hc with hc | hc
    · exact hs c (.inr (sign_chars h1 c hc))
    · rcases h2 with h2 | h2
      · exact hw _ _ h2 (by decide) c hc
      · exact hw _ _ h2 (by decide) c hc

/-- The first and the last character of a number are no whitespace. -/
theorem word_ends {t : List Char} {v : Val} (h : WordIs asciiDec t v) :
    (∀ c, t.head? = some c → pySpace c = false) ∧ ∀ c, t.getLast? = some c → pySpace c = false :=
  ⟨fun c hc => (word_chars h c (List.mem_of_mem_head? hc)).1, fun c hc => (word_chars h c (List.mem_of_getLast? hc)).1⟩

theorem floatSpace_toAscii (hd : Decimals dec) (c : Char) : floatSpace (toAscii dec c) = floatSpace c := by
  cases hc : dec c with
  | none => rw [toAscii_none hc]
  | some v =>
    have h1 := (toAscii_digit hd (c := c) (by rw [hc]; rfl)).1
    rw [asciiDec_isSome] at h1
    rw [floatSpace_false (numChar_facts (.inl h1)).1]
    cases h : floatSpace c with
    | false => rfl
    | true => rw [hd.space c (floatSpace_space h)] at hc; simp at hc

/-- `float` of a str gives a value for exactly the texts that are numbers. -/
theorem pyFloat_iff (hd : Decimals dec) {s : List Char} {v : Val} : pyFloat dec s = some v ↔ FloatIs NumBlank dec s v := by
  unfold pyFloat
  rw [floatText_iff]
  constructor
  · intro h
    obtain ⟨a, b, h1, h2, h3, -, -⟩ := stripBy_spec floatSpace (s.map (toAscii dec))
    generalize stripBy floatSpace (s.map (toAscii dec)) = t at h h1
    rw [List.map_eq_append_iff] at h1
    obtain ⟨r, b', rfl, h1, rfl⟩ := h1
    rw [List.map_eq_append_iff] at h1
    obtain ⟨a', t', rfl, rfl, rfl⟩ := h1
    refine ⟨a', t', b', rfl, fun c hc => ?_, fun c hc => ?_, (word_toAscii hd).1 h⟩
    · rw [← floatSpace_iff, ← floatSpace_toAscii hd]; exact h2 _ (List.mem_map_of_mem hc)
    · rw [← floatSpace_iff, ← floatSpace_toAscii hd]; exact h3 _ (List.mem_map_of_mem hc)
  · rintro ⟨a, t, b, rfl, ha, hb, h⟩
    have hw := (word_toAscii hd).2 h
    obtain ⟨e1, e2⟩ := word_ends hw
    have hsp : ∀ x : List Char, (∀ c ∈ x, NumBlank c) → ∀ c ∈ x.map (toAscii dec), floatSpace c = true := by
      intro x hx c hc
      obtain ⟨d, hd', rfl⟩ := List.mem_map.1 hc
      rw [floatSpace_toAscii hd, floatSpace_iff]; exact hx d hd'
    rw [List.map_append, List.map_append, stripBy_pad (hsp a ha) (hsp b hb) (fun c hc => floatSpace_false (e1 c hc))
      (fun c hc => floatSpace_false (e2 c hc))]
    exact hw

end

/-- `float` of bytes gives a value for exactly the texts that are numbers. -/
theorem pyFloatB_iff {s : List Char} {v : Val} : pyFloatB s = some v ↔ FloatIs (· ∈ whites) asciiDec s v := by
  unfold pyFloatB
  have hws : asciiWhite = whites := rfl
  rw [floatText_iff, hws]
  constructor
  · intro h
    obtain ⟨a, b, h1, h2, h3, -, -⟩ := stripBy_spec (fun c => decide (c ∈ whites)) s
    exact ⟨a, _, b, h1, fun c hc => by simpa using h2 c hc, fun c hc => by simpa using h3 c hc, h⟩
  · rintro ⟨a, t, b, rfl, ha, hb, h⟩
    obtain ⟨e1, e2⟩ := word_ends h
    have hno : ∀ c, pySpace c = false → decide (c ∈ whites) = false := fun c hc => by
      simp only [decide_eq_false_iff_not]
      intro h
      rw [floatSpace_space (whites_floatSpace h)] at hc; simp at hc
    rw [stripBy_pad (fun c hc => by simpa using ha c hc) (fun c hc => by simpa using hb c hc) (fun c hc => hno c (e1 c hc))
      (fun c hc => hno c (e2 c hc))]
    exact h

theorem number_no_comma {dec : Char → Option Nat} (hd : Decimals dec) {h : Hint} {s : List Char} {v : Val}
    (hn : TextNumber h dec s v) : ',' ∉ s := by
  have hw : ∀ {dec : Char → Option Nat} (_ : Decimals dec) {t : List Char}, WordIs dec t v → ',' ∉ t := by
    intro dec hd t h1 hc
    have h2 := (word_toAscii hd).2 h1
    refine (word_chars h2 ',' ?_).2 rfl
    have := List.mem_map_of_mem (f := toAscii dec) hc
    rwa [(toAscii_other hd (c := ',') (by decide)).2 rfl] at this
  unfold TextNumber at hn
  split at hn
  · obtain ⟨a, t, b, rfl, ha, hb, h1⟩ := hn
    simp only [List.mem_append, not_or]
    exact ⟨⟨fun h => absurd (ha _ h).1 (by decide), hw hd h1⟩, fun h => absurd (hb _ h).1 (by decide)⟩
  · obtain ⟨a, t, b, rfl, ha, hb, h1⟩ := hn
    simp only [List.mem_append, not_or]
    exact ⟨⟨fun h => absurd (ha _ h) (by decide), hw asciiDec_decimals h1⟩, fun h => absurd (hb _ h) (by decide)⟩

theorem pointed_same {s : List Char} (h : ',' ∉ s) : pointed s = s := by
  unfold pointed
  conv => rhs; rw [← List.map_id s]
  apply List.map_congr_left
  intro c hc
  have h0 : c ≠ ',' := by rintro rfl; exact h hc
  rw [if_neg h0]; rfl

theorem hintFloat_iff {dec : Char → Option Nat} (hd : Decimals dec) {h : Hint} {s : List Char} {v : Val} :
    h.float dec s = some v ↔ TextNumber h dec s v := by
  unfold Hint.float TextNumber
  cases h with
  | text => exact pyFloat_iff hd
  | bytes => exact pyFloatB_iff
  | codec => exact pyFloatB_iff

end CP
