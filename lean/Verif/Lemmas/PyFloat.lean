import Verif.Model.PyFloat
import Verif.Spec.Numeral
import Verif.Spec.Lazy
import Verif.Lemmas.Float64
import Verif.Lemmas.Text
/-!
# Lemmas: `float(text)` of numerals
-/

namespace CP
open Spec

theorem isDigitC_iff {c : Char} : isDigitC c = true ↔ '0' ≤ c ∧ c ≤ '9' := by
  unfold isDigitC
  simp only [Bool.and_eq_true, decide_eq_true_eq, Char.le_def, UInt32.le_iff_toNat_le]
  rfl

theorem asciiDec_isSome {c : Char} : (asciiDec c).isSome = isDigitC c := by
  unfold asciiDec
  by_cases h : isDigitC c = true
  · rw [if_pos (isDigitC_iff.1 h), h]; rfl
  · rw [if_neg (fun h' => h (isDigitC_iff.2 h'))]; simpa using h

theorem foldl_digits (s : List Char) (n : Nat) :
    IsDigits asciiDec s → s.foldl (fun acc c => 10 * acc + (c.toNat - 48)) n = n * 10 ^ s.length + digitsValue asciiDec s := by
  induction s generalizing n with
  | nil => simp [digitsValue]
  | cons c cs ih =>
    intro h
    have hc := h c (List.mem_cons_self ..)
    rw [asciiDec_isSome] at hc
    have hv : (asciiDec c).getD 0 = c.toNat - 48 := by unfold asciiDec; rw [if_pos (isDigitC_iff.1 hc)]; rfl
    rw [List.foldl_cons, ih _ fun x hx => h x (List.mem_cons_of_mem _ hx), digitsValue, List.length_cons, Nat.pow_succ, hv]
    grind

theorem natOfDigits_eq {s : List Char} (h : IsDigits asciiDec s) : natOfDigits s = digitsValue asciiDec s := by
  unfold natOfDigits; rw [foldl_digits _ _ h]; omega

theorem takeSign_spec {sg : List Char} {f : Int} (h : SignIs sg f) {t : List Char}
    (ht : ∀ c, t.head? = some c → c ≠ '-' ∧ c ≠ '+') :
    takeSign (sg ++ t) = (decide (f = -1), t) ∧ (f = 1 ∨ f = -1) := by
  rcases h with ⟨rfl, rfl⟩ | ⟨rfl, rfl⟩ | ⟨rfl, rfl⟩
  · refine ⟨?_, .inl rfl⟩
    rw [List.nil_append]
    unfold takeSign
    split
    · exact absurd rfl (ht '-' rfl).1
    · exact absurd rfl (ht '+' rfl).2
    · rfl
  · exact ⟨rfl, .inl rfl⟩
  · exact ⟨rfl, .inr rfl⟩

theorem digit_not_sign {c : Char} (h : (asciiDec c).isSome = true) : c ≠ '-' ∧ c ≠ '+' ∧ c ≠ '.' ∧ c ≠ 'e' ∧ c ≠ 'E' ∧ c ≠ '_' := by
  refine ⟨?_, ?_, ?_, ?_, ?_, ?_⟩ <;> (rintro rfl; revert h; decide)

theorem parseExponent_spec {ex : List Char} {k : Int} (h : ExponentIs asciiDec ex k) : parseExponent ex = some k := by
  rcases h with ⟨rfl, rfl⟩ | ⟨e, sg, f, ds, he, hs, hne, hd, rfl, rfl⟩
  · rfl
  · have hh : ∀ c, ds.head? = some c → c ≠ '-' ∧ c ≠ '+' := fun c hc => by
      have := digit_not_sign (hd c (List.mem_of_mem_head? hc))
      exact ⟨this.1, this.2.1⟩
    obtain ⟨h1, h2⟩ := takeSign_spec hs hh
    unfold parseExponent
    dsimp only
    rw [if_pos he, h1]
    dsimp only
    rw [if_pos ⟨hne, by rw [List.all_eq_true]; exact fun c hc => asciiDec_isSome ▸ hd c hc⟩, natOfDigits_eq hd]
    rcases h2 with rfl | rfl
    · rw [decide_eq_false (by decide)]; simp
    · rw [decide_eq_true rfl]; simp

theorem takeWhile_isDigitC {a t : List Char} (ha : IsDigits asciiDec a) (ht : ∀ c, t.head? = some c → isDigitC c = false) :
    (a ++ t).takeWhile isDigitC = a ∧ (a ++ t).dropWhile isDigitC = t := by
  induction a with
  | nil =>
    cases t with
    | nil => exact ⟨rfl, rfl⟩
    | cons c t =>
      have := ht c rfl
      simp [this]
  | cons c a ih =>
    have hc := asciiDec_isSome ▸ ha c (List.mem_cons_self ..)
    obtain ⟨i1, i2⟩ := ih fun x hx => ha x (List.mem_cons_of_mem _ hx)
    simp [hc, i1, i2]

theorem exponent_head {ex : List Char} {k : Int} (h : ExponentIs asciiDec ex k) : ∀ c, ex.head? = some c → c = 'e' ∨ c = 'E' := by
  rcases h with ⟨rfl, -⟩ | ⟨e, sg, f, ds, he, -, -, -, rfl, -⟩
  · simp
  · intro c hc
    simp only [List.head?_cons, Option.some.injEq] at hc
    rw [← hc]; exact he

theorem parseDecimal_spec {a pt b ex : List Char} {k : Int} (ha : IsDigits asciiDec a) (hb : IsDigits asciiDec b) (hne : a ++ b ≠ [])
    (hpt : pt = ['.'] ∨ (pt = [] ∧ b = [])) (hex : ExponentIs asciiDec ex k) :
    parseDecimal (a ++ pt ++ b ++ ex) = some ((digitsValue asciiDec (a ++ b) : Rat) * 10 ^ (k - (b.length : Int))) := by
  have hx : ∀ c, ex.head? = some c → isDigitC c = false := fun c hc => by
    rcases exponent_head hex c hc with rfl | rfl <;> decide
  have hab : IsDigits asciiDec (a ++ b) := fun c hc => (List.mem_append.1 hc).elim (ha c) (hb c)
  unfold parseDecimal
  rcases hpt with rfl | ⟨rfl, rfl⟩
  · have e : a ++ ['.'] ++ b ++ ex = a ++ '.' :: (b ++ ex) := by simp
    rw [e]
    obtain ⟨h1, h2⟩ := takeWhile_isDigitC (t := '.' :: (b ++ ex)) ha (fun c hc => by
      simp only [List.head?_cons, Option.some.injEq] at hc; subst hc; decide)
    obtain ⟨h3, h4⟩ := takeWhile_isDigitC hb hx
    have h5 : takeFrac ('.' :: (b ++ ex)) = (b, ex) := by show (List.takeWhile isDigitC (b ++ ex), List.dropWhile isDigitC (b ++ ex)) = _; rw [h3, h4]
    rw [h1, h2, h5]
    dsimp only
    rw [if_neg (fun h => hne (by rw [h.1, h.2]; rfl)), parseExponent_spec hex, natOfDigits_eq hab]
    rfl
  · have e : a ++ [] ++ [] ++ ex = a ++ ex := by simp
    rw [e]
    obtain ⟨h1, h2⟩ := takeWhile_isDigitC ha hx
    rw [h1, h2]
    have h3 : takeFrac ex = ([], ex) := by
      unfold takeFrac
      split
      · exfalso
        rcases exponent_head hex '.' rfl with h | h <;> revert h <;> decide
      · rfl
    rw [h3]
    dsimp only
    rw [if_neg (fun h => hne (by rw [h.1]; rfl)), parseExponent_spec hex, natOfDigits_eq hab]
    rfl

theorem dropUnderscores_none {s : List Char} (h : ∀ c ∈ s, c ≠ '_') (b : Bool) : dropUnderscores b s = some s := by
  induction s generalizing b with
  | nil => rfl
  | cons c s ih =>
    have hc := h c (List.mem_cons_self ..)
    have := ih (fun x hx => h x (List.mem_cons_of_mem _ hx)) (isDigitC c)
    unfold dropUnderscores
    split
    · rename_i heq; cases heq
    · rename_i heq; simp only [List.cons.injEq] at heq; exact absurd heq.1 hc
    · rename_i heq; simp only [List.cons.injEq] at heq
      obtain ⟨rfl, rfl⟩ := heq
      rw [this]; rfl


/-! ### Digits of all scripts -/

theorem toAscii_digit {dec : Char → Option Nat} (hd : Decimals dec) {c : Char} (h : (dec c).isSome = true) :
    (asciiDec (toAscii dec c)).isSome = true ∧ (asciiDec (toAscii dec c)).getD 0 = (dec c).getD 0 := by
  obtain ⟨v, hv⟩ := Option.isSome_iff_exists.1 h
  have hlt := hd.small c v hv
  unfold toAscii
  rw [hv]
  dsimp only
  have : ∀ v : Fin 10, (asciiDec (Char.ofNat (48 + v.val))).isSome = true ∧ (asciiDec (Char.ofNat (48 + v.val))).getD 0 = v.val := by
    decide
  exact this ⟨v, hlt⟩

theorem toAscii_none {dec : Char → Option Nat} {c : Char} (h : dec c = none) : toAscii dec c = c := by
  unfold toAscii; rw [h]

theorem map_digits {dec : Char → Option Nat} (hd : Decimals dec) {s : List Char} (h : IsDigits dec s) :
    IsDigits asciiDec (s.map (toAscii dec)) ∧ digitsValue asciiDec (s.map (toAscii dec)) = digitsValue dec s := by
  induction s with
  | nil => exact ⟨fun _ h => by simp at h, rfl⟩
  | cons c s ih =>
    obtain ⟨i1, i2⟩ := ih fun x hx => h x (List.mem_cons_of_mem _ hx)
    obtain ⟨j1, j2⟩ := toAscii_digit hd (h c (List.mem_cons_self ..))
    constructor
    · intro x hx
      rw [List.map_cons, List.mem_cons] at hx
      rcases hx with rfl | hx
      · exact j1
      · exact i1 x hx
    · rw [List.map_cons, digitsValue, digitsValue, i2, j2, List.length_map]

theorem map_sign {dec : Char → Option Nat} (hd : Decimals dec) {s : List Char} {f : Int} (h : SignIs s f) :
    SignIs (s.map (toAscii dec)) f := by
  have h1 : toAscii dec '+' = '+' := toAscii_none ((hd.ascii '+' (by decide)).trans (by decide))
  have h2 : toAscii dec '-' = '-' := toAscii_none ((hd.ascii '-' (by decide)).trans (by decide))
  rcases h with ⟨rfl, rfl⟩ | ⟨rfl, rfl⟩ | ⟨rfl, rfl⟩
  · exact .inl ⟨rfl, rfl⟩
  · exact .inr (.inl ⟨by simp [h1], rfl⟩)
  · exact .inr (.inr ⟨by simp [h2], rfl⟩)

theorem map_exponent {dec : Char → Option Nat} (hd : Decimals dec) {s : List Char} {k : Int} (h : ExponentIs dec s k) :
    ExponentIs asciiDec (s.map (toAscii dec)) k := by
  rcases h with ⟨rfl, rfl⟩ | ⟨e, sg, f, ds, he, hs, hne, hds, rfl, rfl⟩
  · exact .inl ⟨rfl, rfl⟩
  · obtain ⟨h1, h2⟩ := map_digits hd hds
    have h3 : toAscii dec e = e := by
      rcases he with rfl | rfl
      · exact toAscii_none ((hd.ascii 'e' (by decide)).trans (by decide))
      · exact toAscii_none ((hd.ascii 'E' (by decide)).trans (by decide))
    exact .inr ⟨e, _, f, _, he, map_sign hd hs, by simpa using hne, h1, by simp [h3], by rw [h2]⟩

theorem map_numeral {dec : Char → Option Nat} (hd : Decimals dec) {n : List Char} {w : Rat} (h : NumeralIs dec n w) :
    NumeralIs asciiDec (n.map (toAscii dec)) w := by
  obtain ⟨sg, f, a, pt, b, ex, k, h1, h2, h3, h4, h5, h6, rfl, rfl⟩ := h
  have hp : toAscii dec '.' = '.' := toAscii_none ((hd.ascii '.' (by decide)).trans (by decide))
  have hab : IsDigits dec (a ++ b) := fun c hc => (List.mem_append.1 hc).elim (h2 c) (h3 c)
  refine ⟨_, f, _, pt, _, _, k, map_sign hd h1, (map_digits hd h2).1, (map_digits hd h3).1, ?_, ?_, map_exponent hd h6, ?_, ?_⟩
  · rw [← List.map_append]; simpa using h4
  · rcases h5 with rfl | ⟨rfl, rfl⟩
    · exact .inl rfl
    · exact .inr ⟨rfl, rfl⟩
  · rcases h5 with rfl | ⟨rfl, rfl⟩ <;> simp [hp]
  · rw [← List.map_append, (map_digits hd hab).2, List.length_map]

/-! ### `float` of a numeral -/

def numeralChars : List Char := ['-', '+', '.', 'e', 'E']

theorem sign_chars {s : List Char} {f : Int} (h : SignIs s f) : ∀ c ∈ s, c ∈ numeralChars := by
  rcases h with ⟨rfl, -⟩ | ⟨rfl, -⟩ | ⟨rfl, -⟩ <;> simp [numeralChars]

theorem numeral_chars {n : List Char} {w : Rat} (h : NumeralIs asciiDec n w) :
    ∀ c ∈ n, isDigitC c = true ∨ c ∈ numeralChars := by
  obtain ⟨sg, f, a, pt, b, ex, k, h1, h2, h3, -, h5, h6, rfl, -⟩ := h
  intro c hc
  simp only [List.mem_append] at hc
  rcases hc with hc | ((hc | hc) | hc) | hc
  · exact .inr (sign_chars h1 c hc)
  · exact .inl (asciiDec_isSome ▸ h2 c hc)
  · rcases h5 with rfl | ⟨rfl, -⟩
    · simp at hc; subst hc; exact .inr (by decide)
    · simp at hc
  · exact .inl (asciiDec_isSome ▸ h3 c hc)
  · rcases h6 with ⟨rfl, -⟩ | ⟨e, sg, f, ds, he, hs, -, hds, rfl, -⟩
    · simp at hc
    · simp only [List.mem_cons, List.mem_append] at hc
      rcases hc with rfl | hc | hc
      · rcases he with rfl | rfl <;> exact .inr (by decide)
      · exact .inr (sign_chars hs c hc)
      · exact .inl (asciiDec_isSome ▸ hds c hc)

theorem numChar_facts {c : Char} (h : isDigitC c = true ∨ c ∈ numeralChars) : pySpace c = false ∧ c ≠ '_' := by
  rcases h with h | h
  · unfold isDigitC at h
    simp only [Bool.and_eq_true, decide_eq_true_eq] at h
    constructor
    · unfold pySpace; simp; omega
    · rintro rfl; revert h; decide
  · simp only [numeralChars, List.mem_cons, List.not_mem_nil, or_false] at h
    rcases h with rfl | rfl | rfl | rfl | rfl <;> decide

theorem floatText_numeral {n : List Char} {w : Rat} (hn : NumeralIs asciiDec n w) : floatText n = some (f64Val w) := by
  unfold floatText
  have hch := numeral_chars hn
  obtain ⟨sg, f, x, pt, y, ex, k, h1, h2, h3, h4, h5, h6, rfl, rfl⟩ := hn
  -- the first character after the sign
  have hhead : ∃ c t, x ++ pt ++ y ++ ex = c :: t ∧ (isDigitC c = true ∨ c = '.') := by
    cases x with
    | cons c x => exact ⟨c, _, rfl, .inl (asciiDec_isSome ▸ h2 c (List.mem_cons_self ..))⟩
    | nil =>
      rcases h5 with rfl | ⟨rfl, rfl⟩
      · exact ⟨'.', _, rfl, .inr rfl⟩
      · exact absurd rfl h4
  have hdec := parseDecimal_spec h2 h3 h4 h5 h6
  have hunder : dropUnderscores false (x ++ pt ++ y ++ ex) = some (x ++ pt ++ y ++ ex) :=
    dropUnderscores_none (fun c hc => (numChar_facts (hch c (List.mem_append_right _ hc))).2) _
  generalize x ++ pt ++ y ++ ex = r at *
  obtain ⟨c, t, rfl, hc⟩ := hhead
  obtain ⟨s1, s2⟩ := takeSign_spec (t := c :: t) h1 (fun d hd' => by
    simp only [List.head?_cons, Option.some.injEq] at hd'
    subst hd'
    rcases hc with hc | rfl
    · have := digit_not_sign (c := c) (by rw [asciiDec_isSome]; exact hc)
      exact ⟨this.1, this.2.1⟩
    · decide)
  rw [s1]
  dsimp only
  have hl : lowerAscii c = c := by
    unfold lowerAscii
    rw [if_neg]
    rcases hc with hc | rfl
    · unfold isDigitC at hc
      simp only [Bool.and_eq_true, decide_eq_true_eq] at hc
      omega
    · decide
  have hw : ∀ (d : Char) (u : List Char), d = 'n' ∨ d = 'i' → (c :: t).map lowerAscii ≠ d :: u := by
    intro d u hd' e
    rw [List.map_cons, hl] at e
    have e1 : c = d := (List.cons.inj e).1
    subst e1
    rcases hd' with rfl | rfl <;> revert hc <;> decide
  rw [show "nan".toList = ['n', 'a', 'n'] from rfl, show "inf".toList = ['i', 'n', 'f'] from rfl,
    show "infinity".toList = 'i' :: "nfinity".toList from rfl,
    if_neg (hw 'n' _ (.inl rfl)), if_neg (fun e => e.elim (hw 'i' _ (.inr rfl)) (hw 'i' _ (.inr rfl))), hunder]
  dsimp only
  rw [hdec]
  rcases s2 with rfl | rfl
  · simp
  · simp only [decide_true, if_true, Option.map_some, Option.some.injEq]
    congr 1
    rw [show ((-1 : Int) : Rat) = -1 from rfl]; grind

theorem floatSpace_iff {c : Char} : floatSpace c = true ↔ NumBlank c := by
  unfold floatSpace NumBlank
  simp only [Bool.and_eq_true, Bool.not_eq_true', Bool.and_eq_false_iff, decide_eq_false_iff_not]
  exact and_congr_right fun _ => by omega

theorem floatSpace_space {c : Char} (h : floatSpace c = true) : pySpace c = true := (floatSpace_iff.1 h).1

theorem floatSpace_false {c : Char} (h : pySpace c = false) : floatSpace c = false := by
  unfold floatSpace; rw [h]; rfl

theorem whites_floatSpace {c : Char} (h : c ∈ whites) : floatSpace c = true := by
  simp only [whites, List.mem_cons, List.not_mem_nil, or_false] at h
  rcases h with rfl | rfl | rfl | rfl | rfl | rfl <;> decide

theorem pyFloat_numeral {dec : Char → Option Nat} (hd : Decimals dec) {a n b : List Char} {w : Rat} (ha : ∀ c ∈ a, NumBlank c)
    (hb : ∀ c ∈ b, NumBlank c) (h : NumeralIs dec n w) : pyFloat dec (a ++ n ++ b) = some (f64Val w) := by
  have hsp : ∀ s : List Char, (∀ c ∈ s, NumBlank c) → s.map (toAscii dec) = s := fun s hs => by
    conv => rhs; rw [← List.map_id s]
    exact List.map_congr_left fun c hc => toAscii_none (hd.space c (hs c hc).1)
  have hn := map_numeral hd h
  have hstrip : stripBy floatSpace ((a ++ n ++ b).map (toAscii dec)) = n.map (toAscii dec) := by
    rw [List.map_append, List.map_append, hsp a ha, hsp b hb]
    exact stripBy_pad (fun c hc => floatSpace_iff.2 (ha c hc)) (fun c hc => floatSpace_iff.2 (hb c hc))
      (fun c hc => floatSpace_false (numChar_facts (numeral_chars hn c (List.mem_of_mem_head? hc))).1)
      (fun c hc => floatSpace_false (numChar_facts (numeral_chars hn c (List.mem_of_getLast? hc))).1)
  unfold pyFloat
  rw [hstrip]
  exact floatText_numeral hn

/-! ### Seventeen digits are enough -/

/-- The next double is at least 2 ^ -53 of it away. -/
theorem double_apart_pos {x z : Rat} (hx : IsDouble x) (hz : IsDouble z) (h0 : 0 < x) (hne : z ≠ x) : x / 2 ^ 53 ≤ (z - x).abs := by
  obtain ⟨r, E, hE, hf, -⟩ := f64_pos_form h0
  rw [f64_of_double hx] at hf
  have hP := two_zpow_pos E
  have hhi := ulpExp_hi h0
  rw [← hE, hf, show (2 : Rat) ^ (53 : Int) = ((2 ^ 53 : Int) : Rat) from by decide +kernel] at hhi
  have hr : r < 2 ^ 53 := by
    rcases Int.lt_or_le r (2 ^ 53) with h | h
    · exact h
    · have := Rat.mul_le_mul_of_nonneg_right (Rat.intCast_le_intCast.2 h) (Rat.le_of_lt hP)
      exact absurd hhi (Rat.not_lt.2 this)
  obtain ⟨m, e, hm, he, rfl⟩ := hz
  have key : ∀ (A B : Int) (F : Int), B ≠ A → (A ≤ (2 ^ 53) * (A - B) ∨ (0 < B - A ∧ A ≤ 2 ^ 53)) → x = (A : Rat) * 2 ^ F →
      x / 2 ^ 53 ≤ (((B : Rat) * 2 ^ F) - x).abs := by
    intro A B F hAB hor hxA
    have hF := two_zpow_pos F
    have hd : (A : Rat) ≤ 2 ^ 53 * ((B : Rat) - A).abs := by
      rcases hor with h | ⟨h, h'⟩
      · have h1 := Rat.intCast_le_intCast.2 h
        rw [Rat.intCast_mul, Rat.intCast_sub, show (((2 : Int) ^ 53 : Int) : Rat) = 2 ^ 53 from by decide +kernel] at h1
        rcases abs_cases ((B : Rat) - A) with ⟨c1, c2⟩ | ⟨c1, c2⟩ <;> rw [c2] <;> grind
      · have h1 := Rat.intCast_le_intCast.2 h'
        have h2 : ((1 : Int) : Rat) ≤ ((B - A : Int) : Rat) := Rat.intCast_le_intCast.2 (by omega)
        rw [show (((2 : Int) ^ 53 : Int) : Rat) = 2 ^ 53 from by decide +kernel] at h1
        rw [Rat.intCast_sub, show ((1 : Int) : Rat) = 1 from rfl] at h2
        rcases abs_cases ((B : Rat) - A) with ⟨c1, c2⟩ | ⟨c1, c2⟩ <;> rw [c2] <;> grind
    rw [hxA, show (B : Rat) * 2 ^ F - (A : Rat) * 2 ^ F = ((B : Rat) - A) * 2 ^ F by grind, abs_mul_pos hF]
    have := Rat.mul_le_mul_of_nonneg_right hd (Rat.le_of_lt hF)
    grind
  by_cases hle : E ≤ e
  · obtain ⟨k, hk⟩ := multiple (m := m) hle
    rw [hk] at hne ⊢
    refine key r k E (fun h => hne (by rw [h, hf])) ?_ hf
    have : k ≠ r := fun h => hne (by rw [h, hf])
    omega
  · have hlo := ulpExp_lo h0 (by omega)
    rw [← hE] at hlo
    by_cases hle2 : e = E - 1
    · subst hle2
      have hP2 : (2 : Rat) ^ E = 2 * 2 ^ (E - 1) := by
        rw [← two_zpow_succ]; congr 1; omega
      have hr2 : 2 ^ 52 ≤ r := by
        rcases Int.lt_or_le r (2 ^ 52) with h | h
        · have := Rat.mul_lt_mul_of_pos_right (Rat.intCast_lt_intCast.2 h) hP
          rw [show (((2 : Int) ^ 52 : Int) : Rat) = 2 ^ (52 : Int) from by decide +kernel] at this
          grind
        · exact h
      refine key (2 * r) m (E - 1) (by omega) (.inl (by omega)) ?_
      rw [hf, hP2, Rat.intCast_mul, show ((2 : Int) : Rat) = 2 from rfl]; grind
    · have h3 : (2 : Rat) ^ e ≤ 2 ^ (E - 2) := two_zpow_mono (by omega)
      have h4 : (2 : Rat) ^ E = 4 * 2 ^ (E - 2) := by
        rw [show E = (E - 2) + 2 by omega, two_zpow_add, show E - 2 + 2 - 2 = E - 2 by omega, show (2 : Rat) ^ (2 : Int) = 4 by decide +kernel]; grind
      have h5 : (m : Rat) ≤ 2 ^ 53 := by
        have := Rat.intCast_le_intCast.2 (show m ≤ 2 ^ 53 by omega)
        rwa [show (((2 : Int) ^ 53 : Int) : Rat) = 2 ^ 53 from by decide +kernel] at this
      have h6 := Rat.mul_le_mul_of_nonneg_right h5 (Rat.le_of_lt (two_zpow_pos e))
      rw [h4, show (2 : Rat) ^ (52 : Int) = 2 ^ 52 by decide +kernel] at hlo
      have := Rat.abs_nonneg (x := (m : Rat) * 2 ^ e - x)
      rcases abs_cases ((m : Rat) * 2 ^ e - x) with ⟨c1, c2⟩ | ⟨c1, c2⟩ <;> rw [c2] <;> grind

theorem double_apart {x z : Rat} (hx : IsDouble x) (hz : IsDouble z) (hne : z ≠ x) : x.abs / 2 ^ 53 ≤ (z - x).abs := by
  rcases abs_cases x with ⟨c1, c2⟩ | ⟨c1, c2⟩
  · rcases Rat.le_iff_lt_or_eq.1 c1 with h | h
    · rw [c2]; exact double_apart_pos hx hz h hne
    · rw [← h, Rat.abs_zero]
      have := Rat.abs_nonneg (x := z - 0)
      grind
  · rcases Rat.le_iff_lt_or_eq.1 c1 with h | h
    · have := double_apart_pos (isDouble_neg hx) (isDouble_neg hz) (by grind) (by grind)
      rw [c2, show z - x = -(-z - -x) by grind, Rat.abs_neg]; exact this
    · rw [h, Rat.abs_zero]
      have := Rat.abs_nonneg (x := z - 0)
      grind

theorem f64_of_close {w x : Rat} (hx : IsDouble x) (h : (w - x).abs ≤ x.abs / (2 * 10 ^ 16)) : f64 w = x := by
  by_cases h0 : x = 0
  · subst h0
    rw [Rat.abs_zero] at h
    have h1 : w = 0 := by
      rcases abs_cases (w - 0) with ⟨c1, c2⟩ | ⟨c1, c2⟩ <;> rw [c2] at h <;> grind
    rw [h1, f64_zero]
  have hpos : 0 < x.abs := by
    rcases abs_cases x with ⟨c1, c2⟩ | ⟨c1, c2⟩ <;> rw [c2] <;> grind
  rw [f64_eq_iff]
  refine ⟨hx, fun z hz => ?_⟩
  by_cases hne : z = x
  · subst hne; exact ⟨Rat.le_refl, fun h => absurd rfl h⟩
  have h1 := double_apart hx hz hne
  have h3 : (x - w).abs < (z - w).abs := by
    rw [show x - w = -(w - x) by grind, Rat.abs_neg]
    generalize x.abs = X at *
    rcases abs_cases (w - x) with ⟨c1, c2⟩ | ⟨c1, c2⟩ <;> rcases abs_cases (z - x) with ⟨c3, c4⟩ | ⟨c3, c4⟩ <;>
      rcases abs_cases (z - w) with ⟨c5, c6⟩ | ⟨c5, c6⟩ <;> rw [c2] at h ⊢ <;> rw [c4] at h1 <;> rw [c6] <;> grind
  exact ⟨Rat.le_of_lt h3, fun _ h => absurd h (Rat.ne_of_lt h3)⟩

theorem to17_close {w x : Rat} (h : To17Digits w x) : (w - x).abs ≤ x.abs / (2 * 10 ^ 16) := by
  rcases h with ⟨rfl, rfl⟩ | ⟨k, h1, h2⟩
  · decide +kernel
  · have h3 : (10 : Rat) ^ (k - 17) = 10 ^ (k - 1) * 10 ^ (-16 : Int) := by
      rw [← Rat.zpow_add (by decide)]; congr 1; omega
    rw [h3, show (10 : Rat) ^ (-16 : Int) = 1 / 10 ^ 16 by decide +kernel] at h2
    grind

end CP
