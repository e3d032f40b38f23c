import Verif.Lemmas.TextNumber
/-!
# C88: numbers with decimal point and comma
-/

namespace CP
open Spec

/-- What `textpack` says of itself: the first line of data tells the numbers from the text, and "numeric fields with
decimal comma are understood as numeric (besides numerics with decimal point)".  With `all` for every table whose
fields mean something; else for those in which the decimal comma, if it is used, is seen in the first line of data. -/
def NumbersUnderstood (all : Bool) : Prop :=
  ∀ (dec : Char → Option Nat), Decimals dec → ∀ (h : Hint) (f : TFile) (a : TextArgs)
    (skipped rest : List (List Char)) (first : List Char) (fs : List (List Char)) (rs : List (List (List Char))),
    LinesOf (f.chars.drop f.pos) (skipped ++ first :: rest) →
    a.names = [] ∧ a.hasnames = false ∧ a.usecols = none ∧ a.debug = false ∧ a.converters = [] →
    a.skiprows = skipped.length →
    HasFields (White h) a.delimiter first fs → Rows (White h) a.delimiter rest rs →
    Meaningful h dec a.stripstrings fs rs → (all = false → CommaFirst h dec fs rs) →
    ∃ data, textpack (h.float dec) h f a = .ok (data, []) ∧
      (∀ k, (∃ col, dget data k = some col) ↔ ∃ j : Nat, k = j ∧ ∀ r ∈ fs :: rs, j < r.length) ∧
      ∀ (j : Nat) col, dget data (j : Int) = some col → col.length = (fs :: rs).length ∧
        ∀ (i : Nat) r s, (fs :: rs)[i]? = some r → r[j]? = some s →
          ∃ v, col[i]? = some v ∧ FieldIs h dec a.stripstrings fs j s v

section
variable {dec : Char → Option Nat} (hd : Decimals dec) {h : Hint}
include hd

theorem either_of_number {s : List Char} {v : Val} (hn : TextNumber h dec s v) : EitherNumber h dec s v := by
  unfold EitherNumber
  rw [pointed_same (number_no_comma hd hn)]; exact hn

theorem isNum_hint {s : List Char} : IsNum (h.float dec) s ↔ ∃ v, TextNumber h dec s v := by
  unfold IsNum
  exact exists_congr fun v => hintFloat_iff hd

theorem isCommaNum_hint {s : List Char} : IsCommaNum (h.float dec) s ↔ ',' ∈ s ∧ ∃ v, EitherNumber h dec s v := by
  unfold IsCommaNum
  rw [isNum_hint hd, isNum_hint hd]
  constructor
  · rintro ⟨h1, h2⟩
    refine ⟨?_, h2⟩
    refine Decidable.byContradiction fun hc => h1 ?_
    rwa [pointed_same hc] at h2
  · rintro ⟨h1, h2⟩
    exact ⟨fun ⟨v, hv⟩ => number_no_comma hd hv h1, h2⟩

theorem either_cases {s : List Char} : (IsNum (h.float dec) s ∨ IsCommaNum (h.float dec) s) ↔ ∃ v, EitherNumber h dec s v := by
  constructor
  · rintro (h1 | h1)
    · obtain ⟨v, hv⟩ := (isNum_hint hd).1 h1
      exact ⟨v, either_of_number hd hv⟩
    · exact ((isCommaNum_hint hd).1 h1).2
  · rintro ⟨v, hv⟩
    by_cases hc : ',' ∈ s
    · exact .inr ((isCommaNum_hint hd).2 ⟨hc, v, hv⟩)
    · unfold EitherNumber at hv
      rw [pointed_same hc] at hv
      exact .inl ((isNum_hint hd).2 ⟨v, hv⟩)

theorem commaLine {first : List (List Char)} : (∃ y ∈ first, IsCommaNum (h.float dec) y) ↔
    ∃ y ∈ first, ',' ∈ y ∧ ∃ v, EitherNumber h dec y v :=
  exists_congr fun _ => and_congr_right fun _ => isCommaNum_hint hd

/-- What the first line of data makes of a field, in terms of what is written. -/
theorem fieldMeans_iff {strip : Bool} {first : List (List Char)} {j : Nat} {x s : List Char} {v : Val} (hx : first[j]? = some x) :
    FieldMeans (h.float dec) h strip first x s v ↔ FieldIs h dec strip first j s v ∧
      (NumberColumn h dec first j → ',' ∈ s → ∃ y ∈ first, ',' ∈ y ∧ ∃ v, EitherNumber h dec y v) := by
  have hcol : NumberColumn h dec first j ↔ (IsNum (h.float dec) x ∨ IsCommaNum (h.float dec) x) := by
    rw [either_cases hd]
    unfold NumberColumn
    constructor
    · rintro ⟨x', v, h1, h2⟩
      rw [hx, Option.some.injEq] at h1
      subst h1; exact ⟨v, h2⟩
    · rintro ⟨v, h2⟩; exact ⟨x, v, hx, h2⟩
  constructor
  · intro hm
    cases hm with
    | missing h1 h2 => exact ⟨.inl ⟨hcol.2 h1, .inl ⟨h2, rfl⟩⟩, fun _ hc => by rw [h2] at hc; simp at hc⟩
    | point h1 h2 h3 h4 =>
      have h5 := (hintFloat_iff hd).1 h4
      exact ⟨.inl ⟨hcol.2 h1, .inr (either_of_number hd h5)⟩, fun _ hc => absurd hc (number_no_comma hd h5)⟩
    | comma h1 h2 h3 h4 => exact ⟨.inl ⟨hcol.2 h1, .inr ((hintFloat_iff hd).1 h4)⟩, fun _ _ => (commaLine hd).1 h3⟩
    | text h1 h2 h3 =>
      have h4 : ¬ NumberColumn h dec first j := fun h4 => (hcol.1 h4).elim h1 h2
      exact ⟨.inr ⟨h4, h3⟩, fun h5 => absurd h5 h4⟩
  · rintro ⟨hf, hc⟩
    rcases hf with ⟨h1, h2⟩ | ⟨h1, h2⟩
    · have h3 := hcol.1 h1
      by_cases hs : s = []
      · have hno : ∀ w, ¬ EitherNumber h dec s w := by
          intro w hw
          have := (hintFloat_iff hd).2 hw
          rw [hs] at this
          have e : h.float dec (pointed []) = none := by cases h <;> rfl
          rw [e] at this; simp at this
        rcases h2 with ⟨-, rfl⟩ | h2
        · exact .missing h3 hs
        · exact absurd h2 (hno v)
      · have h2 : EitherNumber h dec s v := h2.elim (fun h => absurd h.1 hs) id
        by_cases hy : ∃ y ∈ first, IsCommaNum (h.float dec) y
        · exact .comma h3 hs hy ((hintFloat_iff hd).2 h2)
        · have hn : ',' ∉ s := fun h0 => hy ((commaLine hd).2 (hc h1 h0))
          unfold EitherNumber at h2
          rw [pointed_same hn] at h2
          exact .point h3 hs hy ((hintFloat_iff hd).2 h2)
    · exact .text (fun h3 => h1 (hcol.2 (.inl h3))) (fun h3 => h1 (hcol.2 (.inr h3))) h2

theorem cellMeans_iff {strip : Bool} {first : List (List Char)} {j : Nat} {s : List Char} {v : Val} (hj : j < first.length) :
    CellMeans' (h.float dec) h strip [] first j s v ↔ FieldIs h dec strip first j s v ∧
      (NumberColumn h dec first j → ',' ∈ s → ∃ y ∈ first, ',' ∈ y ∧ ∃ v, EitherNumber h dec y v) := by
  unfold CellMeans'
  have hx : first[j]? = some first[j] := List.getElem?_eq_getElem hj
  simp only [List.not_mem_nil, false_and, exists_false, not_false_eq_true, implies_true, true_and, false_or]
  constructor
  · rintro ⟨x, h1, h2⟩; exact (fieldMeans_iff hd h1).1 h2
  · intro h1; exact ⟨_, hx, (fieldMeans_iff hd hx).2 h1⟩
end

/-- C88 for tables in which the decimal comma, if used, is seen in the first line of data: numbers are read as such,
with a decimal point or comma, in any script, missing ones as nan, all else as text.  Missing: tables in which a
comma is first met in a later line, for which `C88_exact` has the answer. -/
theorem C88_numbers_understood_partial : NumbersUnderstood false := by
  intro dec hd h f a skipped rest first fs rs hl ha hsk hf hr hm hc
  obtain ⟨ha1, ha2, ha3, ha4, ha5⟩ := ha
  obtain ⟨h1, h2⟩ := C41_column_types (h.float dec) h f a skipped rest first fs rs hl ⟨ha1, ha2, ha3, ha4⟩ hsk hf hr
    (by rw [ha5]; exact ⟨List.nodup_nil, by simp⟩)
  rw [ha5] at h1 h2
  obtain ⟨⟨data, names⟩, hok⟩ := h1.2 (by
    intro r hr' j s hj hs
    obtain ⟨v, hv⟩ := hm r hr' j s hj hs
    exact ⟨v, (cellMeans_iff hd hj).2 ⟨hv, fun h3 h4 => hc rfl ⟨r, hr', j, s, h3, hs, h4⟩⟩⟩)
  obtain ⟨rfl, h3, h4⟩ := h2 data names hok
  refine ⟨data, hok, h3, fun j col hcol => ?_⟩
  obtain ⟨h5, h6⟩ := h4 j col hcol
  refine ⟨h5, fun i r s hr' hs => ?_⟩
  obtain ⟨v, h7, h8⟩ := h6 i r s hr' hs
  obtain ⟨j', hj', hall⟩ := (h3 j).1 ⟨col, hcol⟩
  have hj : j < fs.length := by
    have := hall fs (List.mem_cons_self ..)
    omega
  exact ⟨v, h7, ((cellMeans_iff hd hj).1 h8).1⟩

/-- A table is read exactly if its fields mean something and the decimal comma, when used, is seen in the first line
of data. -/
theorem C88_exact {dec : Char → Option Nat} (hd : Decimals dec) (h : Hint) (f : TFile) (a : TextArgs)
    (skipped rest : List (List Char)) (first : List Char) (fs : List (List Char)) (rs : List (List (List Char)))
    (hl : LinesOf (f.chars.drop f.pos) (skipped ++ first :: rest))
    (ha : a.names = [] ∧ a.hasnames = false ∧ a.usecols = none ∧ a.debug = false ∧ a.converters = [])
    (hsk : a.skiprows = skipped.length)
    (hf : HasFields (White h) a.delimiter first fs) (hr : Rows (White h) a.delimiter rest rs) :
    (∃ p, textpack (h.float dec) h f a = .ok p) ↔ Meaningful h dec a.stripstrings fs rs ∧ CommaFirst h dec fs rs := by
  constructor
  · intro hok
    obtain ⟨ha1, ha2, ha3, ha4, ha5⟩ := ha
    have h1 := (C41_column_types (h.float dec) h f a skipped rest first fs rs hl ⟨ha1, ha2, ha3, ha4⟩ hsk hf hr
      (by rw [ha5]; exact ⟨List.nodup_nil, by simp⟩)).1.1 hok
    rw [ha5] at h1
    refine ⟨fun r hr' j s hj hs => ?_, ?_⟩
    · obtain ⟨v, hv⟩ := h1 r hr' j s hj hs
      exact ⟨v, ((cellMeans_iff hd hj).1 hv).1⟩
    rintro ⟨r, hr', j, s, hcol, hs, hc⟩
    have hj : j < fs.length := by
      obtain ⟨x, v, hx, -⟩ := hcol
      exact (List.getElem?_eq_some_iff.1 hx).1
    obtain ⟨v, hv⟩ := h1 r hr' j s hj hs
    exact ((cellMeans_iff hd hj).1 hv).2 hcol hc
  · rintro ⟨hm, hc⟩
    obtain ⟨data, h1, -⟩ := C88_numbers_understood_partial dec hd h f a skipped rest first fs rs hl ha hsk hf hr hm fun _ => hc
    exact ⟨_, h1⟩

/-! ### Examples and counterexamples -/

/-- The number in a field. -/
theorem either_text {s : List Char} {v : Val} (h : (Hint.text).float asciiDec (pointed s) = some v) : EitherNumber .text asciiDec s v :=
  (hintFloat_iff asciiDec_decimals).1 h

theorem one_word {w : List Char} (hne : w ≠ []) (hw : ∀ c ∈ w, pySpace c = false) :
    HasFields (White .text) none (w ++ ['\n']) [w] := by
  refine .white (by simp) ?_
  have := Words.cons (ws := White .text) (w := []) (f := w) (fs := []) (rest := ['\n']) (by simp) hne
    (fun c hc h => by have h' : pySpace c = true := h; rw [hw c hc] at h'; simp at h')
    (fun c hc => by simp at hc; subst hc; show pySpace _ = true; decide)
    (.nil (fun c hc => by simp at hc; subst hc; show pySpace _ = true; decide))
  simpa using this

/-- A column of numbers, whole ones in the first line. -/
theorem exComma_meaningful : Meaningful .text asciiDec false [['1']] [["1,5".toList]] := by
  have hcol : NumberColumn .text asciiDec [['1']] 0 := ⟨_, .flt 1, rfl, either_text (by decide +kernel)⟩
  intro r hr j s hj hs
  have hj : j = 0 := by simpa using hj
  subst hj
  simp only [List.mem_cons, List.not_mem_nil, or_false] at hr
  rcases hr with rfl | rfl
  · have : s = ['1'] := (Option.some.inj hs).symm
    subst this
    exact ⟨.flt 1, .inl ⟨hcol, .inr (either_text (by decide +kernel))⟩⟩
  · have : s = "1,5".toList := (Option.some.inj hs).symm
    subst this
    exact ⟨.flt (3 / 2), .inl ⟨hcol, .inr (either_text (by decide +kernel))⟩⟩

/-- C88 is false as it stands: `1` and below it `1,5`.  The other way round they are read. -/
theorem C88_counterexample : ¬ NumbersUnderstood true ∧
    textpack ((Hint.text).float asciiDec) .text ⟨"1\n1,5\n".toList, 0⟩ {} = .error .valueError ∧
    textpack ((Hint.text).float asciiDec) .text ⟨"1,5\n1\n".toList, 0⟩ {} = .ok ([(0, [.flt (3 / 2), .flt 1])], []) := by
  have he : textpack ((Hint.text).float asciiDec) .text ⟨"1\n1,5\n".toList, 0⟩ {} = .error .valueError := by decide +kernel
  refine ⟨fun hall => ?_, he, by decide +kernel⟩
  obtain ⟨data, h1, -⟩ := hall asciiDec asciiDec_decimals .text ⟨"1\n1,5\n".toList, 0⟩ {} [] ["1,5\n".toList] "1\n".toList [['1']]
    [["1,5".toList]] (.cons (l := ['1']) (by decide) (.cons (l := "1,5".toList) (by decide) .nil)) ⟨rfl, rfl, rfl, rfl, rfl⟩ rfl
    (one_word (w := ['1']) (by decide) (by decide))
    (.row (one_word (w := "1,5".toList) (by decide) (by decide)) .nil) exComma_meaningful (by simp)
  rw [he] at h1
  cases h1

/-- Words that are numbers to `float` make a column of numbers, in which other words are errors. -/
theorem C88_words :
    TextNumber .text asciiDec "Infinity".toList (.inf false) ∧ TextNumber .text asciiDec "nan".toList .nan ∧
    TextNumber .text asciiDec "1_000".toList (.flt 1000) ∧
    textpack ((Hint.text).float asciiDec) .text ⟨"inf\nsup\n".toList, 0⟩ {} = .error .valueError ∧
    textpack ((Hint.text).float asciiDec) .text ⟨"sup\ninf\n".toList, 0⟩ {} = .ok ([(0, [.str "sup".toList, .str "inf".toList])], []) := by
  refine ⟨(hintFloat_iff asciiDec_decimals).1 ?_, (hintFloat_iff asciiDec_decimals).1 ?_, (hintFloat_iff asciiDec_decimals).1 ?_, ?_, ?_⟩ <;>
    decide +kernel

/-- A missing number is nothing at all between delimiters; a blank there is an error. -/
theorem C88_blank :
    textpack ((Hint.text).float asciiDec) .text ⟨"1;2;3\n4;;6\n".toList, 0⟩ { delimiter := some [';'] } =
      .ok ([(0, [.flt 1, .flt 4]), (1, [.flt 2, .nan]), (2, [.flt 3, .flt 6])], []) ∧
    textpack ((Hint.text).float asciiDec) .text ⟨"1;2;3\n4; ;6\n".toList, 0⟩ { delimiter := some [';'] } = .error .valueError := by
  constructor <;> decide +kernel

/-- The hypotheses of the partial theorem can be met, with commas: `1,5` and below it `1`. -/
example : Meaningful .text asciiDec false ["1,5".toList] [[['1']]] ∧ CommaFirst .text asciiDec ["1,5".toList] [[['1']]] := by
  have hcol : NumberColumn .text asciiDec ["1,5".toList] 0 := ⟨_, .flt (3 / 2), rfl, either_text (by decide +kernel)⟩
  refine ⟨fun r hr j s hj hs => ?_, fun _ => ⟨"1,5".toList, by simp, by decide, .flt (3 / 2), either_text (by decide +kernel)⟩⟩
  have hj : j = 0 := by simpa using hj
  subst hj
  simp only [List.mem_cons, List.not_mem_nil, or_false] at hr
  rcases hr with rfl | rfl
  · have : s = "1,5".toList := (Option.some.inj hs).symm
    subst this
    exact ⟨.flt (3 / 2), .inl ⟨hcol, .inr (either_text (by decide +kernel))⟩⟩
  · have : s = ['1'] := (Option.some.inj hs).symm
    subst this
    exact ⟨.flt 1, .inl ⟨hcol, .inr (either_text (by decide +kernel))⟩⟩

end CP
