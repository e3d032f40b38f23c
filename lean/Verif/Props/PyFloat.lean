import Verif.Lemmas.PyFloat
import Verif.Props.Lazy
/-!
# C83: numbers in text files
-/

namespace CP
open Spec

/-- Every number is a numeral. -/
theorem number_numeral {dec : Char → Option Nat} {n : List Char} (h : IsNumber (fun c => (dec c).isSome) '.' n) :
    ∃ w, NumeralIs dec n w := by
  obtain ⟨sg, m, ex, h1, h2, h3, rfl⟩ := h
  have hs : ∀ s, Sign s → ∃ f, SignIs s f := by
    rintro s (rfl | rfl | rfl)
    · exact ⟨1, .inl ⟨rfl, rfl⟩⟩
    · exact ⟨-1, .inr (.inr ⟨rfl, rfl⟩)⟩
    · exact ⟨1, .inr (.inl ⟨rfl, rfl⟩)⟩
  obtain ⟨f, hf⟩ := hs sg h1
  obtain ⟨k, hk⟩ : ∃ k, ExponentIs dec ex k := by
    rcases h3 with rfl | ⟨e, s, ds, he, hs', hds, rfl⟩
    · exact ⟨0, .inl ⟨rfl, rfl⟩⟩
    · obtain ⟨g, hg⟩ := hs s hs'
      exact ⟨_, .inr ⟨e, s, g, ds, he, hg, hds.1, hds.2, rfl, rfl⟩⟩
  rcases h2 with h2 | ⟨a, b, ha, hb, rfl⟩ | ⟨b, hb, rfl⟩
  · exact ⟨_, sg, f, m, [], [], ex, k, hf, h2.2, by simp [IsDigits], by simpa using h2.1, .inr ⟨rfl, rfl⟩, hk, by simp, rfl⟩
  · exact ⟨_, sg, f, a, ['.'], b, ex, k, hf, ha.2, hb, by simp [ha.1], .inl rfl, hk, by simp, rfl⟩
  · exact ⟨_, sg, f, [], ['.'], b, ex, k, hf, by simp [IsDigits], hb.2, by simpa using hb.1, .inl rfl, hk, by simp, rfl⟩

theorem decimals_class {dec : Char → Option Nat} (hd : Decimals dec) : DigitClass (fun c => (dec c).isSome) := by
  constructor
  · intro c hc
    have h1 : c.toNat < 128 ∧ ¬ ('0' ≤ c ∧ c ≤ '9') := by
      simp only [List.mem_cons, List.not_mem_nil, or_false] at hc
      rcases hc with rfl | rfl | rfl | rfl | rfl | rfl <;> decide
    dsimp only; rw [hd.ascii c h1.1, if_neg h1.2]; rfl
  · intro c hc
    dsimp only; rw [hd.space c hc]; rfl

theorem pyFloat_reads {dec : Char → Option Nat} (hd : Decimals dec) :
    FloatReads (pyFloat dec) (fun c => (dec c).isSome) (fun n => (pyFloat dec n).getD .nan) := by
  intro a n b ha hn hb
  obtain ⟨w, hw⟩ := number_numeral hn
  have hsp : ∀ s, AsciiBlank s → ∀ c ∈ s, NumBlank c := fun s hs c hc => floatSpace_iff.1 (whites_floatSpace (hs c hc))
  rw [pyFloat_numeral hd (hsp a ha) (hsp b hb) hw]
  have := pyFloat_numeral hd (a := []) (b := []) (by simp) (by simp) hw
  rw [List.nil_append, List.append_nil] at this
  dsimp only; rw [this]; rfl

/-- The largest float. -/
theorem double_max {x : Rat} (hx : IsDouble x) (h : x.abs < 2 ^ 1024) : x.abs ≤ 2 ^ 1024 - 2 ^ 971 := by
  obtain ⟨k, hk, hk2⟩ : ∃ k : Int, x.abs ≤ (k : Rat) * 2 ^ (971 : Int) ∧ k < 2 ^ 53 := by
    obtain ⟨m, e, hm, he, rfl⟩ := hx
    rcases Int.lt_or_le e 971 with h1 | h1
    · refine ⟨2 ^ 53 - 1, ?_, by omega⟩
      have h2 := two_zpow_mono (Int.le_of_lt h1)
      have h3 := two_zpow_pos e
      have h4 : (m : Rat).abs ≤ ((2 ^ 53 - 1 : Int) : Rat) := by
        rcases abs_cases (m : Rat) with ⟨c1, c2⟩ | ⟨c1, c2⟩ <;> rw [c2]
        · exact Rat.intCast_le_intCast.2 (by omega)
        · rw [← Rat.intCast_neg]; exact Rat.intCast_le_intCast.2 (by omega)
      rw [abs_mul_pos h3]
      refine Rat.le_trans (Rat.mul_le_mul_of_nonneg_right h4 (Rat.le_of_lt h3)) ?_
      exact Rat.mul_le_mul_of_nonneg_left h2 (by decide +kernel)
    · obtain ⟨k, hk⟩ := multiple (m := m) h1
      rw [hk] at h ⊢
      rw [abs_mul_pos (two_zpow_pos _)] at h ⊢
      have h5 : (k : Rat).abs = ((k.natAbs : Int) : Rat) := by
        rcases abs_cases (k : Rat) with ⟨c1, c2⟩ | ⟨c1, c2⟩ <;> rw [c2]
        · have := Rat.intCast_nonneg.1 c1
          congr 1; omega
        · have : k ≤ 0 := Rat.intCast_le_intCast.1 c1
          rw [← Rat.intCast_neg]; congr 1; omega
      refine ⟨k.natAbs, by rw [h5]; exact Rat.le_refl, ?_⟩
      rw [h5] at h
      rcases Int.lt_or_le (k.natAbs : Int) (2 ^ 53) with h6 | h6
      · exact h6
      · have := Rat.mul_le_mul_of_nonneg_right (Rat.intCast_le_intCast.2 h6) (Rat.le_of_lt (two_zpow_pos 971))
        rw [show (((2 ^ 53 : Int) : Rat) * 2 ^ (971 : Int)) = 2 ^ 1024 by decide +kernel] at this
        exact absurd h (Rat.not_lt.2 this)
  have h1 : (k : Rat) ≤ ((2 ^ 53 - 1 : Int) : Rat) := Rat.intCast_le_intCast.2 (by omega)
  have h2 := Rat.mul_le_mul_of_nonneg_right h1 (Rat.le_of_lt (two_zpow_pos 971))
  rw [show (((2 ^ 53 - 1 : Int) : Rat) * 2 ^ (971 : Int)) = 2 ^ 1024 - 2 ^ 971 by decide +kernel] at h2
  exact Rat.le_trans hk h2

theorem f64Val_nearest {y w : Rat} (h : NearestDouble y w) (hw : w.abs < 2 ^ 1024 - 2 ^ 970) : f64Val w = .flt y := by
  unfold f64Val
  rw [if_neg (Rat.not_le.2 hw), f64_eq_iff.2 h]

theorem f64Val_17 {x w : Rat} (hx : IsDouble x) (hm : x.abs < 2 ^ 1024) (h : To17Digits w x) : f64Val w = .flt x := by
  have h1 := to17_close h
  have h2 := f64_of_close hx h1
  refine f64Val_nearest (f64_eq_iff.1 h2) ?_
  have h3 := double_max hx hm
  have e1 : (2 : Rat) ^ 1024 = 2 ^ 54 * 2 ^ 970 := by decide +kernel
  have e2 : (2 : Rat) ^ 971 = 2 * 2 ^ 970 := by decide +kernel
  rw [e1, e2] at h3
  rw [e1]
  have e3 : (0 : Rat) < 2 ^ 970 := by decide +kernel
  generalize (2 : Rat) ^ 970 = P at *
  rcases abs_cases (w - x) with ⟨c1, c2⟩ | ⟨c1, c2⟩ <;> rw [c2] at h1 <;>
    rcases abs_cases x with ⟨c3, c4⟩ | ⟨c3, c4⟩ <;> rw [c4] at h1 h3 <;>
    rcases abs_cases w with ⟨c5, c6⟩ | ⟨c5, c6⟩ <;> rw [c6] <;> grind

theorem tableRows_numbers {dig : Char → Bool} {point : Char} {sep : Option (List Char)} {k : Nat} {ls : List (List Char)}
    {rows : List (List (List Char))} (h : TableRows dig point sep k ls rows) : ∀ row ∈ rows, ∀ m ∈ row, IsNumber dig point m := by
  induction h with
  | nil => simp
  | blank _ _ ih => exact ih
  | row _ hr _ ih =>
    intro row h
    rcases List.mem_cons.1 h with rfl | h
    · intro m hm
      unfold RowLine at hr
      split at hr
      · obtain ⟨_, _, _, _, _, h1, _⟩ := hr
        exact h1 m hm
      · obtain ⟨_, n, _, _, h1, _, h2, _⟩ := hr
        rw [h1, List.mem_singleton] at hm
        rw [hm]; exact h2
    · exact ih row h

/-- C83: the numbers of a table in a text file, read by `lazy_textpack` with the `float` of python, are the
floats nearest to what is written, and the floats that were written if with 17 significant digits or more.
The table is as for C57; digits may be of any script. -/
theorem C83_numbers_in_text {dec : Char → Option Nat} (hd : Decimals dec) (ff : List Char → Bool)
    {point : Char} {codec : Option Codec} {f : TFile} (n : Nat)
    {head pre more : List (List Char)} {last : List Char} {sep : Option (List Char)} {k : Nat}
    {rows : List (List (List Char))} (hpos : f.pos = 0)
    (hl : LinesOf f.chars (head ++ (pre ++ [last]) ++ more))
    (hn : (head ++ (pre ++ [last])).length ≤ n)
    (hmore : ∀ l ∈ more.take (n - (head ++ (pre ++ [last])).length), Blank l)
    (ht : TableRows (fun c => (dec c).isSome) point sep k (pre ++ [last] ++ more) rows) (hb : ∀ l ∈ pre ++ [last], ¬ Blank l)
    (hk : if sep = none then k = 1 else 2 ≤ k)
    (hhead : ∀ l, head.getLast? = some l → if sep = none then Tokens (fun c => (dec c).isSome) point l [] else
      ∀ s, ¬ OneSep (fun c => (dec c).isSome) point l s)
    (hf : FewerWith (fun c => (dec c).isSome) point last)
    (hcodec : ∀ c, codec = some c → (∀ l ∈ [] :: (head ++ (pre ++ [last]) ++ more), c.decode l = .ok l) ∧
      ∀ s, sep = some s → c.encode s = .ok s) :
    ∃ data found, lazyTextpack (pyFloat dec) (fun c => (dec c).isSome) ff codec f n {} =
        .ok (data, found.map fun p => (p.1, Val.str p.2)) ∧
      FoundNames ff sep k head.reverse found ∧
      (∀ key, (∃ col, dget data key = some col) ↔ 0 ≤ key ∧ key < k) ∧
      ∀ (j : Nat) col, dget data (j : Int) = some col → col.length = rows.length ∧
        ∀ (i : Nat) row m, rows[i]? = some row → row[j]? = some m → 
          (∃ w, NumeralIs dec (pointed m) w) ∧ ∀ w, NumeralIs dec (pointed m) w →
          (2 ^ 1024 - 2 ^ 970 ≤ w.abs → col[i]? = some (.inf (decide (w < 0)))) ∧
          (∀ y, NearestDouble y w → w.abs < 2 ^ 1024 - 2 ^ 970 → col[i]? = some (.flt y)) ∧
          ∀ x, IsDouble x → x.abs < 2 ^ 1024 → To17Digits w x → col[i]? = some (.flt x) := by
  obtain ⟨data, found, h1, h2, h3, h4⟩ := C57_lazy_table (decimals_class hd) ff (pyFloat_reads hd) n hpos hl hn hmore ht hb hk
    hhead hf hcodec
  refine ⟨data, found, h1, h2, h3, fun j col hj => ?_⟩
  obtain ⟨h5, h6⟩ := h4 j col hj
  refine ⟨h5, fun i row m hr hm => ?_⟩
  refine ⟨number_numeral (pointed_number (decimals_class hd) (by
    rw [← fewerWith_point (decimals_class hd) hf]; exact pointOf_cases _ last)
    (tableRows_numbers ht row (List.mem_of_getElem? hr) m (List.mem_of_getElem? hm))), fun w hw => ?_⟩
  have h7 := h6 i row m hr hm
  have h8 := pyFloat_numeral hd (a := []) (b := []) (by simp) (by simp) hw
  rw [List.nil_append, List.append_nil] at h8
  dsimp only at h7
  rw [h8, Option.getD_some] at h7
  refine ⟨fun hw' => by rw [h7]; unfold f64Val; rw [if_pos hw'], fun y hy hw' => ?_, fun x hx hm' h17 => ?_⟩
  · rw [h7, f64Val_nearest hy hw']
  · rw [h7, f64Val_17 hx hm' h17]

/-! ### examples -/

theorem asciiDec_decimals : Decimals asciiDec where
  small c v h := by
    unfold asciiDec at h
    split at h
    · rename_i h1
      have h2 := isDigitC_iff.2 h1
      unfold isDigitC at h2
      simp only [Bool.and_eq_true, decide_eq_true_eq] at h2
      have h3 : c.toNat - 48 = v := Option.some.inj h
      omega
    · simp at h
  ascii _ _ := rfl
  space c h := by
    unfold asciiDec
    rw [if_neg]
    intro h1
    have h2 := isDigitC_iff.2 h1
    unfold isDigitC at h2
    unfold pySpace at h
    simp at h h2
    omega

/-- The float of 0.1 + 0.2, written by python in 17 digits, and the numeral. -/
example : NumeralIs asciiDec "0.30000000000000004".toList (30000000000000004 / 10 ^ 17) ∧
    To17Digits (30000000000000004 / 10 ^ 17) (5404319552844596 / 2 ^ 54) ∧ IsDouble (5404319552844596 / 2 ^ 54) ∧
    pyFloat asciiDec " 0.30000000000000004\n".toList = some (.flt (5404319552844596 / 2 ^ 54)) := by
  have h1 : NumeralIs asciiDec "0.30000000000000004".toList (30000000000000004 / 10 ^ 17) := by
    refine ⟨[], 1, ['0'], ['.'], "30000000000000004".toList, [], 0, .inl ⟨rfl, rfl⟩, ?_, ?_, by decide, .inl rfl, .inl ⟨rfl, rfl⟩, rfl, ?_⟩
    · unfold IsDigits; decide
    · unfold IsDigits; decide
    · decide +kernel
  have h2 : To17Digits (30000000000000004 / 10 ^ 17) (5404319552844596 / 2 ^ 54) := .inr ⟨0, by decide +kernel, by decide +kernel⟩
  have h3 : IsDouble (5404319552844596 / 2 ^ 54) := ⟨5404319552844596, -54, by decide, by decide, by decide +kernel⟩
  refine ⟨h1, h2, h3, ?_⟩
  have := pyFloat_numeral asciiDec_decimals (a := [' ']) (b := ['\n']) (by simp [NumBlank]; decide) (by simp [NumBlank]; decide) h1
  rw [f64Val_17 h3 (by decide +kernel) h2] at this
  exact this

/-- The hypotheses of C83 can be met: a file with one number. -/
example : ∃ data, ∃ found : List (Int × List Char), lazyTextpack (pyFloat asciiDec) (fun c => (asciiDec c).isSome) asciiWord none ⟨"0.1\n".toList, 0⟩ 1 {} =
        .ok (data, found.map fun p => (p.1, Val.str p.2)) ∧
      ∀ col, dget data 0 = some col → col[0]? = some (.flt (3602879701896397 / 2 ^ 55)) := by
  have hnum : IsNumber (fun c => (asciiDec c).isSome) '.' "0.1".toList :=
    ⟨[], "0.1".toList, [], .inl rfl, .inr (.inl ⟨['0'], ['1'], ⟨by decide, by decide⟩, by decide, rfl⟩), .inl rfl, rfl⟩
  obtain ⟨data, found, h1, -, -, h4⟩ := C83_numbers_in_text asciiDec_decimals asciiWord (point := '.') (codec := none)
    (f := ⟨"0.1\n".toList, 0⟩) 1 (head := []) (pre := []) (last := "0.1\n".toList) (more := []) (sep := none) (k := 1)
    (rows := [["0.1".toList]]) rfl (.cons (l := "0.1".toList) (by decide) .nil) (by decide) (by simp)
    (.row rfl ⟨[], _, ['\n'], rfl, rfl, by simp [AsciiBlank], hnum, by unfold AsciiBlank; decide⟩ .nil)
    (by
      intro l hl hb
      simp at hl
      subst hl
      exact absurd (hb '0' (by decide)) (by decide))
    rfl (by simp)
    (fun ds cs h1 h2 => by
      have hd := decimals_class asciiDec_decimals
      rw [if_pos rfl, tokens_unique h1 (findall_tokens hd (.inl rfl) _), tokens_unique h2 (findall_tokens hd (.inr rfl) _)]
      decide)
    (by simp)
  refine ⟨data, found, h1, fun col hc => ?_⟩
  have h5 := ((h4 0 col hc).2 0 _ _ rfl rfl).2 (1 / 10) ?_
  · exact h5.2.1 _ (f64_eq_iff.1 (by decide +kernel)) (by decide +kernel)
  · exact ⟨[], 1, ['0'], ['.'], ['1'], [], 0, .inl ⟨rfl, rfl⟩, by unfold IsDigits; decide, by unfold IsDigits; decide, by decide,
      .inl rfl, .inl ⟨rfl, rfl⟩, rfl, by decide +kernel⟩

end CP
