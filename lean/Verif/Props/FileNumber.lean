import Verif.Spec.FileNumber
import Verif.Props.PyFloat
import Verif.Props.Dbf
import Verif.Props.XlsxSheet
/-!
# C84: decimal numbers in dbf and xlsx files
-/

namespace CP
open Spec

theorem f64Val_floatOf {w : Rat} {v : Val} (h : FloatOf w v) : f64Val w = v := by
  cases h with
  | nearest h1 h2 => exact f64Val_nearest h1 h2
  | written h1 h2 h3 => exact f64Val_17 h1 h2 h3
  | over h1 => unfold f64Val; rw [if_pos h1]

theorem white_char {x : UInt8} (h : IsWhite x) : pySpace (Char.ofNat x.toNat) = true := by
  have : ∀ n : Fin 256, byteSpace (UInt8.ofNat n) = true → pySpace (Char.ofNat (UInt8.ofNat n).toNat) = true := by decide +kernel
  have h1 := this ⟨x.toNat, x.toNat_lt⟩
  simp only [UInt8.ofNat_toNat] at h1
  exact h1 (byteSpace_iff.2 h)

/-- The ends of a numeral are not white. -/
theorem numeral_not_white {n : Bytes} {w : Rat} (h : NumeralIs asciiDec (n.map fun x => Char.ofNat x.toNat) w) :
    n ≠ [] ∧ ∀ x ∈ n, ¬ IsWhite x := by
  have hch := numeral_chars h
  constructor
  · rintro rfl
    obtain ⟨sg, f, a, pt, b, ex, k, -, -, -, h4, -, -, h7, -⟩ := h
    simp only [List.map_nil] at h7
    have := congrArg List.length h7
    simp only [List.length_append, List.length_nil] at this
    apply h4
    apply List.eq_nil_of_length_eq_zero
    rw [List.length_append]; omega
  · intro x hx hw
    have h1 := (numChar_facts (hch _ (List.mem_map_of_mem hx))).1
    rw [white_char hw] at h1
    cases h1

theorem floatBytes_numeral {b : Bytes} {w : Rat} (h : NumeralBytes b w) : floatBytes b = .ok (f64Val w) := by
  obtain ⟨l, n, r, rfl, hl, hr, hn⟩ := h
  obtain ⟨h1, h2⟩ := numeral_not_white hn
  unfold floatBytes
  rw [stripB_pad h1 hl hr (fun x hx => h2 x (List.mem_of_mem_head? hx)) (fun x hx => h2 x (List.mem_of_getLast? hx)),
    floatText_numeral hn]

theorem cellHolds_means {c : DbfColumn} {raw : Bytes} {v : Val} (h : CellHolds c raw v) : CellMeans floatBytes c raw v := by
  rcases h with ⟨w, ⟨h1, h2, h3⟩ | ⟨h1, h3⟩, hv⟩ | h
  · obtain ⟨l, n, r, e, hl, hr, hn⟩ := h3
    obtain ⟨k1, k2⟩ := numeral_not_white hn
    refine .decimal (w := l) (ds := n ++ r) h1 h2 (by rw [e, List.append_assoc]) hl ?_ ?_
    · cases n with
      | nil => exact absurd rfl k1
      | cons x n => exact ⟨x, rfl, k2 x (List.mem_cons_self ..)⟩
    · rw [floatBytes_numeral (b := n ++ r) ⟨[], n, r, rfl, by simp [BlankField], hr, hn⟩, f64Val_floatOf hv]
  · refine .float h1 ?_ (by rw [floatBytes_numeral h3, f64Val_floatOf hv])
    obtain ⟨l, n, r, rfl, hl, hr, hn⟩ := h3
    obtain ⟨k1, k2⟩ := numeral_not_white hn
    intro hb
    cases n with
    | nil => exact k1 rfl
    | cons x n => exact k2 x (List.mem_cons_self ..) (hb x (by simp))
  · cases h with
    | noNumber a b => exact .noNumber a b
    | integer a b c => exact .integer a b c
    | decimal _ _ _ _ _ h => cases h
    | noDate a b => exact .noDate a b
    | date a b c d e f g h => exact .date a b c d e f g h
    | true a b => exact .true a b
    | false a b => exact .false a b
    | unknown a b c => exact .unknown a b c
    | noFloat a b => exact .noFloat a b
    | float _ _ h => cases h
    | text a b c d e f => exact .text a b c d e f

theorem each2_mono {α β : Type} {R S : α → β → Prop} (hi : ∀ a b, R a b → S a b) {as : List α} {bs : List β}
    (h : Each2 R as bs) : Each2 S as bs := by
  induction h with
  | nil => exact .nil
  | cons h1 _ ih => exact .cons (hi _ _ h1) ih

/-- C84: a dbf file as a whole, decimal numbers included, whatever `float` reads: the values are the floats nearest to
the numerals in the file, and the very floats that were written if with 17 significant digits. -/
theorem C84_dbf_numbers (file : Bytes) (cols : List DbfColumn) (rows : List DbfRow) (vals : List (List Val))
    (h : IsDbf file cols rows) (hv : Each2 (RowHolds cols) (rows.filter (·.Live)) vals) :
    ∃ data names, dbfpack floatBytes { bytes := file, pos := 0 } [] = .ok (data, names) ∧
      (∀ k s, dget names k = some s ↔ ∃ j : Nat, k = j ∧ ∃ c, cols[j]? = some c ∧ s = c.name) ∧
      (∀ k col, dget data k = some col ↔ ∃ j : Nat, k = j ∧ j < cols.length ∧ vals ≠ [] ∧
        col.length = vals.length ∧ ∀ i : Nat, col[i]? = (vals[i]?).bind (·[j]?)) :=
  C24_dbf_decoded floatBytes file cols rows vals h
    (each2_mono (fun _ _ hr => each2_mono (fun _ _ hc => cellHolds_means hc) hr) hv)

/-- C84: a cell of numbers in an xlsx file with a numeral in it shows the float nearest to it, or the very float that
was written if with 17 significant digits, and nothing else.  Sheets and books are made of such cells (C61, C64). -/
theorem C84_xlsx_numbers {dec : Char → Option Nat} (hd : Decimals dec) {E : XlEnv} (hE : E.float = xlFloat dec)
    {sst : List (List Char)} {xfMap : List (Int × Nat)} {R : Reading} (hf : Fits E sst xfMap R)
    {cell e : Elem} {xf ty : Nat} {l n r : List Char} {w : Rat} {v : Val} (h1 : NumberTag cell) (h2 : HasValue cell e)
    (h3 : e.text = some (l ++ n ++ r)) (hl : ∀ c ∈ l, NumBlank c) (hr : ∀ c ∈ r, NumBlank c)
    (hn : NumeralIs dec n w) (hv : FloatOf w v) (ht : R.typeOf xf = some ty) (p : Option PutCell) :
    Shows R cell xf p ↔ p = some ⟨ty, v, xf⟩ := by
  have hs : Shows R cell xf (some ⟨ty, v, xf⟩) := by
    refine .number h1 h2 h3 ?_ ?_ ht
    · intro h0
      obtain ⟨sg, f, a, pt, b, ex, k, -, -, -, h4, -, -, rfl, -⟩ := hn
      have := congrArg List.length h0
      simp only [List.length_append, List.length_nil] at this
      apply h4
      apply List.eq_nil_of_length_eq_zero
      rw [List.length_append]; omega
    · rw [hf.float, hE]
      unfold xlFloat
      rw [pyFloat_numeral hd hl hr hn, f64Val_floatOf hv]
  constructor
  · intro h
    have := shows_content hf h
    rw [shows_content hf hs] at this
    exact (Except.ok.inj this).symm
  · rintro rfl; exact hs

/-! ## Examples -/

/-- A column of type F and one of type N with two decimals. -/
def exNumCols : List DbfColumn := [⟨['X'], 70, 5, 1⟩, ⟨['Y'], 78, 6, 2⟩]

/-- ` -1.5`, and `1.25` after two blanks; then a blank and ` .5e0` with a NUL. -/
def exNumRows : List DbfRow :=
  [⟨32, [[32, 45, 49, 46, 53], [32, 32, 49, 46, 50, 53]]⟩, ⟨32, [[32, 32, 32, 32, 32], [32, 0, 46, 53, 101, 48]]⟩]

theorem exNum_double {x : Rat} (m e : Int) (h1 : -(2 ^ 53) < m ∧ m < 2 ^ 53) (h2 : -1074 ≤ e) (h3 : x = (m : Rat) * 2 ^ e) :
    IsDouble x := ⟨m, e, by omega, h2, h3⟩

example : IsDbf (exFile exNumCols exNumRows) exNumCols exNumRows :=
  exFile_isDbf (by decide) (by decide)
    (by
      intro r hr
      simp only [exNumRows, List.mem_cons, List.not_mem_nil, or_false] at hr
      rcases hr with rfl | rfl <;> exact .cons rfl (.cons rfl .nil))
    (by decide)

theorem exNum_self {x : Rat} (h : IsDouble x) (hm : x.abs < 2 ^ 1024 - 2 ^ 970) : FloatOf x (.flt x) :=
  .nearest (f64_eq_iff.1 (f64_of_double h)) hm

example : Each2 (RowHolds exNumCols) (exNumRows.filter (·.Live))
    [[.flt (-3 / 2), .flt (5 / 4)], [.nan, .flt (1 / 2)]] := by
  have hb : ∀ k, BlankField (List.replicate k 32) := fun k x hx => .inl (List.eq_of_mem_replicate hx)
  have n1 : NumeralIs asciiDec "-1.5".toList (-3 / 2) :=
    ⟨['-'], -1, ['1'], ['.'], ['5'], [], 0, .inr (.inr ⟨rfl, rfl⟩), (by unfold IsDigits; decide), (by unfold IsDigits; decide), (by decide), .inl rfl, .inl ⟨rfl, rfl⟩, rfl,
      (by decide +kernel)⟩
  have n2 : NumeralIs asciiDec "1.25".toList (5 / 4) :=
    ⟨[], 1, ['1'], ['.'], ['2', '5'], [], 0, .inl ⟨rfl, rfl⟩, (by unfold IsDigits; decide), (by unfold IsDigits; decide), (by decide), .inl rfl, .inl ⟨rfl, rfl⟩, rfl,
      (by decide +kernel)⟩
  have n3 : NumeralIs asciiDec ".5e0".toList (1 / 2) :=
    ⟨[], 1, [], ['.'], ['5'], ['e', '0'], 0, .inl ⟨rfl, rfl⟩, (by unfold IsDigits; decide), (by unfold IsDigits; decide), (by decide), .inl rfl,
      .inr ⟨'e', [], 1, ['0'], .inl rfl, .inl ⟨rfl, rfl⟩, (by decide), (by unfold IsDigits; decide), rfl, (by decide)⟩, rfl, (by decide +kernel)⟩
  have f1 : FloatOf (-3 / 2) (.flt (-3 / 2)) := exNum_self (exNum_double (-3) (-1) (by decide) (by decide) (by decide +kernel)) (by decide +kernel)
  have f2 : FloatOf (5 / 4) (.flt (5 / 4)) := exNum_self (exNum_double 5 (-2) (by decide) (by decide) (by decide +kernel)) (by decide +kernel)
  have f3 : FloatOf (1 / 2) (.flt (1 / 2)) := exNum_self (exNum_double 1 (-1) (by decide) (by decide) (by decide +kernel)) (by decide +kernel)
  refine .cons (.cons (.inl ⟨_, .inr ⟨rfl, [32], [45, 49, 46, 53], [], rfl, hb 1, hb 0, n1⟩, f1⟩)
      (.cons (.inl ⟨_, .inl ⟨rfl, (by decide), [32, 32], [49, 46, 50, 53], [], rfl, hb 2, hb 0, n2⟩, f2⟩) .nil))
    (.cons (.cons (.inr (.noFloat rfl (hb 5)))
      (.cons (.inl ⟨_, .inl ⟨rfl, (by decide), [32], [46, 53, 101, 48], [], rfl, hb 1, hb 0, n3⟩, f3⟩) .nil)) .nil)

-- what the model computes for it
example : dbfpack floatBytes { bytes := exFile exNumCols exNumRows, pos := 0 } [] =
    .ok ([(0, [.flt (-3 / 2), .nan]), (1, [.flt (5 / 4), .flt (1 / 2)])], [(0, ['X']), (1, ['Y'])]) := by decide +kernel

/-- Python for the examples of C61, with its `float`. -/
def exNumXl : XlEnv := { exXl with float := xlFloat asciiDec }

-- a cell with the number 0.5
example : ∃ R, Fits exNumXl [] [(0, 2)] R ∧ R.typeOf 0 = some 2 ∧
    NumberTag (exElem (ssml ['c']) [] [exV "0.5".toList]) ∧ HasValue (exElem (ssml ['c']) [] [exV "0.5".toList]) (exV "0.5".toList) ∧
    NumeralIs asciiDec "0.5".toList (1 / 2) ∧ FloatOf (1 / 2) (.flt (1 / 2)) :=
  ⟨⟨xlFloat asciiDec, [], fun n => dget [(0, 2)] (n : Int)⟩, ⟨⟨exXl_laws.upper, exXl_laws.same, exXl_laws.digits, exXl_laws.empty, exXl_laws.letters⟩, rfl, rfl, fun _ => rfl⟩, rfl,
    .inl rfl, ⟨[], [], rfl, rfl, by simp⟩,
    ⟨[], 1, ['0'], ['.'], ['5'], [], 0, .inl ⟨rfl, rfl⟩, (by unfold IsDigits; decide), (by unfold IsDigits; decide), (by decide), .inl rfl, .inl ⟨rfl, rfl⟩, rfl,
      (by decide +kernel)⟩,
    exNum_self (exNum_double 1 (-1) (by decide) (by decide) (by decide +kernel)) (by decide +kernel)⟩

end CP
