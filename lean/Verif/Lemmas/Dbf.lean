import Verif.Model.Dbf
import Verif.Spec.Dbf
/-!
# Lemmas about bytes, and reading a DBF file
-/

namespace CP
open Spec

theorem u8_toNat_ofNat {n : Nat} (h : n < 256) : (UInt8.ofNat n).toNat = n := by
  simp [UInt8.toNat_ofNat']; omega

theorem u8_eq_iff {a b : UInt8} : a = b ↔ a.toNat = b.toNat := UInt8.toNat_inj.symm

theorem leNat_leBytes {k n : Nat} (h : n < 256 ^ k) : leNat (leBytes k n) = n := by
  induction k generalizing n with
  | zero => simp at h; simp [leBytes, leNat, h]
  | succ k ih =>
    have h2 : n / 256 < 256 ^ k := by
      rw [Nat.pow_succ, Nat.mul_comm] at h
      exact Nat.div_lt_of_lt_mul h
    simp only [leBytes, leNat]
    rw [ih h2, u8_toNat_ofNat (by omega)]
    omega

theorem leBytes_length (k n : Nat) : (leBytes k n).length = k := by
  induction k generalizing n with
  | zero => rfl
  | succ k ih => simp [leBytes, ih]

theorem read_eq {f : BFile} {a b c : Bytes} {n : Nat} (hf : f.bytes = a ++ b ++ c)
    (hp : f.pos = a.length) (hn : n = b.length) :
    f.read n = (b, { bytes := f.bytes, pos := a.length + b.length }) := by
  unfold BFile.read
  have : (f.bytes.drop f.pos).take n = b := by
    rw [hf, hp, List.append_assoc, List.drop_left, hn, List.take_left]
  simp only [this]
  rw [hp]

theorem byteSpace_iff {b : UInt8} : byteSpace b = true ↔ IsWhite b := by
  simp only [byteSpace, IsWhite, Bool.or_eq_true, beq_iff_eq, Bool.and_eq_true, decide_eq_true_eq,
    UInt8.le_iff_toNat_le]
  simp

/-! ### stripping -/

theorem dropWhile_eq_nil_iff' {α : Type} {p : α → Bool} {l : List α} :
    l.dropWhile p = [] ↔ ∀ x ∈ l, p x = true := by
  induction l with
  | nil => simp
  | cons a l ih =>
    rw [List.dropWhile_cons]
    split
    · rename_i h; rw [ih]; simp [h]
    · rename_i h; simp [h]

theorem lstripB_nil_iff {b : Bytes} : lstripB b = [] ↔ BlankField b := by
  unfold lstripB BlankField
  rw [dropWhile_eq_nil_iff']
  simp only [byteSpace_iff]

theorem mem_dropWhile {α : Type} {p : α → Bool} {l : List α} {x : α} (h : x ∈ l) (hx : p x = false) :
    x ∈ l.dropWhile p := by
  induction l with
  | nil => simp at h
  | cons a l ih =>
    rw [List.dropWhile_cons]
    split
    · rename_i ha
      rcases List.mem_cons.1 h with rfl | h
      · rw [hx] at ha; simp at ha
      · exact ih h
    · exact h

theorem stripB_nil_iff {b : Bytes} : stripB b = [] ↔ BlankField b := by
  unfold stripB
  rw [List.reverse_eq_nil_iff, dropWhile_eq_nil_iff', ← lstripB_nil_iff]
  constructor
  · intro h
    by_cases hb : lstripB b = []
    · exact hb
    · exfalso
      have hh := List.head_dropWhile_not (l := b) byteSpace hb
      have := h _ (List.mem_reverse.2 (List.head_mem hb))
      unfold lstripB at this
      rw [hh] at this; simp at this
  · intro h; simp [h]

theorem dropWhile_append_all {α : Type} {p : α → Bool} {w l : List α} (h : ∀ x ∈ w, p x = true) :
    (w ++ l).dropWhile p = l.dropWhile p := by
  induction w with
  | nil => rfl
  | cons a w ih =>
    rw [List.cons_append, List.dropWhile_cons, if_pos (h a (by simp))]
    exact ih fun x hx => h x (by simp [hx])

theorem dropWhile_of_head {α : Type} {p : α → Bool} {l : List α}
    (h : ∀ x, l.head? = some x → p x = false) : l.dropWhile p = l := by
  cases l with
  | nil => rfl
  | cons a l => rw [List.dropWhile_cons, if_neg (by simp [h a rfl])]

theorem lstripB_pad {w b : Bytes} (hw : BlankField w) (hb : ∀ x, b.head? = some x → ¬ IsWhite x) :
    lstripB (w ++ b) = b := by
  unfold lstripB
  rw [dropWhile_append_all (fun x hx => byteSpace_iff.2 (hw x hx))]
  apply dropWhile_of_head
  intro x hx
  have := hb x hx
  rw [← byteSpace_iff] at this
  simpa using this

theorem stripB_pad {w b w' : Bytes} (hne : b ≠ []) (hw : BlankField w) (hw' : BlankField w')
    (hb : ∀ x, b.head? = some x → ¬ IsWhite x) (hb' : ∀ x, b.getLast? = some x → ¬ IsWhite x) :
    stripB (w ++ b ++ w') = b := by
  unfold stripB
  rw [List.append_assoc, lstripB_pad hw (by
    intro x hx
    cases b with
    | nil => exact absurd rfl hne
    | cons a b => exact hb x (by simpa using hx))]
  rw [List.reverse_append, dropWhile_append_all (by
    intro x hx
    rw [List.mem_reverse] at hx
    exact byteSpace_iff.2 (hw' x hx))]
  rw [dropWhile_of_head, List.reverse_reverse]
  intro x hx
  rw [List.head?_reverse] at hx
  have := hb' x hx
  rw [← byteSpace_iff] at this
  simpa using this

/-! ### integers -/

theorem byteDigit_ofNat {d : Nat} (h : d < 10) : byteDigit (UInt8.ofNat (48 + d)) = some d := by
  unfold byteDigit
  rw [u8_toNat_ofNat (by omega), if_pos (by omega)]
  simp

theorem intDigits_append {ds : Bytes} {n : Nat} (h : ByteDigits ds n) (hne : ds ≠ []) (last : Bool)
    (rest : Bytes) : intDigits 0 last (ds ++ rest) = intDigits n true rest := by
  induction h generalizing rest last with
  | nil => exact absurd rfl hne
  | @snoc ds n d hds hd ih =>
    rw [List.append_assoc]
    by_cases h0 : ds = []
    · subst h0
      have hn : n = 0 := by
        generalize hds0 : ([] : Bytes) = ds0 at hds
        cases hds with
        | nil => rfl
        | snoc _ _ => simp at hds0
      subst hn
      simp only [List.nil_append, List.singleton_append, intDigits, byteDigit_ofNat hd]
    · rw [ih h0 last]
      simp only [List.singleton_append, intDigits, byteDigit_ofNat hd]

theorem intDigits_digits {ds : Bytes} {n : Nat} (h : ByteDigits ds n) (hne : ds ≠ []) :
    intDigits 0 false ds = .ok n := by
  have := intDigits_append h hne false []
  rw [List.append_nil] at this
  rw [this]; simp [intDigits]

theorem digits_mem {ds : Bytes} {n : Nat} (h : ByteDigits ds n) :
    ∀ x ∈ ds, 48 ≤ x.toNat ∧ x.toNat ≤ 57 := by
  induction h with
  | nil => simp
  | snoc _ hd ih =>
    intro x hx
    rcases List.mem_append.1 hx with hx | hx
    · exact ih x hx
    · simp only [List.mem_singleton] at hx
      rw [hx, u8_toNat_ofNat (by omega)]
      omega

theorem not_white_of {x : UInt8} (h : 33 ≤ x.toNat) : ¬ IsWhite x := by
  rintro (h1 | h1)
  · subst h1; simp at h
  · omega

theorem bytesInt_text {b : Bytes} {i : Int} (h : IntText b i) : bytesInt b = .ok i := by
  have hlast : ∀ {ds : Bytes} {n : Nat}, ByteDigits ds n → ∀ x ∈ ds, ¬ IsWhite x := by
    intro ds n hd x hx
    have := digits_mem hd x hx
    exact not_white_of (by omega)
  cases h with
  | @plain w ds w' n hw hw' hne hd =>
    unfold bytesInt
    rw [stripB_pad hne hw hw' (fun x hx => hlast hd x (List.mem_of_mem_head? hx))
      (fun x hx => hlast hd x (List.mem_of_getLast? hx))]
    split
    · have := digits_mem hd 43 (by simp); simp at this
    · have := digits_mem hd 45 (by simp); simp at this
    · rw [intDigits_digits hd hne]
  | @plus w ds w' n hw hw' hne hd =>
    unfold bytesInt
    rw [stripB_pad (b := 43 :: ds) (by simp) hw hw'
      (by intro x hx; simp only [List.head?_cons, Option.some.injEq] at hx; subst hx
          exact not_white_of (by decide))
      (by intro x hx
          rcases List.mem_cons.1 (List.mem_of_getLast? hx) with rfl | hx
          · exact not_white_of (by decide)
          · exact hlast hd x hx)]
    simp only [intDigits_digits hd hne]
  | @minus w ds w' n hw hw' hne hd =>
    unfold bytesInt
    rw [stripB_pad (b := 45 :: ds) (by simp) hw hw'
      (by intro x hx; simp only [List.head?_cons, Option.some.injEq] at hx; subst hx
          exact not_white_of (by decide))
      (by intro x hx
          rcases List.mem_cons.1 (List.mem_of_getLast? hx) with rfl | hx
          · exact not_white_of (by decide)
          · exact hlast hd x hx)]
    simp only [intDigits_digits hd hne]

theorem bytesInt_digits {ds : Bytes} {n : Nat} (h : ByteDigits ds n) (hne : ds ≠ []) :
    bytesInt ds = .ok n := by
  have := bytesInt_text (IntText.plain (w := []) (w' := []) (by simp [BlankField]) (by simp [BlankField]) hne h)
  simpa using this

/-! ### one field -/

theorem asciiDecode_ofNat {s : List Char} (h : ∀ x ∈ s, x.toNat < 128) :
    asciiDecode (s.map fun x => UInt8.ofNat x.toNat) = .ok s := by
  unfold asciiDecode
  rw [if_pos]
  · congr 1
    rw [List.map_map]
    conv => rhs; rw [← List.map_id s]
    apply List.map_congr_left
    intro x hx
    have := h x hx
    simp only [Function.comp, id]
    rw [u8_toNat_ofNat (by omega)]
    exact Char.ofNat_toNat x
  · rw [List.all_eq_true]
    intro b hb
    obtain ⟨x, hx, rfl⟩ := List.mem_map.1 hb
    have := h x hx
    simp only [decide_eq_true_eq]
    rw [u8_toNat_ofNat (by omega)]
    exact this

theorem noNul_blank {b : Bytes} : BlankField (noNul b) ↔ BlankNul b := by
  unfold BlankField noNul BlankNul
  constructor
  · intro h x hx
    by_cases h0 : x = 0
    · exact Or.inr h0
    · exact Or.inl (h x (List.mem_filter.2 ⟨hx, by simpa using h0⟩))
  · intro h x hx
    obtain ⟨hx, h0⟩ := List.mem_filter.1 hx
    rcases h x hx with h | h
    · exact h
    · simp [h] at h0

theorem intText_not_blank {b : Bytes} {i : Int} (h : IntText b i) : ¬ BlankField b := by
  intro hb
  cases h with
  | @plain w ds w' n _ _ hne hd =>
    have hm := List.head_mem hne
    have := hb (ds.head hne) (by simp [hm])
    exact not_white_of (by have := digits_mem hd _ hm; omega) this
  | plus _ _ _ _ => exact not_white_of (by decide) (hb 43 (by simp))
  | minus _ _ _ _ => exact not_white_of (by decide) (hb 45 (by simp))

theorem lstripB_intText {b : Bytes} {i : Int} (h : IntText b i) : IntText (lstripB b) i := by
  cases h with
  | @plain w ds w' n hw hw' hne hd =>
    rw [List.append_assoc, lstripB_pad hw]
    · have := IntText.plain (w := []) (by simp [BlankField]) hw' hne hd
      simpa using this
    · intro x hx
      cases ds with
      | nil => exact absurd rfl hne
      | cons a ds =>
        simp only [List.cons_append, List.head?_cons, Option.some.injEq] at hx
        subst hx
        exact not_white_of (by have := digits_mem hd a (by simp); omega)
  | @plus w ds w' n hw hw' hne hd =>
    rw [List.append_assoc, lstripB_pad hw]
    · have := IntText.plus (w := []) (by simp [BlankField]) hw' hne hd
      simpa using this
    · intro x hx
      simp only [List.cons_append, List.head?_cons, Option.some.injEq] at hx
      subst hx
      exact not_white_of (by decide)
  | @minus w ds w' n hw hw' hne hd =>
    rw [List.append_assoc, lstripB_pad hw]
    · have := IntText.minus (w := []) (by simp [BlankField]) hw' hne hd
      simpa using this
    · intro x hx
      simp only [List.cons_append, List.head?_cons, Option.some.injEq] at hx
      subst hx
      exact not_white_of (by decide)

theorem pyDate_isDate {y m d : Nat} (h : IsDate y m d) : pyDate y m d = .ok (.date y m d) := by
  obtain ⟨h1, h2, h3, h4⟩ := h
  unfold pyDate
  simp only
  rw [if_pos]
  rcases h4 with ⟨hm, hd⟩ | ⟨hm, hd⟩ | ⟨rfl, hd⟩
  · simp only [List.mem_cons, List.not_mem_nil, or_false] at hm
    rw [if_neg (by omega), if_neg (by omega)]
    omega
  · simp only [List.mem_cons, List.not_mem_nil, or_false] at hm
    rw [if_neg (by omega), if_pos (by omega)]
    omega
  · rw [if_pos (by omega)]
    refine ⟨by omega, by omega, by omega, by omega, by omega, ?_⟩
    rcases hd with hd | ⟨hd, h5, h6⟩
    · split <;> omega
    · rw [if_pos]
      · omega
      · simp only [decide_eq_true_eq]
        omega

theorem isInfix_single (b : UInt8) (l : Bytes) : isInfix [b] l = true ↔ b ∈ l := by
  induction l with
  | nil => simp [isInfix]
  | cons a l ih => simp [isInfix, ih]

theorem pySlice_app (a b c : Bytes) :
    pySlice (a ++ b ++ c) a.length (a.length + b.length) = b := by
  unfold pySlice
  rw [List.append_assoc, List.take_length_add_append, List.take_left, List.drop_left]

/-- The conversion gives what the cell means. -/
theorem dbfConvert_means {fl : FloatB} {c : DbfColumn} {raw : Bytes} {v : Val}
    (h : CellMeans fl c raw v) : dbfConvert fl c.typ c.deci raw = .ok v := by
  cases h with
  | noNumber ht hb =>
    unfold dbfConvert
    rw [if_pos ht]
    simp only
    rw [if_pos (lstripB_nil_iff.2 (noNul_blank.2 hb))]
  | integer ht hd hi =>
    unfold dbfConvert
    rw [if_pos ht]
    simp only
    have hi' : IntText (noNul raw) _ := hi
    rw [if_neg (fun h0 => intText_not_blank hi' (lstripB_nil_iff.1 h0)), if_neg (by simp [hd]),
      bytesInt_text (lstripB_intText hi')]
  | @decimal _ w ds _ ht hd hr hw hx hf =>
    obtain ⟨x, hx, hxw⟩ := hx
    unfold dbfConvert
    rw [if_pos ht]
    simp only
    have hr' : noNul raw = w ++ ds := hr
    have : lstripB (noNul raw) = ds := by
      rw [hr', lstripB_pad hw]
      intro y hy; rw [hx] at hy; simp only [Option.some.injEq] at hy; subst hy; exact hxw
    rw [this, if_neg (by intro h0; subst h0; simp at hx), if_pos hd, hf]
  | noDate ht hb =>
    unfold dbfConvert
    rw [if_neg (by rw [ht]; decide), if_pos ht, if_neg (by simpa using stripB_nil_iff.2 hb)]
  | @date ys ms ds rest y m d ht hys hms hds h1 h2 h3 h4 =>
    unfold dbfConvert
    have e1 : pySlice (ys ++ ms ++ ds ++ rest) 0 4 = ys := by
      have := pySlice_app [] ys (ms ++ ds ++ rest)
      simpa [hys] using this
    have e2 : pySlice (ys ++ ms ++ ds ++ rest) 4 6 = ms := by
      have := pySlice_app ys ms (ds ++ rest)
      simpa [hys, hms] using this
    have e3 : pySlice (ys ++ ms ++ ds ++ rest) 6 8 = ds := by
      have := pySlice_app (ys ++ ms) ds rest
      simpa [hys, hms, hds] using this
    have hne : ∀ l : Bytes, 0 < l.length → l ≠ [] := by
      intro l h h0; subst h0; simp at h
    rw [if_neg (by rw [ht]; decide), if_pos ht, if_pos, e1, e2, e3,
      bytesInt_digits h1 (hne _ (by omega)), bytesInt_digits h2 (hne _ (by omega)),
      bytesInt_digits h3 (hne _ (by omega))]
    · exact pyDate_isDate h4
    · rw [ne_eq, stripB_nil_iff]
      intro hb
      have hm := List.head_mem (hne ys (by omega))
      exact not_white_of (by have := digits_mem h1 _ hm; omega) (hb (ys.head _) (by simp [hm]))
  | true ht hb =>
    unfold dbfConvert
    rw [if_neg (by rw [ht]; decide), if_neg (by rw [ht]; decide), if_pos ht,
      if_pos ((isInfix_single _ _).2 hb)]
  | @false b ht hb =>
    unfold dbfConvert
    have h2 : ¬ isInfix [b] [89, 121, 84, 116] = Bool.true := by
      rw [isInfix_single]
      simp only [List.mem_cons, List.not_mem_nil, or_false] at hb ⊢
      rcases hb with h | h | h | h <;> subst h <;> decide
    rw [if_neg (by rw [ht]; decide), if_neg (by rw [ht]; decide), if_pos ht, if_neg h2,
      if_pos ((isInfix_single _ _).2 hb)]
  | unknown ht hb hb2 =>
    unfold dbfConvert
    rw [if_neg (by rw [ht]; decide), if_neg (by rw [ht]; decide), if_pos ht,
      if_neg (by rw [isInfix_single]; exact hb), if_neg (by rw [isInfix_single]; exact hb2)]
  | noFloat ht hb =>
    unfold dbfConvert
    rw [if_neg (by rw [ht]; decide), if_neg (by rw [ht]; decide), if_neg (by rw [ht]; decide),
      if_pos ht, if_neg (by simpa using stripB_nil_iff.2 hb)]
  | float ht hb hf =>
    unfold dbfConvert
    rw [if_neg (by rw [ht]; decide), if_neg (by rw [ht]; decide), if_neg (by rw [ht]; decide),
      if_pos ht, if_pos (by rw [ne_eq, stripB_nil_iff]; exact hb), hf]
  | text h1 h2 h3 h4 hs hr =>
    unfold dbfConvert
    rw [if_neg h1, if_neg h2, if_neg h3, if_neg h4, hr, asciiDecode_ofNat hs]

end CP
