import Verif.Model.RangeName
import Verif.Spec.RangeName
import Verif.Lemmas.Lookup
/-!
# Lemmas: names of references
-/

namespace CP
open CP.Spec

/-! ### Texts that tell their parts -/

/-- Where the characters of a kind end. -/
theorem span_unique {P : Char → Prop} : ∀ {a a' b b' : List Char}, (∀ c ∈ a, P c) → (∀ c ∈ a', P c) → (∀ c, b.head? = some c → ¬ P c) →
    (∀ c, b'.head? = some c → ¬ P c) → a ++ b = a' ++ b' → a = a' ∧ b = b'
  | [], [], _, _, _, _, _, _, h => ⟨rfl, h⟩
  | [], x :: a', b, b', _, h2, h3, _, h => by
    have : b = x :: (a' ++ b') := h
    exact absurd (h2 x (by simp)) (h3 x (by rw [this]; rfl))
  | x :: a, [], b, b', h1, _, _, h4, h => by
    have : b' = x :: (a ++ b) := h.symm
    exact absurd (h1 x (by simp)) (h4 x (by rw [this]; rfl))
  | x :: a, y :: a', b, b', h1, h2, h3, h4, h => by
    simp only [List.cons_append, List.cons.injEq] at h
    obtain ⟨e1, e2⟩ := span_unique (fun c hc => h1 c (by simp [hc])) (fun c hc => h2 c (by simp [hc])) h3 h4 h.2
    exact ⟨by rw [h.1, e1], e2⟩

/-- Texts without a character, before it. -/
theorem split_unique {x : Char} {a a' b b' : List Char} (h1 : x ∉ a) (h2 : x ∉ a') (h : a ++ x :: b = a' ++ x :: b') : a = a' ∧ b = b' := by
  obtain ⟨e1, e2⟩ := span_unique (P := fun c => c ≠ x) (fun c hc e => h1 (e ▸ hc)) (fun c hc e => h2 (e ▸ hc))
    (by intro c hc; simp at hc; simp [hc]) (by intro c hc; simp at hc; simp [hc]) h
  cases e2
  exact ⟨e1, rfl⟩

/-- And after it. -/
theorem split_unique_last {x : Char} {a a' b b' : List Char} (h1 : x ∉ b) (h2 : x ∉ b') (h : a ++ x :: b = a' ++ x :: b') : a = a' ∧ b = b' := by
  have h' : b.reverse ++ x :: a.reverse = b'.reverse ++ x :: a'.reverse := by
    have := congrArg List.reverse h
    simpa using this
  obtain ⟨e1, e2⟩ := split_unique (by simpa using h1) (by simpa using h2) h'
  exact ⟨List.reverse_inj.1 e2, List.reverse_inj.1 e1⟩

/-! ### Digits -/

theorem toDigits_inj {n m : Nat} (h : Nat.toDigits 10 n = Nat.toDigits 10 m) : n = m := by
  have h1 := Nat.ofDigitChars_toDigits (b := 10) (n := n) (by decide) (by decide)
  have h2 := Nat.ofDigitChars_toDigits (b := 10) (n := m) (by decide) (by decide)
  rw [h, h2] at h1
  exact h1.symm

theorem toDigits_digit {n : Nat} {c : Char} (h : c ∈ Nat.toDigits 10 n) : 48 ≤ c.toNat ∧ c.toNat ≤ 57 := by
  have := Nat.isDigit_of_mem_toDigits (by decide) (by decide) h
  unfold Char.isDigit at this
  simp only [Bool.and_eq_true, decide_eq_true_eq] at this
  exact ⟨UInt32.le_iff_toNat_le.1 this.1, UInt32.le_iff_toNat_le.1 this.2⟩

theorem not_digit {n : Nat} {c : Char} (h : ¬ (48 ≤ c.toNat ∧ c.toNat ≤ 57)) : c ∉ Nat.toDigits 10 n := fun hc => h (toDigits_digit hc)

theorem decNat_toDigits (n : Nat) : decNat n = Nat.toDigits 10 n := by
  induction n using Nat.strongRecOn with
  | _ n ih =>
    have hd : ∀ k, k < 10 → digitChar k = k.digitChar := by decide
    rw [decNat]
    split
    · rename_i h
      rw [Nat.toDigits_of_lt_base h, hd n h]
    · rename_i h
      rw [Nat.toDigits_of_base_le (by decide) (by omega), ih (n / 10) (by omega), hd _ (by omega)]

theorem decInt_text (i : Int) : decInt i = SignedText i := by
  unfold decInt SignedText
  rw [decNat_toDigits]

theorem intText_nat (n : Nat) : SignedText (n : Int) = Nat.toDigits 10 n := by
  unfold SignedText
  rw [if_neg (by omega), Int.natAbs_natCast]

theorem intText_inj {i j : Int} (h : SignedText i = SignedText j) : i = j := by
  have hd : '-' ∉ Nat.toDigits 10 i.natAbs ∧ '-' ∉ Nat.toDigits 10 j.natAbs := ⟨not_digit (by decide), not_digit (by decide)⟩
  unfold SignedText at h
  split at h
  · split at h
    · have := toDigits_inj (List.cons.inj h).2
      omega
    · rw [← h] at hd
      simp at hd
  · split at h
    · rw [h] at hd
      simp at hd
    · have := toDigits_inj h
      omega

theorem intText_chars {i : Int} {c : Char} (h : c ∈ SignedText i) : c = '-' ∨ (48 ≤ c.toNat ∧ c.toNat ≤ 57) := by
  unfold SignedText at h
  split at h
  · rcases List.mem_cons.1 h with h | h
    · exact .inl h
    · exact .inr (toDigits_digit h)
  · exact .inr (toDigits_digit h)

/-! ### Cells -/

theorem colName_inj {s s' : List Char} (h : ColName s) (h' : ColName s') (e : letterValue s = letterValue s') : s = s' := by
  rw [← colname_letterValue h, ← colname_letterValue h', e]

theorem head_digits (n : Nat) : ∃ d ds, Nat.toDigits 10 n = d :: ds ∧ 48 ≤ d.toNat ∧ d.toNat ≤ 57 := by
  cases h : Nat.toDigits 10 n with
  | nil => exact absurd h Nat.toDigits_ne_nil
  | cons d ds => exact ⟨d, ds, rfl, toDigits_digit (n := n) (by rw [h]; simp)⟩

/-- A text is the name of one cell at most, and tells what is fixed. -/
theorem a1Cell_unique {ra ca ra' ca' : Bool} {r c r' c' : Nat} {t : List Char} (h : A1Cell ra ca r c t) (h' : A1Cell ra' ca' r' c' t) :
    ra = ra' ∧ ca = ca' ∧ r = r' ∧ c = c' := by
  obtain ⟨s, hs, hv, rfl⟩ := h
  obtain ⟨s', hs', hv', e⟩ := h'
  have hdollar : ¬ UpperLetter '$' := by unfold UpperLetter; decide
  have hne : ∀ {s : List Char}, ColName s → ∃ x y, s = x :: y ∧ UpperLetter x := by
    intro s hs
    cases s with
    | nil => exact absurd rfl hs.1
    | cons x y => exact ⟨x, y, rfl, hs.2 x (by simp)⟩
  have key : ∀ {ra ra' : Bool} {s s' : List Char} {r r' : Nat}, ColName s → ColName s' →
      s ++ ((if ra then ['$'] else []) ++ Nat.toDigits 10 (r + 1)) = s' ++ ((if ra' then ['$'] else []) ++ Nat.toDigits 10 (r' + 1)) → s = s' ∧ ra = ra' ∧ r = r' := by
    intro ra ra' s s' r r' hs hs' e
    have hh : ∀ (ra : Bool) (r : Nat) (c : Char), ((if ra then ['$'] else []) ++ Nat.toDigits 10 (r + 1)).head? = some c → ¬ UpperLetter c := by
      intro ra r c hc
      cases ra with
      | true =>
        simp at hc
        rw [← hc]
        exact hdollar
      | false =>
        obtain ⟨d, ds, hd, hd1⟩ := head_digits (r + 1)
        rw [hd] at hc
        simp at hc
        rw [← hc]
        unfold UpperLetter
        omega
    obtain ⟨e1, e2⟩ := span_unique hs.2 hs'.2 (hh ra r) (hh ra' r') e
    refine ⟨e1, ?_⟩
    obtain ⟨d, ds, hd, hd1⟩ := head_digits (r + 1)
    obtain ⟨d', ds', hd', hd1'⟩ := head_digits (r' + 1)
    cases ra <;> cases ra'
    · have := toDigits_inj (by simpa using e2 : Nat.toDigits 10 (r + 1) = Nat.toDigits 10 (r' + 1))
      exact ⟨rfl, by omega⟩
    · rw [hd] at e2
      simp at e2
      rw [e2.1] at hd1
      exact absurd hd1 (by decide)
    · rw [hd'] at e2
      simp at e2
      rw [← e2.1] at hd1'
      exact absurd hd1' (by decide)
    · have := toDigits_inj (by simpa using e2 : Nat.toDigits 10 (r + 1) = Nat.toDigits 10 (r' + 1))
      exact ⟨rfl, by omega⟩
  obtain ⟨x, y, hxy, hx⟩ := hne hs
  obtain ⟨x', y', hxy', hx'⟩ := hne hs'
  cases ca <;> cases ca'
  · obtain ⟨e1, e2, e3⟩ := key hs hs' (by simpa using e)
    subst e1
    exact ⟨e2, rfl, e3, by omega⟩
  · rw [hxy] at e
    simp at e
    rw [e.1] at hx
    exact absurd hx hdollar
  · rw [hxy'] at e
    simp at e
    rw [← e.1] at hx'
    exact absurd hx' hdollar
  · obtain ⟨e1, e2, e3⟩ := key hs hs' (by simpa using e)
    subst e1
    exact ⟨e2, rfl, e3, by omega⟩

theorem a1Cell_chars {ra ca : Bool} {r c : Nat} {t : List Char} (h : A1Cell ra ca r c t) :
    ∀ x ∈ t, x = '$' ∨ UpperLetter x ∨ (48 ≤ x.toNat ∧ x.toNat ≤ 57) := by
  obtain ⟨s, hs, hv, rfl⟩ := h
  intro x hx
  rcases List.mem_append.1 hx with hx | hx
  · rcases List.mem_append.1 hx with hx | hx
    · rcases List.mem_append.1 hx with hx | hx
      · split at hx <;> simp at hx
        exact .inl hx
      · exact .inr (.inl (hs.2 x hx))
    · split at hx <;> simp at hx
      exact .inl hx
  · exact .inr (.inr (toDigits_digit hx))

theorem part_unique {l : Char} {rel rel' : Bool} {x x' : Int} (h : rel = false → 0 ≤ x) (h' : rel' = false → 0 ≤ x')
    (e : NumberedPart l rel x = NumberedPart l rel' x') : rel = rel' ∧ x = x' := by
  unfold NumberedPart at e
  have e := (List.cons.inj e).2
  have hfix : ∀ {x : Int}, 0 ≤ x → ∃ d ds, SignedText (x + 1) = d :: ds ∧ d ≠ '[' := by
    intro x hx
    rw [show x + 1 = ((x.toNat + 1 : Nat) : Int) by omega, intText_nat]
    obtain ⟨d, ds, hd, hd1⟩ := head_digits (x.toNat + 1)
    refine ⟨d, ds, hd, ?_⟩
    rintro rfl
    exact absurd hd1 (by decide)
  cases rel <;> cases rel'
  · simp only [if_true] at e
    have := intText_inj e
    exact ⟨rfl, by omega⟩
  · exfalso
    obtain ⟨d, ds, hd, hne⟩ := hfix (h rfl)
    simp only [if_true, hd] at e
    rw [if_neg (by decide)] at e
    split at e
    · cases e
    · exact hne (List.cons.inj e).1
  · exfalso
    obtain ⟨d, ds, hd, hne⟩ := hfix (h' rfl)
    simp only [if_true, hd] at e
    rw [if_neg (by decide)] at e
    split at e
    · cases e
    · exact hne (List.cons.inj e).1.symm
  · simp only [Bool.true_eq_false, ↓reduceIte] at e
    refine ⟨rfl, ?_⟩
    split at e
    · split at e
      · omega
      · cases e
    · split at e
      · cases e
      · have := (List.append_inj' (List.cons.inj e).2 rfl).1
        exact intText_inj this

theorem part_chars {l : Char} {rel : Bool} {x : Int} {c : Char} (h : c ∈ NumberedPart l rel x) :
    c = l ∨ c = '[' ∨ c = ']' ∨ c = '-' ∨ (48 ≤ c.toNat ∧ c.toNat ≤ 57) := by
  unfold NumberedPart at h
  rcases List.mem_cons.1 h with h | h
  · exact .inl h
  · split at h
    · rcases intText_chars h with h | h
      · exact .inr (.inr (.inr (.inl h)))
      · exact .inr (.inr (.inr (.inr h)))
    split at h
    · cases h
    · rcases List.mem_cons.1 h with h | h
      · exact .inr (.inl h)
      rcases List.mem_append.1 h with h | h
      · rcases intText_chars h with h | h
        · exact .inr (.inr (.inr (.inl h)))
        · exact .inr (.inr (.inr (.inr h)))
      · simp at h
        exact .inr (.inr (.inl h))

/-- So in the other style. -/
theorem numberedCell_unique {ra ca ra' ca' : Bool} {r c r' c' : Int} (h1 : ra = false → 0 ≤ r) (h2 : ca = false → 0 ≤ c) (h1' : ra' = false → 0 ≤ r')
    (h2' : ca' = false → 0 ≤ c') (e : NumberedCell ra ca r c = NumberedCell ra' ca' r' c') : ra = ra' ∧ ca = ca' ∧ r = r' ∧ c = c' := by
  unfold NumberedCell at e
  have hno : ∀ rel x, 'C' ∉ NumberedPart 'R' rel x := by
    intro rel x hx
    have := part_chars hx
    simp at this
  have hc : ∀ rel x, ∃ y, NumberedPart 'C' rel x = 'C' :: y := fun rel x => ⟨_, rfl⟩
  obtain ⟨y, hy⟩ := hc ca c
  obtain ⟨y', hy'⟩ := hc ca' c'
  have e' := e
  rw [hy, hy'] at e
  obtain ⟨e1, e2⟩ := split_unique (hno _ _) (hno _ _) e
  rw [e1] at e'
  obtain ⟨k1, k2⟩ := part_unique h1 h1' e1
  obtain ⟨k3, k4⟩ := part_unique h2 h2' (List.append_cancel_left e')
  exact ⟨k1, k3, k2, k4⟩

/-! ### Sheets -/

def doubled (n : List Char) : List Char := n.flatMap fun c => if c = '\'' then ['\'', '\''] else [c]

theorem doubled_inj : ∀ {n m : List Char}, doubled n = doubled m → n = m
  | [], [], _ => rfl
  | [], d :: m, h => by
    unfold doubled at h
    simp at h
    split at h <;> simp at h
  | c :: n, [], h => by
    unfold doubled at h
    simp at h
    split at h <;> simp at h
  | c :: n, d :: m, h => by
    have h' : (if c = '\'' then ['\'', '\''] else [c]) ++ doubled n = (if d = '\'' then ['\'', '\''] else [d]) ++ doubled m := h
    split at h' <;> split at h' <;> rename_i hc hd
    · simp at h'
      rw [hc, hd, doubled_inj h']
    · simp at h'
      exact absurd h'.1.symm hd
    · simp at h'
      exact absurd h'.1 hc
    · simp at h'
      rw [h'.1, doubled_inj h'.2]

theorem doubled_mem {n : List Char} {c : Char} (h : c ∈ doubled n) : c ∈ n := by
  unfold doubled at h
  rw [List.mem_flatMap] at h
  obtain ⟨d, hd, hc⟩ := h
  split at hc
  · rename_i e
    simp at hc
    rw [hc, ← e]
    exact hd
  · simp at hc
    rw [hc]
    exact hd

theorem doubled_self {n : List Char} (h : '\'' ∉ n) : doubled n = n := by
  unfold doubled
  induction n with
  | nil => rfl
  | cons c n ih =>
    simp only [List.mem_cons, not_or] at h
    simp only [List.flatMap_cons]
    rw [if_neg (fun e => h.1 e.symm), ih h.2]
    rfl

theorem sheetWord_inj {n m t : List Char} (h : SheetWord n t) (h' : SheetWord m t) : n = m := by
  rcases h with ⟨rfl, h1, -⟩ | h
  · rcases h' with ⟨rfl, -, -⟩ | h'
    · rfl
    · rw [h'] at h1
      simp at h1
  · rcases h' with ⟨rfl, h1, -⟩ | h'
    · rw [h] at h1
      simp at h1
    · rw [h] at h'
      exact doubled_inj (List.append_inj' (List.cons.inj h').2 rfl).1

theorem sheetWord_colon {n t : List Char} (h : SheetWord n t) (hn : ':' ∉ n) : ':' ∉ t := by
  rcases h with ⟨rfl, -⟩ | rfl
  · exact hn
  · intro h
    simp only [List.cons_append, List.mem_cons, List.mem_append, List.not_mem_nil, or_false] at h
    rcases h with h | h | h
    · exact absurd h (by decide)
    · exact hn (doubled_mem h)
    · exact absurd h (by decide)

theorem names_index {l : List (List Char)} (h : l.Nodup) {i j : Nat} {n : List Char} (hi : l[i]? = some n) (hj : l[j]? = some n) : i = j := by
  obtain ⟨a, b⟩ := List.getElem?_eq_some_iff.1 hi
  exact (List.getElem?_inj a h).1 (hi.trans hj.symm)

theorem sheetsText_unique {names : List (List Char)} (hnd : names.Nodup) (hc : ∀ n ∈ names, ':' ∉ n) {s1 s2 s1' s2' : Nat} {t : List Char}
    (h : SheetsText names s1 s2 t) (h' : SheetsText names s1' s2' t) : s1 = s1' ∧ s2 = s2' := by
  unfold SheetsText at h h'
  split at h
  · rename_i e
    obtain ⟨n, hn, hw⟩ := h
    split at h'
    · rename_i e'
      obtain ⟨n', hn', hw'⟩ := h'
      have := sheetWord_inj hw hw'
      subst this
      have := names_index hnd hn hn'
      omega
    · obtain ⟨n1, n2, w, w', _, _, _, _, e⟩ := h'
      have := sheetWord_colon hw (hc _ (List.mem_of_getElem? hn))
      rw [e] at this
      simp at this
  · obtain ⟨n1, n2, w, w', hn1, hn2, hw, hw', e⟩ := h
    split at h'
    · obtain ⟨n', hn', hx⟩ := h'
      have := sheetWord_colon hx (hc _ (List.mem_of_getElem? hn'))
      rw [e] at this
      simp at this
    · obtain ⟨m1, m2, v, v', hm1, hm2, hv, hv', e'⟩ := h'
      rw [e] at e'
      obtain ⟨rfl, rfl⟩ := split_unique (sheetWord_colon hw (hc _ (List.mem_of_getElem? hn1))) (sheetWord_colon hv (hc _ (List.mem_of_getElem? hm1))) e'
      have := sheetWord_inj hw hv
      subst this
      have := sheetWord_inj hw' hv'
      subst this
      exact ⟨names_index hnd hn1 hm1, names_index hnd hn2 hm2⟩

/-- An area of sheets is told by its name. -/
theorem sheetArea_unique {names : List (List Char)} (hnd : names.Nodup) (hc : ∀ n ∈ names, ':' ∉ n) {s1 s2 r1 r2 c1 c2 s1' s2' r1' r2' c1' c2' : Nat}
    {t : List Char} (h : SheetAreaText names s1 s2 r1 r2 c1 c2 t) (h' : SheetAreaText names s1' s2' r1' r2' c1' c2' t) :
    s1 = s1' ∧ s2 = s2' ∧ r1 = r1' ∧ r2 = r2' ∧ c1 = c1' ∧ c2 = c2' := by
  obtain ⟨a, b, ha, hb, rfl⟩ := h
  obtain ⟨a', b', ha', hb', e⟩ := h'
  have hno : ∀ {r1 r2 c1 c2 : Nat} {b : List Char}, AreaText r1 r2 c1 c2 b → '!' ∉ b := by
    intro r1 r2 c1 c2 b hb hx
    have hcell : ∀ {r c : Nat} {t : List Char}, A1Cell true true r c t → '!' ∉ t := by
      intro r c t h hx
      have := a1Cell_chars h _ hx
      unfold UpperLetter at this
      revert this
      decide
    unfold AreaText at hb
    split at hb
    · exact hcell hb hx
    · obtain ⟨x, y, h1, h2, rfl⟩ := hb
      simp only [List.mem_append, List.mem_cons] at hx
      rcases hx with hx | hx | hx
      · exact hcell h1 hx
      · exact absurd hx (by decide)
      · exact hcell h2 hx
  obtain ⟨rfl, rfl⟩ := split_unique_last (hno hb) (hno hb') e
  obtain ⟨e1, e2⟩ := sheetsText_unique hnd hc ha ha'
  refine ⟨e1, e2, ?_⟩
  have hcolon : ∀ {r c : Nat} {t : List Char}, A1Cell true true r c t → ':' ∉ t := by
    intro r c t h hx
    have := a1Cell_chars h _ hx
    unfold UpperLetter at this
    revert this
    decide
  unfold AreaText at hb hb'
  split at hb
  · rename_i k
    split at hb'
    · rename_i k'
      have := a1Cell_unique hb hb'
      omega
    · obtain ⟨x, y, _, _, rfl⟩ := hb'
      exact absurd (by simp) (hcolon hb)
  · obtain ⟨x, y, h1, h2, rfl⟩ := hb
    split at hb'
    · exact absurd (by simp) (hcolon hb')
    · obtain ⟨x', y', h1', h2', e⟩ := hb'
      obtain ⟨rfl, rfl⟩ := split_unique (hcolon h1) (hcolon h1') e
      have := a1Cell_unique h1 h1'
      have := a1Cell_unique h2 h2'
      omega

end CP
