import Verif.Model.Xlsx
import Verif.Spec.Xlsx
import Verif.Lemmas.Lookup
import Verif.Lemmas.ReadXl
/-!
# Lemmas about cell names of xlsx files
-/

namespace CP
open Spec

/-- An ASCII letter or digit. -/
def AlNum (c : Char) : Prop := letterIndex c ≠ 0 ∨ DecDigit c

/-- What is assumed about `upper()` and `int()`: upper casing of ASCII characters; `int` of
ASCII digits is their value, of nothing or of ASCII letters and digits, not all digits, it
raises ValueError.  (No limit on the count of digits, as before CPython 3.11.) -/
structure XlLaws (E : XlEnv) : Prop where
  upper : AsciiUpper E.up
  same : ∀ c : Char, c.toNat < 128 → ¬ (97 ≤ c.toNat ∧ c.toNat ≤ 122) → E.up c = [c]
  digits : ∀ ds, ds ≠ [] → (∀ c ∈ ds, DecDigit c) → E.int ds = .ok (decValue ds)
  empty : E.int [] = .error .valueError
  letters : ∀ s, (∀ c ∈ s, AlNum c) → (∃ c ∈ s, ¬ DecDigit c) → E.int s = .error .valueError

/-- Upper case of an ASCII character. -/
def upChar (c : Char) : Char := if 97 ≤ c.toNat ∧ c.toNat ≤ 122 then Char.ofNat (c.toNat - 32) else c

theorem XlLaws.up_eq {E : XlEnv} (h : XlLaws E) {c : Char} (hc : c.toNat < 128) : E.up c = [upChar c] := by
  unfold upChar
  split
  · rename_i h1; exact h.upper.lower c h1.1 h1.2
  · rename_i h1; exact h.same c hc h1

theorem XlLaws.flatMap_up {E : XlEnv} (h : XlLaws E) {s : List Char} (hs : ∀ c ∈ s, c.toNat < 128) :
    s.flatMap E.up = s.map upChar := by
  induction s with
  | nil => rfl
  | cons c cs ih =>
    rw [List.flatMap_cons, List.map_cons, h.up_eq (hs c (by simp)), ih fun x hx => hs x (by simp [hx])]
    rfl

theorem AlNum.lt {c : Char} (h : AlNum c) : c.toNat < 128 := by
  unfold AlNum letterIndex DecDigit at h
  split at h
  · omega
  · split at h <;> omega

theorem upChar_self {c : Char} (h : ¬ (97 ≤ c.toNat ∧ c.toNat ≤ 122)) : upChar c = c := by
  unfold upChar
  rw [if_neg h]

theorem upChar_lower {c : Char} (h : 97 ≤ c.toNat ∧ c.toNat ≤ 122) : (upChar c).toNat = c.toNat - 32 := by
  unfold upChar
  rw [if_pos h, ofNat_toNat (by omega)]

theorem upChar_letter {c : Char} (h : letterIndex c ≠ 0) : cellCharValue (upChar c) = some (letterIndex c) := by
  unfold letterIndex at h ⊢
  by_cases h1 : 65 ≤ c.toNat ∧ c.toNat ≤ 90
  · rw [if_pos h1, upChar_self (by omega)]
    unfold cellCharValue
    rw [if_pos h1]
  · rw [if_neg h1] at h
    by_cases h2 : 97 ≤ c.toNat ∧ c.toNat ≤ 122
    · rw [if_neg h1, if_pos h2]
      unfold cellCharValue
      rw [upChar_lower h2, if_pos (by omega)]
      congr 1
    · rw [if_neg h2] at h; exact absurd rfl h

theorem zero_iff {c : Char} : c = '0' ↔ c.toNat = 48 := by
  constructor
  · rintro rfl; rfl
  · intro h
    rw [← @ofNat_self c, h]

theorem upChar_digit {c : Char} (h : DecDigit c) :
    cellCharValue (upChar c) = if c = '0' then none else some 0 := by
  unfold DecDigit at h
  rw [upChar_self (by omega)]
  unfold cellCharValue
  rw [if_neg (by omega)]
  by_cases h0 : c = '0'
  · rw [if_pos h0, if_neg (by have := zero_iff.1 h0; omega)]
  · rw [if_neg h0, if_pos]
    have := mt zero_iff.2 h0
    omega

theorem columnNumber_step (acc : Nat) (c : Char) (cs : List Char) :
    (acc * 26 + letterIndex c) * 26 ^ cs.length + columnNumber cs =
      acc * 26 ^ (c :: cs).length + columnNumber (c :: cs) := by
  simp only [columnNumber, List.length_cons, Nat.pow_succ, Nat.add_mul]
  have : acc * 26 * 26 ^ cs.length = acc * (26 ^ cs.length * 26) := by
    rw [Nat.mul_assoc, Nat.mul_comm 26]
  omega

theorem columnNumber_pos {ls : List Char} (hne : ls ≠ []) (h : ∀ c ∈ ls, letterIndex c ≠ 0) : 1 ≤ columnNumber ls := by
  cases ls with
  | nil => exact absurd rfl hne
  | cons c cs =>
    have h1 := h c (by simp)
    have h2 : 1 ≤ letterIndex c * 26 ^ cs.length := Nat.mul_pos (by omega) (Nat.pow_pos (by omega))
    show 1 ≤ letterIndex c * 26 ^ cs.length + columnNumber cs
    omega

/-- The loop over letters. -/
theorem cellNameLoop_letters (b : Bool) {ls : List Char} (h : ∀ c ∈ ls, letterIndex c ≠ 0) (charx colx : Nat)
    (rest : List Char) :
    cellNameLoop b charx colx (ls.map upChar ++ rest) =
      cellNameLoop b (charx + ls.length) (colx * 26 ^ ls.length + columnNumber ls) rest := by
  induction ls generalizing charx colx with
  | nil => simp [columnNumber]
  | cons c cs ih =>
    have hc := h c (by simp)
    rw [List.map_cons, List.cons_append]
    rw [cellNameLoop, upChar_letter hc]
    split
    · rename_i h1; exact absurd h1 (by simp)
    · rename_i h1; exact absurd (Option.some.inj h1) hc
    · rename_i lv _ h1
      obtain rfl := Option.some.inj h1
      rw [ih fun x hx => h x (by simp [hx]), columnNumber_step, List.length_cons, show charx + 1 + cs.length = charx + (cs.length + 1) by omega]

/-- The loop at the first digit. -/
theorem cellNameLoop_digit (b : Bool) {d : Char} (hd : DecDigit d) (h0 : d ≠ '0') {charx : Nat} (hx : charx ≠ 0)
    (colx : Nat) (rest : List Char) :
    cellNameLoop b charx colx (upChar d :: rest) =
      if 1 ≤ colx ∧ colx ≤ 16384 then .ok (charx, some (colx - 1)) else .error .assertionError := by
  unfold cellNameLoop
  rw [upChar_digit hd, if_neg h0, if_neg hx]
  by_cases h : 1 ≤ colx ∧ colx ≤ 16384
  · rw [if_pos (by omega), if_pos h]; rfl
  · rw [if_neg (by omega), if_neg h]; rfl

theorem pyFrom_append {α : Type} (a b : List α) : pyFrom (a ++ b) (a.length : Nat) = b := by
  unfold pyFrom
  rw [if_neg (by omega)]
  simp

/-- `cell_name_to_rowx_colx` of a cell name. -/
theorem cellName_ok {E : XlEnv} (hE : XlLaws E) {s : List Char} {r c : Nat} (h : CellName s r c) (b : Bool) :
    cellNameToRowxColx E s b = if c < 16384 then .ok ((r : Int), some c) else .error .assertionError := by
  obtain ⟨ls, ds, rfl, hne, hl, ⟨hd1, hd2, hd3⟩, hc, hr⟩ := h
  have hlen : ls.length ≠ 0 := by simpa using hne
  unfold cellNameToRowxColx
  rw [hE.flatMap_up, List.map_append, cellNameLoop_letters b hl]
  · cases ds with
    | nil => exact absurd rfl hd1
    | cons d ds =>
      rw [List.map_cons, cellNameLoop_digit b (hd2 d (by simp)) (hd3 d rfl) (by omega), hc]
      by_cases h : c < 16384
      · rw [if_pos (by omega), if_pos h]
        dsimp only
        rw [show (0 + ls.length : Nat) = ls.length by omega, pyFrom_append, hE.digits _ hd1 hd2]
        dsimp only
        rw [hr]
        congr 2
        · omega
        · congr 1; omega
      · rw [if_neg (by omega), if_neg h]
  · intro x hx
    rcases List.mem_append.1 hx with h | h
    · exact AlNum.lt (Or.inl (hl x h))
    · exact AlNum.lt (Or.inr (hd2 x h))

theorem letterIndex_digit {c : Char} (h : DecDigit c) : letterIndex c = 0 := by
  unfold DecDigit at h
  unfold letterIndex
  rw [if_neg (by omega), if_neg (by omega)]

/-- The letters at the start of a name. -/
theorem letters_split (s : List Char) :
    ∃ ls rest, s = ls ++ rest ∧ (∀ c ∈ ls, letterIndex c ≠ 0) ∧ ∀ c, rest.head? = some c → letterIndex c = 0 := by
  obtain ⟨rest, h1, h2, h3⟩ := takeWhile_split (fun c => decide (letterIndex c ≠ 0)) s
  exact ⟨_, rest, h1, fun c hc => by simpa using h2 c hc, fun c hc => by simpa using h3 c hc⟩

/-- What is no cell name is rejected. -/
theorem cellName_of_ok {E : XlEnv} (hE : XlLaws E) {s : List Char} (hs : ∀ c ∈ s, AlNum c) {r : Int} {k : Option Nat}
    (h : cellNameToRowxColx E s false = .ok (r, k)) : ∃ r' c : Nat, r = r' ∧ k = some c ∧ c < 16384 ∧ CellName s r' c := by
  obtain ⟨ls, rest, rfl, hl, hrest⟩ := letters_split s
  cases rest with
  | nil =>
    exfalso
    unfold cellNameToRowxColx at h
    rw [hE.flatMap_up (fun c hc => (hs c hc).lt), List.map_append, cellNameLoop_letters false hl] at h
    simp only [List.map_nil, cellNameLoop, List.append_nil] at h
    rcases List.eq_nil_or_concat ls with rfl | ⟨l, x, rfl⟩
    · simp [pyFrom, hE.empty] at h
    · have e : pyFrom (l ++ [x]) (((0 + (l ++ [x]).length : Nat) : Int) - 1) = [x] := by
        have : ((0 + (l ++ [x]).length : Nat) : Int) - 1 = (l.length : Nat) := by simp
        rw [this, pyFrom_append]
      rw [List.concat_eq_append] at h hl hs
      have hx := hl x (by simp)
      rw [e, hE.letters [x] (fun c hc => by rw [List.mem_singleton.1 hc]; exact Or.inl hx)] at h
      · simp at h
      · refine ⟨x, by simp, fun hd => hx (letterIndex_digit hd)⟩
  | cons d ds =>
    have hd : DecDigit d := by
      rcases hs d (by simp) with h1 | h1
      · exact absurd (hrest d rfl) h1
      · exact h1
    unfold cellNameToRowxColx at h
    rw [hE.flatMap_up (fun c hc => (hs c hc).lt), List.map_append, cellNameLoop_letters false hl, List.map_cons] at h
    have h0 : d ≠ '0' := by
      intro h0
      unfold cellNameLoop at h
      rw [upChar_digit hd, if_pos h0] at h
      simp at h
    have hne : ls ≠ [] := by
      rintro rfl
      unfold cellNameLoop at h
      rw [upChar_digit hd, if_neg h0] at h
      simp at h
    have hlen : ls.length ≠ 0 := by simpa using hne
    rw [cellNameLoop_digit false hd h0 (by omega)] at h
    by_cases hc : 1 ≤ 0 * 26 ^ ls.length + columnNumber ls ∧ 0 * 26 ^ ls.length + columnNumber ls ≤ 16384
    · rw [if_pos hc] at h
      dsimp only at h
      rw [show (0 + ls.length : Nat) = ls.length by omega, pyFrom_append] at h
      by_cases hds : ∀ c ∈ d :: ds, DecDigit c
      · rw [hE.digits _ (by simp) hds] at h
        simp only [Except.ok.injEq, Prod.mk.injEq] at h
        have hpos : 1 ≤ decValue (d :: ds) := by
          have h1 : 1 ≤ (d.toNat - 48) * 10 ^ ds.length := by
            have := mt zero_iff.2 h0
            unfold DecDigit at hd
            exact Nat.mul_pos (by omega) (Nat.pow_pos (by omega))
          show 1 ≤ (d.toNat - 48) * 10 ^ ds.length + decValue ds
          omega
        refine ⟨decValue (d :: ds) - 1, columnNumber ls - 1, by omega, by rw [← h.2]; simp, by omega, ls, d :: ds, rfl, hne,
          hl, ⟨by simp, hds, ?_⟩, by omega, by omega⟩
        intro c hc
        obtain rfl : d = c := by simpa using hc
        exact h0
      · rw [hE.letters] at h
        · simp at h
        · exact fun c hc => hs c (by simp [List.mem_cons.1 hc])
        · apply Classical.byContradiction
          intro h1
          apply hds
          intro c hc
          apply Classical.byContradiction
          intro h2
          exact h1 ⟨c, hc, h2⟩
    · rw [if_neg hc] at h
      simp at h

theorem columnNumber_upper {ls : List Char} (h : ∀ c ∈ ls, UpperLetter c) : columnNumber ls = letterValue ls := by
  induction ls with
  | nil => rfl
  | cons c cs ih =>
    have hc := h c (by simp)
    unfold UpperLetter at hc
    simp only [columnNumber, letterValue]
    rw [ih fun x hx => h x (by simp [hx])]
    congr 2
    unfold letterIndex
    rw [if_pos hc]

theorem decNat_head {n : Nat} (hn : 0 < n) : ∀ c, (decNat n).head? = some c → c ≠ '0' := by
  induction n using Nat.strongRecOn with
  | _ n ih =>
    intro c hc
    unfold decNat at hc
    split at hc
    · rename_i h
      simp only [List.head?_cons, Option.some.injEq] at hc
      subst hc
      intro h0
      have := zero_iff.1 h0
      rw [digitChar_toNat h] at this
      omega
    · rename_i h
      have hne := decNat_ne_nil (n / 10)
      rw [List.head?_append, Option.or_of_isSome (by simpa using hne)] at hc
      exact ih (n / 10) (by omega) (by omega) c hc

/-- The name that `xlrd` gives to a cell is one. -/
theorem cellName_name (r c : Nat) : CellName (colname c ++ decNat (r + 1)) r c := by
  obtain ⟨⟨h1, h2⟩, h3⟩ := colname_spec c
  refine ⟨_, _, rfl, h1, ?_, ⟨decNat_ne_nil _, decNat_digits _, decNat_head (by omega)⟩, ?_, ?_⟩
  · intro x hx
    have := h2 x hx
    unfold UpperLetter at this
    unfold letterIndex
    rw [if_pos this]; omega
  · rw [columnNumber_upper h2, h3]
  · rw [← parseNat_eq (decNat_digits _), parseNat_decNat]

end CP
