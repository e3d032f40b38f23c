import Verif.Props.Xlsx
/-!
# C51: exactly which texts are taken for cell names
-/

namespace CP
open Spec

/-- What a text is taken for, by its upper case `u`: letters of a column (in upper case), then a digit that is not 0; the row is what `int`
reads from the text without as many characters as there are letters.  Without a column, if that is allowed, the row is what `int` reads from
all of the text. -/
def TakenFor (E : XlEnv) (s : List Char) (noCol : Bool) (r : Int) (k : Option Nat) : Prop :=
  ∃ ls d rest, s.flatMap E.up = ls ++ d :: rest ∧ (∀ c ∈ ls, UpperLetter c) ∧ (49 ≤ d.toNat ∧ d.toNat ≤ 57) ∧
    E.int (s.drop ls.length) = .ok (r + 1) ∧
    ((ls = [] ∧ noCol = true ∧ k = none) ∨ (ls ≠ [] ∧ columnNumber ls ≤ 16384 ∧ k = some (columnNumber ls - 1)))

theorem upperLetter_char {c : Char} (h : UpperLetter c) : letterIndex c ≠ 0 ∧ upChar c = c ∧ cellCharValue c = some (c.toNat - 64) := by
  unfold UpperLetter at h
  unfold letterIndex upChar cellCharValue
  rw [if_pos (by omega), if_neg (by omega), if_pos (by omega)]
  exact ⟨by omega, rfl, rfl⟩

/-- Letters of the upper case at the start, and what follows. -/
theorem upper_prefix (u : List Char) :
    ∃ ls rest, u = ls ++ rest ∧ (∀ c ∈ ls, UpperLetter c) ∧ (∀ c, rest.head? = some c → ¬ UpperLetter c) := by
  induction u with
  | nil => exact ⟨[], [], rfl, by simp, by simp⟩
  | cons c cs ih =>
    by_cases h : UpperLetter c
    · obtain ⟨ls, rest, rfl, h1, h2⟩ := ih
      exact ⟨c :: ls, rest, rfl, by simpa using ⟨h, h1⟩, h2⟩
    · exact ⟨[], c :: cs, rfl, by simp, by simpa using h⟩

theorem loop_uppers (b : Bool) {ls : List Char} (h : ∀ c ∈ ls, UpperLetter c) (rest : List Char) :
    cellNameLoop b 0 0 (ls ++ rest) = cellNameLoop b ls.length (columnNumber ls) rest := by
  have hm : ls.map upChar = ls := by
    conv => rhs; rw [← List.map_id ls]
    exact List.map_congr_left fun x hx => (upperLetter_char (h x hx)).2.1
  have := cellNameLoop_letters b (fun c hc => (upperLetter_char (h c hc)).1) 0 0 rest (ls := ls)
  rw [hm] at this
  simpa using this

theorem mem_pyFrom {α : Type} {l : List α} {i : Int} {x : α} (h : x ∈ pyFrom l i) : x ∈ l := by
  unfold pyFrom at h
  split at h <;> exact List.mem_of_mem_drop h

/-- C51, exactly, for all texts: `cell_name_to_rowx_colx` gives the row and the column that the text is taken for, and raises for all
others.  Of `int` it is used that it reads no text of which the upper case is only letters A to Z, nor an empty one. -/
theorem C51_exact (E : XlEnv) (hI : ∀ t n, E.int t = .ok n → ∃ c ∈ t, ∃ x ∈ E.up c, ¬ UpperLetter x) (s : List Char) (noCol : Bool)
    (r : Int) (k : Option Nat) : cellNameToRowxColx E s noCol = .ok (r, k) ↔ TakenFor E s noCol r k := by
  obtain ⟨ls, rest, hu, h1, h2⟩ := upper_prefix (s.flatMap E.up)
  have uniq : ∀ ls' d rest', s.flatMap E.up = ls' ++ d :: rest' → (∀ c ∈ ls', UpperLetter c) → (49 ≤ d.toNat ∧ d.toNat ≤ 57) →
      ls' = ls ∧ rest = d :: rest' := by
    intro ls' d rest' e h3 h4
    rw [hu] at e
    have hd : ¬ UpperLetter d := by unfold UpperLetter; omega
    clear hu
    induction ls generalizing ls' with
    | nil =>
      cases ls' with
      | nil => exact ⟨rfl, by simpa using e⟩
      | cons c cs =>
        simp only [List.nil_append, List.cons_append] at e
        exact absurd (h3 c (by simp)) (h2 c (by rw [e]; rfl))
    | cons a as ih =>
      cases ls' with
      | nil =>
        simp only [List.nil_append, List.cons_append, List.cons.injEq] at e
        exact absurd (h1 a (by simp)) (by rw [e.1]; exact hd)
      | cons c cs =>
        simp only [List.cons_append, List.cons.injEq] at e
        obtain ⟨g1, g2⟩ := ih (fun c hc => h1 c (by simp [hc])) cs e.2 (fun c hc => h3 c (by simp [hc]))
        exact ⟨by rw [e.1, g1], g2⟩
  unfold cellNameToRowxColx
  rw [hu, loop_uppers noCol h1]
  cases rest with
  | nil =>
    constructor
    · intro h
      dsimp only [cellNameLoop] at h
      cases hi : E.int (pyFrom s ((ls.length : Int) - 1)) with
      | error e => rw [hi] at h; simp at h
      | ok n =>
        obtain ⟨c, hc, x, hx, hn⟩ := hI _ _ hi
        exact absurd (h1 x (by
          have : x ∈ s.flatMap E.up := List.mem_flatMap.2 ⟨c, mem_pyFrom hc, hx⟩
          rw [hu] at this
          simpa using this)) hn
    · rintro ⟨ls', d, rest', e, h3, h4, _⟩
      exact absurd (uniq ls' d rest' e h3 h4).2 (by simp)
  | cons d rest =>
    by_cases hd : 49 ≤ d.toNat ∧ d.toNat ≤ 57
    · have hv : cellCharValue d = some 0 := by
        unfold cellCharValue
        rw [if_neg (by omega), if_pos hd]
      have key : TakenFor E s noCol r k ↔ E.int (s.drop ls.length) = .ok (r + 1) ∧
          ((ls = [] ∧ noCol = true ∧ k = none) ∨ (ls ≠ [] ∧ columnNumber ls ≤ 16384 ∧ k = some (columnNumber ls - 1))) := by
        constructor
        · rintro ⟨ls', d', rest', e, h3, h4, h5⟩
          obtain ⟨rfl, -⟩ := uniq ls' d' rest' e h3 h4
          exact h5
        · exact fun h => ⟨ls, d, rest, hu, h1, hd, h⟩
      rw [key]
      unfold cellNameLoop
      rw [hv]
      have hp : pyFrom s (ls.length : Int) = s.drop ls.length := by
        unfold pyFrom
        rw [if_neg (by omega)]
        simp
      by_cases hl : ls = []
      · subst hl
        cases noCol with
        | false => simp
        | true =>
          simp only [List.length_nil, Int.natCast_zero, List.drop_zero] at hp
          simp only [List.length_nil, if_true, hp, List.drop_zero]
          cases E.int s with
          | error e => simp
          | ok n =>
            simp only [Except.ok.injEq, Prod.mk.injEq, ne_eq, not_true_eq_false, false_and, or_false, true_and]
            constructor
            · rintro ⟨h, rfl⟩; exact ⟨by omega, rfl⟩
            · rintro ⟨h, rfl⟩; exact ⟨by omega, rfl⟩
      · have h0 : ls.length ≠ 0 := by simpa using hl
        have hpos := columnNumber_pos hl (fun c hc => (upperLetter_char (h1 c hc)).1)
        by_cases hc : columnNumber ls ≤ 16384
        · simp only [if_neg h0, if_pos (show 0 ≤ ((columnNumber ls : Int)) - 1 ∧ columnNumber ls - 1 < 16384 by omega), hp]
          cases E.int (s.drop ls.length) with
          | error e => simp
          | ok n =>
            simp only [Except.ok.injEq, Prod.mk.injEq, hl, hc, ne_eq, false_and, false_or, not_false_eq_true, true_and]
            constructor
            · rintro ⟨h, rfl⟩; exact ⟨by omega, rfl⟩
            · rintro ⟨h, rfl⟩; exact ⟨by omega, rfl⟩
        · simp only [if_neg h0, if_neg (show ¬ (0 ≤ ((columnNumber ls : Int)) - 1 ∧ columnNumber ls - 1 < 16384) by omega)]
          simp [hl, hc]
    · have hv : cellCharValue d = none := by
        have := h2 d rfl
        unfold UpperLetter at this
        unfold cellCharValue
        rw [if_neg (by omega), if_neg hd]
      unfold cellNameLoop
      rw [hv]
      constructor
      · intro h; simp at h
      · rintro ⟨ls', d', rest', e, h3, h4, _⟩
        have := (uniq ls' d' rest' e h3 h4).2
        rw [List.cons.injEq] at this
        exact absurd h4 (by rw [← this.1]; exact hd)

theorem exBody_some {s : List Char} {p : Bool} {acc n : Nat} (h : exBody p acc s = some n) (hp : p = false) :
    ∃ c ∈ s, DecDigit c := by
  induction s generalizing p acc with
  | nil => subst hp; simp [exBody] at h
  | cons c cs ih =>
    rw [exBody] at h
    by_cases hd : isDigit c = true
    · exact ⟨c, by simp, isDigit_iff.1 hd⟩
    · rw [if_neg hd] at h
      split at h
      · obtain ⟨x, hx, h1⟩ := ih h rfl
        exact ⟨x, by simp [hx], h1⟩
      · simp at h

/-- C51_exact: `int` of the examples is such. -/
theorem exXl_int (t : List Char) (n : Int) (h : exXl.int t = .ok n) : ∃ c ∈ t, ∃ x ∈ exXl.up c, ¬ UpperLetter x := by
  change exInt t = .ok n at h
  unfold exInt at h
  cases hb : exBody false 0 (exSign (strip t)).2 with
  | none => rw [hb] at h; simp at h
  | some m =>
    obtain ⟨c, hc, hd⟩ := exBody_some hb rfl
    have h1 : c ∈ strip t := by
      revert hc
      unfold exSign
      split
      · rename_i e; rw [e]; intro h; simp [h]
      · rename_i e; rw [e]; intro h; simp [h]
      · exact id
    refine ⟨c, ?_, c, ?_, ?_⟩
    · unfold strip rstrip lstrip at h1
      exact (List.dropWhile_sublist _).subset (List.mem_reverse.1 ((List.dropWhile_sublist _).subset (List.mem_reverse.1 h1)))
    · unfold DecDigit at hd
      rw [exXl_laws.same c (by omega) (by omega)]
      simp
    · unfold DecDigit at hd
      unfold UpperLetter
      omega

example := C51_exact exXl exXl_int ['ß', '1', '2'] false 1 (some 512)

/-- `ß12` is taken for the cell in row 2 and column SS. -/
example : TakenFor exXl ['ß', '1', '2'] false 1 (some 512) :=
  ⟨['S', 'S'], '1', ['2'], by rfl, by simp [UpperLetter], by decide, by rfl, .inr ⟨by simp, by decide, by rfl⟩⟩

end CP
