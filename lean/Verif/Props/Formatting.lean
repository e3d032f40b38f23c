import Verif.Model.Formatting
import Verif.Spec.Formatting
/-!
# Date formats: C52
-/

namespace CP

open Spec

theorem reduceFmt_text {q rest : List Char} (h : '"' ∉ q) : reduceFmt .text (q ++ '"' :: rest) = reduceFmt .plain rest := by
  induction q with
  | nil => simp [reduceFmt]
  | cons c q ih =>
    simp only [List.mem_cons, not_or] at h
    rw [List.cons_append, reduceFmt, if_neg (fun e => h.1 e.symm), ih h.2]

theorem reduceFmt_open {q : List Char} (h : '"' ∉ q) : reduceFmt .text q = [] := by
  induction q with
  | nil => rfl
  | cons c q ih =>
    simp only [List.mem_cons, not_or] at h
    rw [reduceFmt, if_neg (fun e => h.1 e.symm), ih h.2]

theorem visible_iff {fmt v : List Char} : Visible fmt v → reduceFmt .plain fmt = v := by
  intro h
  induction h with
  | nil => rfl
  | quoted hq _ ih => rw [reduceFmt, if_pos rfl, reduceFmt_text hq, ih]
  | unclosed hq => rw [reduceFmt, if_pos rfl, reduceFmt_open hq]
  | escaped hm _ ih => rcases hm with rfl | rfl | rfl <;> simpa [reduceFmt] using ih
  | escape hm => rcases hm with rfl | rfl | rfl <;> simp [reduceFmt]
  | @skip c rest v hc _ ih =>
    have h1 : c ∈ skipChars := by simpa [skipChars] using hc
    have h2 : c ≠ '"' := by rintro rfl; simp [skipChars] at h1
    have h3 : c ∉ ['\\', '_', '*'] := by
      intro h3
      simp only [List.mem_cons, List.not_mem_nil, or_false] at h3
      rcases h3 with rfl | rfl | rfl <;> simp [skipChars] at h1
    rw [reduceFmt, if_neg h2, if_neg h3, if_pos h1, ih]
  | @char c rest v hc _ ih =>
    simp at hc
    rw [reduceFmt, if_neg hc.1, if_neg (by simp; grind), if_neg (by simp [skipChars]; grind), ih]

/-- Each string has visible characters. -/
theorem visible_exists (fmt : List Char) : ∃ v, Visible fmt v := by
  have key : ∀ n (fmt : List Char), fmt.length ≤ n → ∃ v, Visible fmt v := by
    intro n
    induction n with
    | zero => intro fmt h; cases fmt with
      | nil => exact ⟨_, .nil⟩
      | cons => simp at h
    | succ n ih =>
      intro fmt h
      cases fmt with
      | nil => exact ⟨_, .nil⟩
      | cons c cs =>
        simp only [List.length_cons] at h
        by_cases h1 : c = '"'
        · subst h1
          by_cases hq : '"' ∈ cs
          · obtain ⟨q, rest, rfl, hno⟩ := List.eq_append_cons_of_mem hq
            obtain ⟨v, hv⟩ := ih rest (by simp at h; omega)
            exact ⟨v, .quoted hno hv⟩
          · exact ⟨_, .unclosed hq⟩
        · by_cases h2 : c = '\\' ∨ c = '_' ∨ c = '*'
          · cases cs with
            | nil => exact ⟨_, .escape h2⟩
            | cons d cs =>
              obtain ⟨v, hv⟩ := ih cs (by simp at h; omega)
              exact ⟨v, .escaped h2 hv⟩
          · obtain ⟨v, hv⟩ := ih cs (by omega)
            by_cases h3 : c ∈ "$-+/(): ".toList
            · exact ⟨v, .skip h3 hv⟩
            · refine ⟨c :: v, .char ?_ hv⟩
              simp at h3 ⊢
              grind
  exact key _ fmt (Nat.le_refl _)

theorem stripBrackets_in {x rest : List Char} (h : ']' ∉ x) :
    stripBrackets true (x ++ ']' :: rest) = stripBrackets false rest := by
  induction x with
  | nil => simp [stripBrackets]
  | cons c x ih =>
    simp only [List.mem_cons, not_or] at h
    rw [List.cons_append, stripBrackets, if_neg (fun e => h.1 e.symm), ih h.2]

theorem stripBrackets_none {s : List Char} (h : ']' ∉ s) : stripBrackets false s = s := by
  induction s with
  | nil => rfl
  | cons c s ih =>
    simp only [List.mem_cons, not_or] at h
    rw [stripBrackets, if_neg (fun e => h.2 e.2), ih h.2]

theorem unbracketed_eq {v w : List Char} (h : Unbracketed v w) : stripBrackets false v = w := by
  induction h with
  | nil => rfl
  | «section» hx _ ih => rw [stripBrackets, if_pos (by simp), stripBrackets_in hx, ih]
  | unclosed hx => rw [stripBrackets, if_neg (fun e => hx e.2), stripBrackets_none hx]
  | char hc _ ih => rw [stripBrackets, if_neg (fun e => hc e.1), ih]

theorem unbracketed_exists (v : List Char) : ∃ w, Unbracketed v w := by
  have key : ∀ n (v : List Char), v.length ≤ n → ∃ w, Unbracketed v w := by
    intro n
    induction n with
    | zero => intro v h; cases v with
      | nil => exact ⟨_, .nil⟩
      | cons => simp at h
    | succ n ih =>
      intro v h
      cases v with
      | nil => exact ⟨_, .nil⟩
      | cons c cs =>
        simp only [List.length_cons] at h
        by_cases h1 : c = '['
        · subst h1
          by_cases hq : ']' ∈ cs
          · obtain ⟨x, rest, rfl, hno⟩ := List.eq_append_cons_of_mem hq
            obtain ⟨w, hw⟩ := ih rest (by simp at h; omega)
            exact ⟨w, .section hno hw⟩
          · exact ⟨_, .unclosed hq⟩
        · obtain ⟨w, hw⟩ := ih cs (by omega)
          exact ⟨c :: w, .char h1 hw⟩
  exact key _ v (Nat.le_refl _)

theorem countFmt_eq (s : List Char) (a b : Nat) :
    countFmt a b s = (a + 5 * s.countP dateLetter, b + 5 * s.countP digitPlace) := by
  induction s generalizing a b with
  | nil => rfl
  | cons c s ih =>
    rw [countFmt, List.countP_cons, List.countP_cons]
    have hd : (c ∈ dateChars) = (dateLetter c = true) := by simp [dateChars, dateLetter]
    have hn : (c ∈ numChars) = (digitPlace c = true) := by simp [numChars, digitPlace]
    by_cases h1 : c ∈ dateChars
    · have h2 : ¬ c ∈ numChars := by
        intro h2
        simp only [dateChars, numChars, List.mem_cons, List.not_mem_nil, or_false] at h1 h2
        rcases h2 with rfl | rfl | rfl <;> simp at h1
      rw [if_pos h1, ih, if_pos (hd ▸ h1), if_neg (hn ▸ h2)]
      congr 1; omega
    · rw [if_neg h1]
      by_cases h2 : c ∈ numChars
      · rw [if_pos h2, ih, if_neg (hd ▸ h1), if_pos (hn ▸ h2)]
        congr 1; omega
      · rw [if_neg h2, ih, if_neg (hd ▸ h1), if_neg (hn ▸ h2)]
        simp

/-- C52: `is_date_format_string` says that a format is one for dates if and only if, without
quoted text, escaped characters and bracketed sections, it has more letters of date fields
than placeholders of digits.  (The formats excepted by name have no such letters.) -/
theorem C52_date_format (fmt : List Char) : isDateFormat fmt = true ↔ DateFormat fmt := by
  obtain ⟨v, hv⟩ := visible_exists fmt
  obtain ⟨w, hw⟩ := unbracketed_exists v
  have h1 : stripBrackets false (reduceFmt .plain fmt) = w := by rw [visible_iff hv, unbracketed_eq hw]
  have h2 : DateFormat fmt ↔ w.countP digitPlace < w.countP dateLetter := by
    constructor
    · rintro ⟨v', w', g1, g2, g3⟩
      have e1 : v' = v := by rw [← visible_iff g1, visible_iff hv]
      subst e1
      have e2 : w' = w := by rw [← unbracketed_eq g2, unbracketed_eq hw]
      subst e2
      exact g3
    · exact fun g => ⟨v, w, hv, hw, g⟩
  rw [h2]
  unfold isDateFormat
  rw [h1]
  dsimp only
  by_cases hno : w ∈ nonDateFormats
  · rw [if_pos hno]
    have : ∀ x ∈ nonDateFormats, ¬ (x.countP digitPlace < x.countP dateLetter) := by decide
    simp [this w hno]
  · rw [if_neg hno, countFmt_eq]
    dsimp only
    split
    · simp; omega
    · split
      · simp; omega
      · simp

/-- The state after a part of the format. -/
def fmtState : FmtState → List Char → FmtState
  | st, [] => st
  | .plain, c :: cs =>
    if c = '"' then fmtState .text cs
    else if c ∈ ['\\', '_', '*'] then fmtState .escape cs
    else fmtState .plain cs
  | .text, c :: cs => if c = '"' then fmtState .plain cs else fmtState .text cs
  | .escape, _ :: cs => fmtState .plain cs

theorem reduceFmt_append (st : FmtState) (a b : List Char) :
    reduceFmt st (a ++ b) = reduceFmt st a ++ reduceFmt (fmtState st a) b := by
  induction a generalizing st with
  | nil => cases st <;> rfl
  | cons c a ih =>
    cases st with
    | plain =>
      rw [List.cons_append, reduceFmt, reduceFmt, fmtState]
      split
      · exact ih _
      · split
        · exact ih _
        · split
          · exact ih _
          · rw [ih]; rfl
    | text =>
      rw [List.cons_append, reduceFmt, reduceFmt, fmtState]
      split <;> exact ih _
    | escape => exact ih _

/-- C52: after a part of a format that is complete in itself (a character after it counts),
quoted text and escaped characters make no difference. -/
theorem C52_quoted_ignored {a v : List Char} (h1 : Visible a v) (h2 : Visible (a ++ ['d']) (v ++ ['d'])) (b : List Char) :
    (∀ q, '"' ∉ q → isDateFormat (a ++ '"' :: (q ++ '"' :: b)) = isDateFormat (a ++ b)) ∧
    ∀ m c, m = '\\' ∨ m = '_' ∨ m = '*' → isDateFormat (a ++ m :: c :: b) = isDateFormat (a ++ b) := by
  have hst : fmtState .plain a = .plain := by
    have h := visible_iff h2
    rw [reduceFmt_append, visible_iff h1] at h
    have h := List.append_cancel_left h
    cases hs : fmtState .plain a with
    | plain => rfl
    | text => rw [hs] at h; simp [reduceFmt] at h
    | escape => rw [hs] at h; simp [reduceFmt] at h
  refine ⟨fun q hq => ?_, fun m c hm => ?_⟩
  · unfold isDateFormat
    rw [reduceFmt_append, reduceFmt_append _ a b, hst, reduceFmt, if_pos rfl, reduceFmt_text hq]
  · unfold isDateFormat
    rw [reduceFmt_append, reduceFmt_append _ a b, hst]
    have : reduceFmt .plain (m :: c :: b) = reduceFmt .plain b := by
      rcases hm with rfl | rfl | rfl <;> simp [reduceFmt]
    rw [this]

example : Visible ['d'] ['d'] ∧ Visible (['d'] ++ ['d']) (['d'] ++ ['d']) := by
  refine ⟨.char (by decide) .nil, .char (by decide) (.char (by decide) .nil)⟩

example : isDateFormat "yyyy-mm-dd".toList = true := by decide +kernel
example : isDateFormat ['0', '.', '0', '\\', 'd', '"', 'd', 'd', '"'] = false := by decide +kernel
example : isDateFormat "[$-409]h:mm AM/PM;@".toList = true := by decide +kernel
example : isDateFormat "[h]".toList = false := by decide +kernel
example : isDateFormat "General".toList = false := by decide +kernel
example : DateFormat ['d', '"', '0', '"'] := (C52_date_format _).1 (by decide +kernel)

end CP
