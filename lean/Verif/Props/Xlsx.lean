import Verif.Lemmas.XlsxSheet
import Verif.Props.ReadXl
/-!
# C51: cell names of xlsx files
-/

namespace CP
open Spec

/-- C51 for names of ASCII letters and digits: `cell_name_to_rowx_colx` gives row `r` and
column `c` if and only if the text names that cell (and the column is within the limit); all
other text is rejected.

The full statement, for all texts, is false, see `C51_counterexample`. -/
theorem C51_cell_names_partial {E : XlEnv} (hE : XlLaws E) (s : List Char) (hs : ∀ c ∈ s, AlNum c) (r : Int) (k : Option Nat) :
    cellNameToRowxColx E s false = .ok (r, k) ↔ ∃ r' c : Nat, r = r' ∧ k = some c ∧ c < 16384 ∧ CellName s r' c := by
  constructor
  · exact cellName_of_ok hE hs
  · rintro ⟨r', c, rfl, rfl, h1, h2⟩
    rw [cellName_ok hE h2, if_pos h1]

/-- C51: the name of each cell leads back to it, in either case of letters. -/
theorem C51_inverse {E : XlEnv} (hE : XlLaws E) (r c : Nat) (hc : c < 16384) (noCol : Bool) :
    cellNameToRowxColx E (colname c ++ decNat (r + 1)) noCol = .ok ((r : Int), some c) ∧
    (∀ s, s.map upChar = colname c ++ decNat (r + 1) → (∀ x ∈ s, AlNum x) →
      cellNameToRowxColx E s noCol = .ok ((r : Int), some c)) := by
  have key : ∀ s, s.map upChar = colname c ++ decNat (r + 1) → (∀ x ∈ s, AlNum x) →
      cellNameToRowxColx E s noCol = .ok ((r : Int), some c) := by
    intro s h1 h2
    obtain ⟨⟨g1, g2⟩, g3⟩ := colname_spec c
    obtain ⟨ls, ds, rfl, e1, e2⟩ := List.map_eq_append_iff.1 h1
    have hu : ∀ x ∈ ls, letterIndex x ≠ 0 := by
      intro x hx
      rcases h2 x (by simp [hx]) with h | h
      · exact h
      · have h3 : upChar x ∈ colname c := by rw [← e1]; exact List.mem_map_of_mem hx
        have h4 := g2 _ h3
        unfold DecDigit at h
        unfold UpperLetter at h4
        rw [upChar_self (by omega)] at h4
        omega
    have hd : ds = decNat (r + 1) := by
      rw [← e2]
      clear e1 h1
      have : ∀ x ∈ ds, upChar x = x := by
        intro x hx
        apply upChar_self
        intro h
        have h3 : upChar x ∈ decNat (r + 1) := by rw [← e2]; exact List.mem_map_of_mem hx
        have h4 := decNat_digits _ _ h3
        unfold DecDigit at h4
        rw [upChar_lower h] at h4
        omega
      conv => lhs; rw [← List.map_id ds]
      exact List.map_congr_left fun x hx => (this x hx).symm
    have hcol : columnNumber ls = c + 1 := by
      rw [← g3, ← columnNumber_upper g2, ← e1]
      clear g1 g2 g3 e1 h1 h2
      induction ls with
      | nil => rfl
      | cons x xs ih =>
        simp only [List.map_cons, columnNumber, List.length_map]
        rw [ih fun y hy => hu y (by simp [hy])]
        congr 2
        have h := upChar_letter (hu x (by simp))
        unfold cellCharValue at h
        unfold letterIndex at *
        grind
    subst hd
    have hn : CellName (ls ++ decNat (r + 1)) r c := by
      refine ⟨ls, _, rfl, ?_, hu, ⟨decNat_ne_nil _, decNat_digits _, decNat_head (by omega)⟩, hcol, ?_⟩
      · rintro rfl
        exact g1 (by simpa using e1.symm)
      · rw [← parseNat_eq (decNat_digits _), parseNat_decNat]
    rw [cellName_ok hE hn, if_pos hc]
  refine ⟨?_, key⟩
  rw [cellName_ok hE (cellName_name r c), if_pos hc]

/-! ## An environment for examples -/

/-- Digits with single underscores between them, as `int()` takes them. -/
def exBody : Bool → Nat → List Char → Option Nat
  | p, acc, [] => if p then some acc else none
  | p, acc, c :: cs =>
    if isDigit c then exBody true (10 * acc + (digitVal c).getD 0) cs
    else if c = '_' ∧ p = true then exBody false acc cs
    else none

/-- A sign, and the text without it. -/
def exSign : List Char → Bool × List Char
  | '-' :: u => (true, u)
  | '+' :: u => (false, u)
  | u => (false, u)

/-- `int(s)` (for ASCII digits). -/
def exInt (s : List Char) : Except Exc Int :=
  match exBody false 0 (exSign (strip s)).2 with
  | none => .error .valueError
  | some n => .ok (if (exSign (strip s)).1 then -(n : Int) else n)

/-- Upper casing, with the one of `ß`. -/
def exUpper : Upper := fun c => if c.toNat = 223 then ['S', 'S'] else exUp c

/-- An environment for examples; numbers are integers there. -/
def exXl : XlEnv where
  up := exUpper
  low := fun s => s.map fun c => if 65 ≤ c.toNat ∧ c.toNat ≤ 90 then Char.ofNat (c.toNat + 32) else c
  int := exInt
  float := fun s => match exInt s with
    | .ok n => .ok (.flt n)
    | .error e => .error e
  path := fun s => "xl/worksheets/".toList ++ s
  notes := fun _ => none
  names := fun _ => none
  props := fun _ => none

theorem exBody_digits {ds : List Char} (h : ∀ c ∈ ds, DecDigit c) (p : Bool) (acc : Nat) (hne : ds ≠ [] ∨ p = true) :
    exBody p acc ds = some (acc * 10 ^ ds.length + decValue ds) := by
  induction ds generalizing p acc with
  | nil =>
    rcases hne with h | h
    · exact absurd rfl h
    · simp [exBody, h, decValue]
  | cons c cs ih =>
    have hc := h c (by simp)
    rw [exBody, if_pos (isDigit_iff.2 hc), ih (fun x hx => h x (by simp [hx])) true _ (Or.inr rfl), digitVal_getD hc]
    simp only [decValue, List.length_cons, Nat.pow_succ, Nat.add_mul]
    have : 10 * acc * 10 ^ cs.length = acc * (10 ^ cs.length * 10) := by
      rw [Nat.mul_comm 10 acc, Nat.mul_assoc, Nat.mul_comm 10]
    congr 1; omega

theorem exBody_none {s : List Char} (h : ∃ c ∈ s, ¬ DecDigit c ∧ c ≠ '_') (p : Bool) (acc : Nat) : exBody p acc s = none := by
  induction s generalizing p acc with
  | nil => obtain ⟨_, h, _⟩ := h; simp at h
  | cons c cs ih =>
    rw [exBody]
    obtain ⟨x, hx, h1, h2⟩ := h
    by_cases hd : isDigit c = true
    · rw [if_pos hd]
      apply ih
      rcases List.mem_cons.1 hx with rfl | h3
      · exact absurd (isDigit_iff.1 hd) h1
      · exact ⟨x, h3, h1, h2⟩
    · rw [if_neg hd]
      split
      · rename_i hu
        apply ih
        rcases List.mem_cons.1 hx with rfl | h3
        · exact absurd hu.1 h2
        · exact ⟨x, h3, h1, h2⟩
      · rfl

theorem AlNum.range {c : Char} (h : AlNum c) :
    (48 ≤ c.toNat ∧ c.toNat ≤ 57) ∨ (65 ≤ c.toNat ∧ c.toNat ≤ 90) ∨ (97 ≤ c.toNat ∧ c.toNat ≤ 122) := by
  unfold AlNum letterIndex DecDigit at h
  split at h
  · omega
  · split at h <;> omega

theorem AlNum.not_space {c : Char} (h : AlNum c) : pySpace c = false := by
  have h := h.range
  unfold pySpace
  simp
  omega

theorem strip_alnum {s : List Char} (h : ∀ c ∈ s, AlNum c) : strip s = s := by
  have := strip_pad (a := []) (b := []) (t := s) (by simp [AllSpace]) (by simp [AllSpace])
    (fun c hc => (h c (List.mem_of_mem_head? hc)).not_space) (fun c hc => (h c (List.mem_of_getLast? hc)).not_space)
  simpa using this

theorem exInt_alnum {s : List Char} (h : ∀ c ∈ s, AlNum c) :
    exInt s = match exBody false 0 s with
      | none => .error .valueError
      | some n => .ok (n : Int) := by
  unfold exInt
  rw [strip_alnum h]
  have hm : exSign s = (false, s) := by
    unfold exSign
    split
    · have := (h '-' (by simp)).range
      exact absurd this (by decide)
    · have := (h '+' (by simp)).range
      exact absurd this (by decide)
    · rfl
  rw [hm]
  rfl

theorem exXl_laws : XlLaws exXl := by
  refine ⟨⟨?_, ?_⟩, ?_, ?_, ?_, ?_⟩
  · intro c h1 h2
    show exUpper c = _
    unfold exUpper
    rw [if_neg (by omega)]
    exact exUp_ascii.upper c h1 h2
  · intro c h1 h2
    show exUpper c = _
    unfold exUpper
    rw [if_neg (by omega)]
    exact exUp_ascii.lower c h1 h2
  · intro c h1 h2
    show exUpper c = _
    unfold exUpper exUp
    rw [if_neg (by omega), if_neg h2]
  · intro ds hne h
    show exInt ds = _
    rw [exInt_alnum (fun c hc => Or.inr (h c hc)), exBody_digits h false 0 (Or.inl hne)]
    simp
  · rfl
  · intro s h ⟨c, hc, hd⟩
    show exInt s = _
    rw [exInt_alnum h, exBody_none ⟨c, hc, hd, ?_⟩]
    rintro rfl
    exact absurd (h _ hc).range (by decide)

/-- C51 is false for other text: `A1_0` is taken for A10, `A1 ` for A1, and `ß12` for the
second row, in the column SS. -/
theorem C51_counterexample : ∃ E, XlLaws E ∧
    cellNameToRowxColx E ['A', '1', '_', '0'] false = .ok (9, some 0) ∧
    cellNameToRowxColx E ['A', '1', ' '] false = .ok (0, some 0) ∧
    cellNameToRowxColx E ['ß', '1', '2'] false = .ok (1, some 512) ∧
    ∀ r c, ¬ CellName ['A', '1', '_', '0'] r c ∧ ¬ CellName ['A', '1', ' '] r c ∧ ¬ CellName ['ß', '1', '2'] r c := by
  refine ⟨exXl, exXl_laws, by rfl, by rfl, by rfl, fun r c => ⟨fun h => ?_, fun h => ?_, fun h => ?_⟩⟩
  · exact absurd (cellName_alnum h '_' (by simp)).range (by decide)
  · exact absurd (cellName_alnum h ' ' (by simp)).range (by decide)
  · exact absurd (cellName_alnum h 'ß' (by simp)).range (by decide)

example : cellNameToRowxColx exXl ['X', 'f', 'D', '7'] false = .ok (6, some 16383) := by decide +kernel
example : cellNameToRowxColx exXl ['X', 'F', 'E', '7'] false = .error .assertionError := by decide +kernel
example : ∀ c ∈ ['A', 'a', '1', '0'], AlNum c := by simp [AlNum, letterIndex, DecDigit]

end CP
