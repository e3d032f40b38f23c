import Verif.Lemmas.PyIter
import Verif.Lemmas.ReadXl
import Verif.Lemmas.Dict
import Verif.Props.XlDate
import Verif.Props.IntKeyDict
/-!
# C27-C31, C55: reading spread sheets
-/

namespace CP
open Spec

/-- ASCII upper casing, for the examples. -/
def exUp : Upper := fun c =>
  if 97 ≤ c.toNat ∧ c.toNat ≤ 122 then [Char.ofNat (c.toNat - 32)] else [c]

theorem exUp_ascii : AsciiUpper exUp := by
  constructor
  · intro c h1 h2; unfold exUp; rw [if_neg (by omega)]
  · intro c h1 h2; unfold exUp; rw [if_pos ⟨h1, h2⟩]

/-! ## C27 -/

/-- Shorter names first, names of one length in alphabetical order. -/
def ShortLex (a b : List Char) : Prop := a.length < b.length ∨ (a.length = b.length ∧ a < b)

/-- C27: letter2num and colname are inverse to each other, between the column names and
the numbers 0, 1, 2, .... -/
theorem C27_bijection {up : Upper} (hup : AsciiUpper up) :
    (∀ s, ColName s → ∃ n, letter2num up s = .ok n ∧ colname n = s) ∧
    (∀ n, ColName (colname n) ∧ letter2num up (colname n) = .ok n) := by
  refine ⟨?_, ?_⟩
  · intro s hs
    exact ⟨_, letter2num_eq hup hs, colname_letterValue hs⟩
  · intro n
    obtain ⟨h1, h2⟩ := colname_spec n
    refine ⟨h1, ?_⟩
    rw [letter2num_eq hup h1, h2]; rfl

theorem char_lt {a b : Char} (h : a < b) : a.toNat < b.toNat := h

theorem letterValue_lt {a b : List Char} (ha : ∀ c ∈ a, UpperLetter c)
    (hb : ∀ c ∈ b, UpperLetter c) (h : ShortLex a b) : letterValue a < letterValue b := by
  rcases h with h | ⟨hl, hlt⟩
  · obtain ⟨h1, _⟩ := letterValue_bounds ha
    obtain ⟨_, h2⟩ := letterValue_bounds hb
    have h3 : 26 ^ (a.length + 1) ≤ 26 ^ b.length := Nat.pow_le_pow_right (by omega) h
    rw [Nat.pow_succ] at h3
    omega
  · induction a generalizing b with
    | nil =>
      cases b with
      | nil => exact absurd hlt (List.lt_irrefl _)
      | cons _ _ => simp at hl
    | cons x xs ih =>
      cases b with
      | nil => simp at hl
      | cons y ys =>
        have hl' : xs.length = ys.length := by simpa using hl
        have hax : ∀ c ∈ xs, UpperLetter c := fun c hc => ha c (by simp [hc])
        have hby : ∀ c ∈ ys, UpperLetter c := fun c hc => hb c (by simp [hc])
        rcases List.cons_lt_cons_iff.1 hlt with h | ⟨h1, h2⟩
        · obtain ⟨hx1, hx2⟩ := ha x (by simp)
          obtain ⟨b1, _⟩ := letterValue_bounds hax
          obtain ⟨_, b2⟩ := letterValue_bounds hby
          have hc := char_lt h
          simp only [letterValue]
          rw [← hl'] at b2 ⊢
          generalize 26 ^ xs.length = P at *
          have h3 : (x.toNat - 64 + 1) * P ≤ (y.toNat - 64) * P :=
            Nat.mul_le_mul_right P (by omega)
          rw [Nat.add_mul] at h3
          omega
        · have := ih hax hby hl' h2
          simp only [letterValue, h1, hl']
          omega

/-- C27: in the order A..Z, AA..ZZ, AAA... -/
theorem C27_order {up : Upper} (hup : AsciiUpper up) (a b : List Char) (ha : ColName a)
    (hb : ColName b) (h : ShortLex a b) :
    ∃ m n, letter2num up a = .ok m ∧ letter2num up b = .ok n ∧ m < n := by
  refine ⟨_, _, letter2num_eq hup ha, letter2num_eq hup hb, ?_⟩
  have := letterValue_lt ha.2 hb.2 h
  have := letterValue_pos ha
  omega

/-- Upper case of an ASCII letter. -/
def asciiUp (c : Char) : Char := if 97 ≤ c.toNat then Char.ofNat (c.toNat - 32) else c

theorem isLetter_iff {c : Char} :
    isLetter c = true ↔ (65 ≤ c.toNat ∧ c.toNat ≤ 90) ∨ (97 ≤ c.toNat ∧ c.toNat ≤ 122) := by
  simp [isLetter]

theorem asciiUp_upper {c : Char} (h : isLetter c = true) : UpperLetter (asciiUp c) := by
  unfold asciiUp UpperLetter
  rw [isLetter_iff] at h
  split
  · rw [ofNat_toNat (by omega)]; omega
  · omega

theorem flatMap_letters {up : Upper} (hup : AsciiUpper up) {s : List Char}
    (h : ∀ c ∈ s, isLetter c = true) : s.flatMap up = s.map asciiUp := by
  induction s with
  | nil => rfl
  | cons c cs ih =>
    have hc := isLetter_iff.1 (h c (by simp))
    rw [List.flatMap_cons, List.map_cons, ih (fun x hx => h x (by simp [hx]))]
    have : up c = [asciiUp c] := by
      unfold asciiUp
      split
      · exact hup.lower c (by omega) (by omega)
      · exact hup.upper c (by omega) (by omega)
    rw [this]; rfl

theorem colName_map {s : List Char} (hne : s ≠ []) (h : ∀ c ∈ s, isLetter c = true) :
    ColName (s.map asciiUp) := by
  refine ⟨by simpa using hne, ?_⟩
  intro c hc
  obtain ⟨x, hx, rfl⟩ := List.mem_map.1 hc
  exact asciiUp_upper (h x hx)

theorem letter2num_letters {up : Upper} (hup : AsciiUpper up) {s : List Char} (hne : s ≠ [])
    (h : ∀ c ∈ s, isLetter c = true) :
    letter2num up s = .ok (letterValue (s.map asciiUp) - 1) := by
  have h1 := letter2num_eq hup (colName_map hne h)
  unfold letter2num at h1 ⊢
  rw [flatMap_upper hup (colName_map hne h).2] at h1
  rw [flatMap_letters hup h]
  exact h1

/-- C27: case does not matter, and anything that is not a letter is rejected, as far as
`upper()` leaves it alone. -/
theorem C27_case_and_rejection {up : Upper} (hup : AsciiUpper up) :
    (∀ s, s ≠ [] → (∀ c ∈ s, isLetter c = true) →
      letter2num up s = letter2num up (s.map asciiUp)) ∧
    (letter2num up [] = .error .assertionError) ∧
    (∀ s c, c ∈ s → up c = [c] → ¬ UpperLetter c → letter2num up s = .error .assertionError) := by
  refine ⟨?_, rfl, ?_⟩
  · intro s hne h
    rw [letter2num_letters hup hne h, letter2num_eq hup (colName_map hne h)]
  · intro s c hc hup' hnc
    have hmem : c ∈ s.flatMap up := by
      rw [List.mem_flatMap]; exact ⟨c, hc, by rw [hup']; simp⟩
    have hloop : ∀ (l : List Char) res, c ∈ l → letterLoop res l = .error .assertionError := by
      intro l
      induction l with
      | nil => intro res h; simp at h
      | cons x xs ih =>
        intro res h
        unfold letterLoop
        split
        · rename_i hx
          rcases List.mem_cons.1 h with h1 | h1
          · subst h1; exact absurd hx hnc
          · exact ih _ h1
        · rfl
    unfold letter2num
    simp only
    rw [if_neg (by intro h0; rw [List.length_eq_zero_iff] at h0; rw [h0] at hmem; simp at hmem),
      hloop _ 0 hmem]

example : letter2num exUp ['A', 'M', 'J'] = .ok 1023 ∧ letter2num exUp ['a', 'z'] = .ok 51 ∧
    colname 1023 = ['A', 'M', 'J'] ∧ ColName ['A', 'M', 'J'] := by
  refine ⟨by decide, by decide, by simp [colname], by simp, ?_⟩
  intro c hc
  simp at hc
  rcases hc with rfl | rfl | rfl <;> exact ⟨by decide, by decide⟩

/-! ## C28 -/

/-- C28: letters and a row number; letters only; row 0; no letter first. -/
theorem C28_cell_references {up : Upper} (hup : AsciiUpper up) (row col : Int) :
    (∀ (c : Nat) (r : Nat) (letters : List Char), (∀ x ∈ letters, isLetter x = true) →
      letters.map asciiUp = colname c → 1 ≤ r →
      cellreference up row col (some (letters ++ decNat r)) = .ok ((r : Int) - 1, (c : Int))) ∧
    (∀ (c : Nat) (letters : List Char), (∀ x ∈ letters, isLetter x = true) →
      letters.map asciiUp = colname c →
      cellreference up row col (some letters) = .ok (row, (c : Int)) ∧
      cellreference up row col (some (letters ++ ['0'])) = .error .valueError) ∧
    (∀ (x : Char) (rest : List Char), isLetter x = false →
      cellreference up row col (some (x :: rest)) = .error .valueError) := by
  have hdig : ∀ c : Char, DecDigit c → isLetter c = false := by
    intro c hc
    cases h : isLetter c with
    | false => rfl
    | true => rw [isLetter_iff] at h; unfold DecDigit at hc; omega
  have key : ∀ (c : Nat) (letters : List Char), (∀ x ∈ letters, isLetter x = true) →
      letters.map asciiUp = colname c → letters ≠ [] ∧ letter2num up letters = .ok c := by
    intro c letters hl he
    obtain ⟨h1, h2⟩ := colname_spec c
    have hne : letters ≠ [] := by
      intro h; subst h; exact h1.1 he.symm
    refine ⟨hne, ?_⟩
    rw [letter2num_letters hup hne hl, he, h2]; rfl
  have addr : ∀ (letters ds : List Char), (∀ x ∈ letters, isLetter x = true) → letters ≠ [] →
      (∀ x ∈ ds, DecDigit x) → cellreference up row col (some (letters ++ ds)) =
        if ds = [] then
          match letter2num up letters with
          | .error e => .error e
          | .ok n => .ok (row, n)
        else if parseNat ds < 1 then .error .valueError
        else match letter2num up letters with
          | .error e => .error e
          | .ok n => .ok ((parseNat ds : Int) - 1, n) := by
    intro letters ds hl hne hd
    have hsplit := takeWhile_all (p := isLetter) (s := letters) (t := ds) hl (by
      intro c hc; cases ds with
      | nil => simp at hc
      | cons y ys => simp at hc; subst hc; exact hdig _ (hd _ (by simp)))
    have hd2 := (takeWhile_all (p := isDigit) (s := ds) (t := [])
      (fun c hc => isDigit_iff.2 (hd c hc)) (by simp)).1
    rw [List.append_nil] at hd2
    cases hl' : letters with
    | nil => exact absurd hl' hne
    | cons a as =>
      rw [← hl']
      unfold cellreference
      split
      · rename_i h; simp at h
      · rename_i h; simp [hl'] at h
      · rename_i s _ h
        simp only [Option.some.injEq] at h
        subst h
        simp only
        rw [hsplit.1, hsplit.2, hd2, if_neg hne]
        rfl
  refine ⟨?_, ?_, ?_⟩
  · intro c r letters hl he hr
    obtain ⟨hne, hn⟩ := key c letters hl he
    rw [addr letters (decNat r) hl hne (decNat_digits r), if_neg (decNat_ne_nil r),
      parseNat_decNat, if_neg (by omega), hn]
  · intro c letters hl he
    obtain ⟨hne, hn⟩ := key c letters hl he
    constructor
    · have := addr letters [] hl hne (by simp)
      rw [List.append_nil, if_pos rfl, hn] at this
      exact this
    · rw [addr letters ['0'] hl hne (by
        intro x hx
        simp only [List.mem_singleton] at hx
        subst hx; exact ⟨by decide, by decide⟩), if_neg (by simp),
        if_pos (by decide)]
  · intro x rest hx
    unfold cellreference
    simp only
    rw [if_pos (by simp [hx])]

example : cellreference exUp 0 0 (some ['C', '7']) = .ok (6, 2) ∧
    cellreference exUp 0 0 (some ['a', 'b', '1', '2']) = .ok (11, 27) := by decide

/-- Anything may follow the row number (re.match, not fullmatch). -/
theorem C28_trailing_text_is_ignored :
    cellreference exUp 0 0 (some ['C', '7', 'f', 'o', 'o']) = .ok (6, 2) := by decide

/-! ## C55: xlrd.colname -/

/-- `xlrd.cellname(rowx, colx)`, formula.py:2078-2080 -/
def cellname (rowx colx : Nat) : Except Exc (List Char) :=
  match formulaColname colx with
  | .error e => .error e
  | .ok s => .ok (s ++ decNat (rowx + 1))

theorem formulaColname_spec (n : Nat) :
    formulaColname n = if n < 702 then .ok (colname n) else .error .indexError := by
  unfold formulaColname
  split
  · rw [if_pos (by omega), colname]
    rw [dif_pos (by omega), Nat.mod_eq_of_lt (by omega)]
  · dsimp only
    split
    · rw [if_pos (by omega), colname, dif_neg (by omega), colname]
      rw [dif_pos (by omega), Nat.mod_eq_of_lt (show n / 26 - 1 < 26 by omega)]
      rfl
    · rw [if_neg (by omega)]

/-- C55, for the columns up to ZZ: the name of a cell refers to the cell. -/
theorem C55_cellname_partial {up : Upper} (hup : AsciiUpper up) (rowx colx : Nat)
    (h : colx < 702) :
    ∃ s, cellname rowx colx = .ok s ∧ cellreference up 0 0 (some s) = .ok (rowx, colx) := by
  unfold cellname
  rw [formulaColname_spec, if_pos h]
  refine ⟨_, rfl, ?_⟩
  obtain ⟨h1, _⟩ := colname_spec colx
  have hlet : ∀ x ∈ colname colx, isLetter x = true := by
    intro x hx; rw [isLetter_iff]; exact Or.inl (h1.2 x hx)
  have hmap : (colname colx).map asciiUp = colname colx := by
    rw [show (colname colx).map asciiUp = (colname colx).map id from List.map_congr_left (by
      intro x hx
      have := h1.2 x hx
      unfold UpperLetter at this
      unfold asciiUp
      rw [if_neg (by omega)]; rfl)]
    simp
  have := (C28_cell_references hup 0 0).1 colx (rowx + 1) (colname colx) hlet hmap (by omega)
  rw [this]
  simp

/-- C55 is false from column AAA on: the function raises. -/
theorem C55_counterexample (rowx : Nat) : cellname rowx 702 = .error .indexError := by
  unfold cellname
  rw [formulaColname_spec]
  simp

/-- C55 for all columns: the function raises exactly from column AAA on. -/
theorem C55_exact (rowx colx : Nat) : cellname rowx colx = .error .indexError ↔ 702 ≤ colx := by
  unfold cellname
  rw [formulaColname_spec]
  by_cases h : colx < 702
  · rw [if_pos h]; simp; omega
  · rw [if_neg h]; simp; omega

/-! ## C29 -/

/-- A pattern in a usecols string: a column, or a range of columns, by letters. -/
inductive Pat where
  | one (a : List Char)
  | range (a b : List Char)

def Pat.text : Pat → List Char
  | .one a => a
  | .range a b => a ++ ':' :: b

/-- The letters `s`, in any case, name column `c`. -/
def Names (s : List Char) (c : Nat) : Prop :=
  (∀ x ∈ s, isLetter x = true) ∧ s.map asciiUp = colname c

def Pat.Covers : Pat → Int → Prop
  | .one a, c => ∃ n : Nat, Names a n ∧ c = n
  | .range a b, c => ∃ m n : Nat, Names a m ∧ Names b n ∧ (m : Int) ≤ c ∧ c ≤ n

def Pat.Ok : Pat → Prop
  | .one a => a ≠ [] ∧ ∀ x ∈ a, isLetter x = true
  | .range a b => (a ≠ [] ∧ ∀ x ∈ a, isLetter x = true) ∧ (b ≠ [] ∧ ∀ x ∈ b, isLetter x = true)

/-- A piece of the string between commas: perhaps a pattern, with white space around. -/
structure Piece where
  before : List Char
  pat : Option Pat
  after : List Char

def Piece.text (p : Piece) : List Char :=
  p.before ++ (match p.pat with | some t => t.text | none => []) ++ p.after

def Piece.Ok (p : Piece) : Prop :=
  AllSpace p.before ∧ AllSpace p.after ∧ ∀ t, p.pat = some t → t.Ok

theorem names_exists {s : List Char} (hne : s ≠ []) (h : ∀ x ∈ s, isLetter x = true) :
    ∃ n, Names s n := by
  have hc := colName_map hne h
  exact ⟨_, h, (colname_letterValue hc).symm⟩

theorem names_letter2num {up : Upper} (hup : AsciiUpper up) {s : List Char} {n : Nat}
    (h : Names s n) : letter2num up s = .ok n := by
  obtain ⟨h1, h2⟩ := colname_spec n
  have hne : s ≠ [] := by
    intro h0; subst h0; exact h1.1 h.2.symm
  rw [letter2num_letters hup hne h.1, h.2, h2]; rfl

theorem names_unique {s : List Char} {m n : Nat} (hm : Names s m) (hn : Names s n) : m = n := by
  have h1 := (colname_spec m).2
  have h2 := (colname_spec n).2
  rw [← hm.2] at h1
  rw [← hn.2] at h2
  omega

theorem letter_not_space {c : Char} (h : isLetter c = true) :
    pySpace c = false ∧ c ≠ ',' ∧ c ≠ ':' := by
  rw [isLetter_iff] at h
  have e : (',' : Char).toNat = 44 ∧ (':' : Char).toNat = 58 := by decide
  refine ⟨?_, ?_, ?_⟩
  · simp [pySpace]; omega
  · intro h0; subst h0; omega
  · intro h0; subst h0; omega

theorem space_not_sep {c : Char} (h : pySpace c = true) : c ≠ ',' := by
  intro h0; subst h0; revert h; decide

theorem patternColumns_spec {up : Upper} (hup : AsciiUpper up) (p : Pat) (hp : p.Ok) :
    ∃ cs, patternColumns up p.text = .ok cs ∧ ∀ c, c ∈ cs ↔ p.Covers c := by
  have hcol : ∀ a : List Char, (∀ x ∈ a, isLetter x = true) → ':' ∉ a := by
    intro a ha hm
    exact (letter_not_space (ha _ hm)).2.2 rfl
  cases p with
  | one a =>
    obtain ⟨hne, ha⟩ := hp
    obtain ⟨n, hn⟩ := names_exists hne ha
    refine ⟨[(n : Int)], ?_, ?_⟩
    · show patternColumns up a = _
      unfold patternColumns
      rw [if_neg (hcol a ha), names_letter2num hup hn]
    · intro c
      simp only [List.mem_singleton, Pat.Covers]
      constructor
      · intro h; exact ⟨n, hn, h⟩
      · rintro ⟨m, hm, rfl⟩; rw [names_unique hm hn]
  | range a b =>
    obtain ⟨⟨hna, ha⟩, hnb, hb⟩ := hp
    obtain ⟨m, hm⟩ := names_exists hna ha
    obtain ⟨n, hn⟩ := names_exists hnb hb
    refine ⟨(List.range (n + 1 - m)).map fun i => ((m + i : Nat) : Int), ?_, ?_⟩
    · show patternColumns up (a ++ ':' :: b) = _
      unfold patternColumns
      rw [if_pos (by simp), splitChar_append (hcol a ha), splitChar_free (hcol b hb)]
      simp only
      rw [names_letter2num hup hm, names_letter2num hup hn]
    · intro c
      simp only [List.mem_map, List.mem_range, Pat.Covers]
      constructor
      · rintro ⟨i, hi, rfl⟩
        exact ⟨m, n, hm, hn, by omega, by omega⟩
      · rintro ⟨m', n', hm', hn', h1, h2⟩
        rw [names_unique hm' hm] at h1
        rw [names_unique hn' hn] at h2
        exact ⟨(c - m).toNat, by omega, by omega⟩

theorem pat_text_ends (p : Pat) (hp : p.Ok) : p.text ≠ [] ∧
    (∀ c, p.text.head? = some c → pySpace c = false) ∧
    (∀ c, p.text.getLast? = some c → pySpace c = false) ∧ ',' ∉ p.text := by
  have hl : ∀ a : List Char, (∀ x ∈ a, isLetter x = true) → ∀ c, c ∈ a → pySpace c = false :=
    fun a ha c hc => (letter_not_space (ha c hc)).1
  have hcomma : ∀ a : List Char, (∀ x ∈ a, isLetter x = true) → ',' ∉ a :=
    fun a ha hm => (letter_not_space (ha _ hm)).2.1 rfl
  cases p with
  | one a =>
    obtain ⟨hne, ha⟩ := hp
    exact ⟨hne, fun c hc => hl a ha c (List.mem_of_mem_head? hc),
      fun c hc => hl a ha c (List.mem_of_getLast? hc), hcomma a ha⟩
  | range a b =>
    obtain ⟨⟨hna, ha⟩, hnb, hb⟩ := hp
    refine ⟨by simp [Pat.text], ?_, ?_, ?_⟩
    · intro c hc
      cases a with
      | nil => exact absurd rfl hna
      | cons x xs =>
        simp [Pat.text] at hc
        subst hc; exact hl _ ha _ (by simp)
    · intro c hc
      have : c ∈ b := by
        simp only [Pat.text] at hc
        rw [List.getLast?_append] at hc
        cases b with
        | nil => exact absurd rfl hnb
        | cons y ys =>
          rw [List.getLast?_cons_cons] at hc
          cases h : (y :: ys).getLast? with
          | none => simp at h
          | some z =>
            rw [h] at hc
            simp at hc
            subst hc
            exact List.mem_of_getLast? h
      exact hl b hb c this
    · simp only [Pat.text, List.mem_append, List.mem_cons, not_or]
      exact ⟨hcomma a ha, by decide, hcomma b hb⟩

theorem patternsColumns_spec {up : Upper} (hup : AsciiUpper up) (ps : List Pat)
    (hp : ∀ p ∈ ps, p.Ok) :
    ∃ cs, patternsColumns up (ps.map Pat.text) = .ok cs ∧
      ∀ c, c ∈ cs ↔ ∃ p ∈ ps, p.Covers c := by
  induction ps with
  | nil => exact ⟨[], rfl, by simp⟩
  | cons p ps ih =>
    obtain ⟨cs, h1, h2⟩ := patternColumns_spec hup p (hp p (by simp))
    obtain ⟨rest, h3, h4⟩ := ih (fun q hq => hp q (by simp [hq]))
    refine ⟨cs ++ rest, ?_, ?_⟩
    · simp only [List.map_cons, patternsColumns, h1, h3]
    · intro c
      simp only [List.mem_append, h2, h4, List.mem_cons, exists_eq_or_imp]

/-- C29: any number of patterns, with white space around them and empty pieces
between. -/
theorem C29_usecols_strings {up : Upper} (hup : AsciiUpper up) (pieces : List Piece)
    (hp : ∀ p ∈ pieces, p.Ok) :
    ∃ l, normalizeUsecols up (.str (joinChar ',' (pieces.map Piece.text))) = .ok l ∧
      l.Pairwise (· ≤ ·) ∧
      ∀ c, c ∈ l ↔ ∃ p ∈ pieces, ∃ t, p.pat = some t ∧ t.Covers c := by
  have hstrip : ∀ p ∈ pieces, strip p.text = (match p.pat with | some t => t.text | none => []) := by
    intro p hpm
    obtain ⟨ha, hb, ht⟩ := hp p hpm
    unfold Piece.text
    apply strip_pad ha hb
    · intro c hc
      cases hpat : p.pat with
      | none => rw [hpat] at hc; simp at hc
      | some t => rw [hpat] at hc; exact (pat_text_ends t (ht t hpat)).2.1 c hc
    · intro c hc
      cases hpat : p.pat with
      | none => rw [hpat] at hc; simp at hc
      | some t => rw [hpat] at hc; exact (pat_text_ends t (ht t hpat)).2.2.1 c hc
  have hfree : ∀ q ∈ pieces.map Piece.text, ',' ∉ q := by
    intro q hq hm
    obtain ⟨p, hpm, rfl⟩ := List.mem_map.1 hq
    obtain ⟨ha, hb, ht⟩ := hp p hpm
    unfold Piece.text at hm
    rcases List.mem_append.1 hm with h | h
    · rcases List.mem_append.1 h with h | h
      · exact space_not_sep (ha _ h) rfl
      · cases hpat : p.pat with
        | none => rw [hpat] at h; simp at h
        | some t => rw [hpat] at h; exact (pat_text_ends t (ht t hpat)).2.2.2 h
    · exact space_not_sep (hb _ h) rfl
  have hpats : ((splitChar ',' (joinChar ',' (pieces.map Piece.text))).filter
      fun p => strip p ≠ []).map strip = (pieces.filterMap Piece.pat).map Pat.text := by
    by_cases hne : pieces = []
    · subst hne; decide
    · rw [splitChar_join (by simpa using hne) hfree]
      clear hfree hne
      induction pieces with
      | nil => rfl
      | cons p ps ih =>
        have h1 := hstrip p (by simp)
        have h2 := ih (fun q hq => hp q (by simp [hq])) (fun q hq => hstrip q (by simp [hq]))
        obtain ⟨_, _, ht⟩ := hp p (by simp)
        rw [List.map_cons]
        cases hpat : p.pat with
        | none =>
          rw [hpat] at h1
          simp only at h1
          rw [List.filter_cons_of_neg (by simp [h1]), List.filterMap_cons_none hpat, h2]
        | some t =>
          rw [hpat] at h1
          simp only at h1
          have h3 := (pat_text_ends t (ht t hpat)).1
          rw [List.filter_cons_of_pos (by simp [h1, h3]), List.filterMap_cons_some hpat,
            List.map_cons, List.map_cons, h2, h1]
  have hok : ∀ t ∈ pieces.filterMap Piece.pat, t.Ok := by
    intro t ht
    obtain ⟨p, hpm, hpt⟩ := List.mem_filterMap.1 ht
    exact (hp p hpm).2.2 t hpt
  obtain ⟨cs, h1, h2⟩ := patternsColumns_spec hup _ hok
  refine ⟨sortInts cs, ?_, sortInts_sorted cs, ?_⟩
  · unfold normalizeUsecols
    simp only
    rw [hpats, h1]
  · intro c
    rw [mem_sortInts, h2]
    constructor
    · rintro ⟨t, ht, hc⟩
      obtain ⟨p, hpm, hpt⟩ := List.mem_filterMap.1 ht
      exact ⟨p, hpm, t, hpt, hc⟩
    · rintro ⟨p, hpm, t, hpt, hc⟩
      exact ⟨t, List.mem_filterMap.2 ⟨p, hpm, hpt⟩, hc⟩

/-- C29 for sequences of integers. -/
theorem C29_usecols_sequences (up : Upper) (l : List Int) :
    ∃ r, normalizeUsecols up (.seq l) = .ok r ∧ r.Pairwise (· ≤ ·) ∧ ∀ c, c ∈ r ↔ c ∈ l :=
  ⟨_, rfl, sortInts_sorted l, fun _ => mem_sortInts⟩

example : normalizeUsecols exUp (.str ['H', ',', ' ', 'c', ':', 'E']) = .ok [2, 3, 4, 7] := by decide

example : ([⟨[], some (.one ['H']), []⟩, ⟨[' '], some (.range ['c'] ['E']), []⟩] : List Piece).map
    Piece.text = [['H'], [' ', 'c', ':', 'E']] := by decide

/-! ## C30 -/

def Missing (t : Nat) : Prop := t = 0 ∨ t = 5 ∨ t = 6

instance (t : Nat) : Decidable (Missing t) := inferInstanceAs (Decidable (_ ∨ _))

/-- Numbers and missing cells only. -/
def NumericCol (ts : List Nat) : Prop := ∀ t ∈ ts, t = 2 ∨ Missing t

/-- Text and missing cells only. -/
def TextCol (ts : List Nat) : Prop := ∀ t ∈ ts, t = 1 ∨ Missing t

/-- What a cell of type `t` and value `v` becomes in a column with the types `ts`. -/
inductive Reads (M : XlMul) (datemode : Int) (ts : List Nat) : Nat → Val → Val → Prop where
  | number (t v) : NumericCol ts → ¬ Missing t → Reads M datemode ts t v v
  | noNumber (t v) : NumericCol ts → Missing t → Reads M datemode ts t v .nan
  | text (t v) : ¬ NumericCol ts → TextCol ts → ¬ Missing t → Reads M datemode ts t v v
  | noText (t v) : ¬ NumericCol ts → TextCol ts → Missing t → Reads M datemode ts t v (.str [])
  | nothing (t v) : ¬ NumericCol ts → ¬ TextCol ts → Missing t → Reads M datemode ts t v .none
  | date (v : Val) (x : Rat) (d ms : Int) : ¬ NumericCol ts → ¬ TextCol ts → (v = .flt x ∨ ∃ i : Int, v = .int i ∧ x = i) →
      xldateAsDatetime M x datemode = .ok (d, ms) → Reads M datemode ts 3 v (.datetime d ms)
  | bool (v) : ¬ NumericCol ts → ¬ TextCol ts → Reads M datemode ts 4 v
      (.bool (decide (v = .int 1 ∨ v = .flt 1 ∨ v = .bool true)))
  | other (t v) : ¬ NumericCol ts → ¬ TextCol ts → ¬ Missing t → t ≠ 3 → t ≠ 4 →
      Reads M datemode ts t v v

theorem mem_missing {t : Nat} : t ∈ missingTypes ↔ Missing t := by
  simp [missingTypes, xlEmpty, xlError, xlBlank, Missing]

theorem numeric_iff {ts : List Nat} :
    ts.all (fun t => t ∈ [xlNumber, xlEmpty, xlError, xlBlank]) = true ↔ NumericCol ts := by
  simp [NumericCol, Missing, xlNumber, xlEmpty, xlError, xlBlank]

theorem text_iff {ts : List Nat} :
    ts.all (fun t => t ∈ [xlText, xlEmpty, xlError, xlBlank]) = true ↔ TextCol ts := by
  simp [TextCol, Missing, xlText, xlEmpty, xlError, xlBlank]

theorem mixedCell_reads {M : XlMul} {dm : Int} {ts : List Nat} {v : Val} {t : Nat} {w : Val}
    (hn : ¬ NumericCol ts) (ht : ¬ TextCol ts) (h : mixedCell M dm v t = .ok w) :
    Reads M dm ts t v w := by
  unfold mixedCell at h
  by_cases h3 : t = xlDate
  · rw [if_pos h3] at h
    have ht3 : t = 3 := h3
    clear h3
    subst ht3
    have key : ∀ x : Rat, (v = .flt x ∨ ∃ i : Int, v = .int i ∧ x = i) →
        (match xldateAsDatetime M x dm with
          | .error e => .error e
          | .ok (d, ms) => .ok (Val.datetime d ms)) = Except.ok w → Reads M dm ts 3 v w := by
      intro x hx h
      cases hd : xldateAsDatetime M x dm with
      | error e => rw [hd] at h; simp at h
      | ok p =>
        obtain ⟨d, ms⟩ := p
        rw [hd] at h
        simp only [Except.ok.injEq] at h
        subst h
        exact .date v x d ms hn ht hx hd
    cases v with
    | int i => exact key i (Or.inr ⟨i, rfl, rfl⟩) h
    | flt q => exact key q (Or.inl rfl) h
    | _ => simp at h
  · rw [if_neg h3] at h
    split at h
    · rename_i hm
      simp only [Except.ok.injEq] at h
      subst h
      exact .nothing _ _ hn ht (mem_missing.1 hm)
    · rename_i hm
      split at h
      · rename_i h4
        have : t = 4 := h4
        subst this
        simp only [Except.ok.injEq] at h
        subst h
        have : v.eqOne = decide (v = .int 1 ∨ v = .flt 1 ∨ v = .bool true) := by
          cases v <;> simp [Val.eqOne]
        rw [this]
        exact .bool _ hn ht
      · rename_i h4
        simp only [Except.ok.injEq] at h
        subst h
        exact .other _ _ hn ht (fun hm' => hm (mem_missing.2 hm')) h3 h4

/-- C30: as long as all dates can be converted. -/
theorem C30_columns_typed (M : XlMul) (dm : Int) (values : List Val) (types : List Nat)
    (hlen : values.length = types.length) :
    (∀ out, columnOf M dm values types = .ok out →
      out.length = types.length ∧
      ∀ i : Nat, ∀ v t, values[i]? = some v → types[i]? = some t →
        ∃ w, out[i]? = some w ∧ Reads M dm types t v w) ∧
    ((∀ i : Nat, ∀ v, values[i]? = some v → types[i]? = some 3 →
        ∃ x d ms, (v = .flt x ∨ ∃ i : Int, v = .int i ∧ x = i) ∧
          xldateAsDatetime M x dm = .ok (d, ms)) →
      ∃ out, columnOf M dm values types = .ok out) := by
  by_cases hn : NumericCol types
  · have : columnOf M dm values types =
        .ok (List.zipWith (fun v t => if t ∉ missingTypes then v else .nan) values types) := by
      unfold columnOf; rw [if_pos (numeric_iff.2 hn)]
    rw [this]
    refine ⟨?_, fun _ => ⟨_, rfl⟩⟩
    intro out hout
    simp only [Except.ok.injEq] at hout
    subst hout
    refine ⟨by simp [hlen], ?_⟩
    intro i v t hv ht
    refine ⟨_, by rw [List.getElem?_zipWith, hv, ht], ?_⟩
    split
    · rename_i hm; exact .number _ _ hn (fun h => hm (mem_missing.2 h))
    · rename_i hm; exact .noNumber _ _ hn (mem_missing.1 (Decidable.not_not.1 hm))
  · by_cases htx : TextCol types
    · have : columnOf M dm values types =
          .ok (List.zipWith (fun v t => if t ∉ missingTypes then v else .str []) values types) := by
        unfold columnOf
        rw [if_neg (fun h => hn (numeric_iff.1 h)), if_pos (text_iff.2 htx)]
      rw [this]
      refine ⟨?_, fun _ => ⟨_, rfl⟩⟩
      intro out hout
      simp only [Except.ok.injEq] at hout
      subst hout
      refine ⟨by simp [hlen], ?_⟩
      intro i v t hv ht
      refine ⟨_, by rw [List.getElem?_zipWith, hv, ht], ?_⟩
      split
      · rename_i hm; exact .text _ _ hn htx (fun h => hm (mem_missing.2 h))
      · rename_i hm; exact .noText _ _ hn htx (mem_missing.1 (Decidable.not_not.1 hm))
    · have : columnOf M dm values types =
          mapE (fun p => mixedCell M dm p.1 p.2) (values.zip types) := by
        unfold columnOf
        rw [if_neg (fun h => hn (numeric_iff.1 h)), if_neg (fun h => htx (text_iff.1 h))]
      rw [this]
      constructor
      · intro out hout
        rw [mapE_ok_iff] at hout
        refine ⟨by rw [hout.1]; simp [hlen], ?_⟩
        intro i v t hv ht
        obtain ⟨w, hw, hm⟩ := hout.2 i (v, t) (by rw [List.getElem?_zip_eq_some]; exact ⟨hv, ht⟩)
        exact ⟨w, hw, mixedCell_reads hn htx hm⟩
      · intro hd
        apply mapE_total
        rintro ⟨v, t⟩ hm
        obtain ⟨i, hi⟩ := List.mem_iff_getElem?.1 hm
        rw [List.getElem?_zip_eq_some] at hi
        unfold mixedCell
        split
        · rename_i h3
          have : t = 3 := h3
          subst this
          obtain ⟨x, d, ms, hx, hdd⟩ := hd i v hi.1 hi.2
          rcases hx with hx | ⟨k, hx, hx2⟩
          · subst hx; simp only; rw [hdd]; exact ⟨_, rfl⟩
          · subst hx; simp only; rw [← hx2, hdd]; exact ⟨_, rfl⟩
        · split
          · exact ⟨_, rfl⟩
          · split
            · exact ⟨_, rfl⟩
            · exact ⟨_, rfl⟩

example : columnOf exactMul 0 [.flt 1, .str [], .flt 3] [2, 0, 2] = .ok [.flt 1, .nan, .flt 3] ∧
    columnOf exactMul 0 [.str ['a'], .str []] [1, 6] = .ok [.str ['a'], .str []] ∧
    columnOf exactMul 0 [.str ['a'], .flt 43831, .int 1, .int 42] [1, 3, 4, 5] =
      .ok [.str ['a'], .datetime 43831 0, .bool true, .none] := by decide +kernel

/-! ## C31 -/

/-- A sheet as read: `nrows` rows of `ncols` cells. -/
def Sheet.WF (ws : Sheet) : Prop :=
  ws.values.length = ws.nrows ∧ ws.types.length = ws.nrows ∧
  (∀ r ∈ ws.values, r.length = ws.ncols) ∧ (∀ r ∈ ws.types, r.length = ws.ncols)

/-- The value and the type of a cell. -/
def Sheet.HasCell (ws : Sheet) (r c : Int) (v : Val) (t : Nat) : Prop :=
  0 ≤ r ∧ 0 ≤ c ∧ (∃ row, ws.values[r.toNat]? = some row ∧ row[c.toNat]? = some v) ∧
    (∃ row, ws.types[r.toNat]? = some row ∧ row[c.toNat]? = some t)

theorem pyIndex_nonneg {α : Type} {l : List α} {i : Int} (hi : 0 ≤ i) {a : α} :
    pyIndex l i = .ok a ↔ l[i.toNat]? = some a := by
  unfold pyIndex
  simp only
  rw [if_neg (by omega), if_neg (by omega)]
  cases l[i.toNat]? with
  | none => simp
  | some b => simp

theorem cellAt_nonneg {α : Type} {tbl : List (List α)} {r c : Int} (hr : 0 ≤ r) (hc : 0 ≤ c)
    {a : α} : cellAt tbl r c = .ok a ↔
      ∃ row, tbl[r.toNat]? = some row ∧ row[c.toNat]? = some a := by
  unfold cellAt
  constructor
  · intro h
    split at h
    · simp at h
    · rename_i row hrow
      exact ⟨row, (pyIndex_nonneg hr).1 hrow, (pyIndex_nonneg hc).1 h⟩
  · rintro ⟨row, h1, h2⟩
    rw [(pyIndex_nonneg hr).2 h1]
    exact (pyIndex_nonneg hc).2 h2

theorem pyRange_get {a b : Int} {i : Nat} {x : Int} :
    (pyRange a b)[i]? = some x ↔ x = a + i ∧ a + (i : Int) < b := by
  unfold pyRange
  rw [List.getElem?_map]
  by_cases h : i < (b - a).toNat
  · rw [List.getElem?_range h]
    simp only [Option.map_some, Option.some.injEq]
    omega
  · rw [List.getElem?_eq_none (by simpa using h)]
    simp only [Option.map_none, reduceCtorEq, false_iff]
    omega

theorem mem_pyRange {a b x : Int} : x ∈ pyRange a b ↔ a ≤ x ∧ x < b := by
  rw [List.mem_iff_getElem?]
  constructor
  · rintro ⟨i, hi⟩
    rw [pyRange_get] at hi
    omega
  · intro h
    exact ⟨(x - a).toNat, by rw [pyRange_get]; omega⟩

theorem pyRange_length (a b : Int) : (pyRange a b).length = (b - a).toNat := by
  simp [pyRange]

/-- A slice of a column: what it holds, and when it exists. -/
theorem colSlice_spec {α : Type} {nr : Nat} {tbl : List (List α)} {c a b : Int} (hc : 0 ≤ c)
    (ha : 0 ≤ a) (hb : 0 ≤ b) {r : List α} :
    colSlice nr tbl c a b = .ok r ↔
      r.length = ((if b > nr then (nr : Int) else b) - a).toNat ∧
      ∀ i : Nat, i < r.length → ∃ row x, tbl[(a + i).toNat]? = some row ∧
        row[c.toNat]? = some x ∧ r[i]? = some x := by
  unfold colSlice
  simp only
  rw [if_neg (by omega)]
  have hstop : (if b > (nr : Int) then (nr : Int) else if b < 0 then b + nr else b) =
      (if b > nr then (nr : Int) else b) := by
    split
    · rfl
    · rw [if_neg (by omega)]
  rw [hstop, mapE_ok_iff, pyRange_length]
  constructor
  · rintro ⟨h1, h2⟩
    refine ⟨h1, ?_⟩
    intro i hi
    obtain ⟨x, hx, hcell⟩ := h2 i (a + i) (by rw [pyRange_get]; omega)
    rw [cellAt_nonneg (by omega) hc] at hcell
    obtain ⟨row, h3, h4⟩ := hcell
    exact ⟨row, x, h3, h4, hx⟩
  · rintro ⟨h1, h2⟩
    refine ⟨h1, ?_⟩
    intro i x hx
    rw [pyRange_get] at hx
    obtain ⟨row, y, h3, h4, h5⟩ := h2 i (by omega)
    refine ⟨y, h5, ?_⟩
    rw [hx.1, cellAt_nonneg (by omega) hc]
    exact ⟨row, h3, h4⟩

theorem cellreference_nonneg {up : Upper} {addr : Option (List Char)} {r c : Int}
    (h : cellreference up 0 0 addr = .ok (r, c)) : 0 ≤ r ∧ 0 ≤ c := by
  unfold cellreference at h
  split at h
  · simp at h; omega
  · simp at h; omega
  · dsimp only at h
    split at h
    · simp at h
    · split at h
      · split at h
        · simp at h
        · simp at h; omega
      · split at h
        · simp at h
        · split at h
          · simp at h
          · simp at h; omega

/-- The columns asked for: without `usecols` all from the start column to the stop column. -/
def Requested (up : Upper) (usecols : Option Usecols) (c0 c1 : Int) (us : List Int) : Prop :=
  match usecols with
  | none => ∀ c, c ∈ us ↔ c0 ≤ c ∧ c ≤ c1
  | some (.str []) => ∀ c, c ∈ us ↔ c0 ≤ c ∧ c ≤ c1
  | some (.seq []) => ∀ c, c ∈ us ↔ c0 ≤ c ∧ c ≤ c1
  | some u => normalizeUsecols up u = .ok us

/-- The stop cell: the given one, or the last cell of the sheet. -/
def StopCell (up : Upper) (ws : Sheet) (stopcell : Option (List Char)) (r1 c1 : Int) : Prop :=
  ((stopcell = none ∨ stopcell = some []) ∧ r1 = (ws.nrows : Int) - 1 ∧ c1 = (ws.ncols : Int) - 1) ∨
  (stopcell ≠ none ∧ stopcell ≠ some [] ∧ cellreference up 0 0 stopcell = .ok (r1, c1))

/-- The row the names are taken from, if any. -/
def HeaderRow (up : Upper) (header : Header) (r0 : Int) (r : Option Int) : Prop :=
  match header with
  | .yes => r = some r0
  | .no => r = none
  | .addr s => (s = [] ∧ r = none) ∨
      (s ≠ [] ∧ ∃ hr hc, cellreference up 0 0 (some s) = .ok (hr, hc) ∧ r = some hr)
  | .otherTrue => False

/-- The column `c` of the sheet from row `first` to row `last` was read as `col`. -/
def ReadsColumn (M : XlMul) (ws : Sheet) (first last c : Int) (col : List Val) : Prop :=
  col.length = (min (last + 1) ws.nrows - first).toNat ∧
  ∃ types : List Nat, types.length = col.length ∧
    ∀ i : Nat, i < col.length → ∃ v t w, ws.HasCell (first + i) c v t ∧ types[i]? = some t ∧
      col[i]? = some w ∧ Reads M ws.datemode types t v w

theorem sortInts_cons_bounds {l : List Int} {c : Int} {cs : List Int}
    (hs : (c :: cs).Pairwise (· ≤ ·)) (hl : l = c :: cs) :
    ∀ x ∈ l, c ≤ x ∧ x ≤ (c :: cs).getLast (by simp) := by
  subst hl
  have key : ∀ (l : List Int) (hne : l ≠ []), l.Pairwise (· ≤ ·) → ∀ x ∈ l, x ≤ l.getLast hne := by
    intro l
    induction l with
    | nil => intro h; exact absurd rfl h
    | cons a t ih =>
      intro hne hp x hx
      rw [List.pairwise_cons] at hp
      cases t with
      | nil => simp at hx; simp [hx]
      | cons b t =>
        rw [List.getLast_cons (by simp)]
        rcases List.mem_cons.1 hx with rfl | hx
        · exact hp.1 _ (List.getLast_mem _)
        · exact ih (by simp) hp.2 x hx
  intro x hx
  refine ⟨?_, key _ _ hs x hx⟩
  rw [List.pairwise_cons] at hs
  rcases List.mem_cons.1 hx with rfl | hx
  · exact Int.le_refl _
  · exact hs.1 x hx

theorem normalizeUsecols_sorted {up : Upper} {u : Usecols} {r : List Int}
    (h : normalizeUsecols up u = .ok r) : r.Pairwise (· ≤ ·) := by
  unfold normalizeUsecols at h
  cases u with
  | seq l => simp only [Except.ok.injEq] at h; subst h; exact sortInts_sorted l
  | str s =>
    dsimp only at h
    split at h
    · simp at h
    · simp only [Except.ok.injEq] at h; subst h; exact sortInts_sorted _

/-- One column of `sheet_columns`. -/
theorem column_reads {M : XlMul} {ws : Sheet} {c first last : Int} {col : List Val}
    (hc : 0 ≤ c) (hf : 0 ≤ first) (hl : -1 ≤ last)
    (h : (match colSlice ws.nrows ws.values c first (last + 1) with
      | .error e => .error e
      | .ok values =>
        match colSlice ws.nrows ws.types c first (last + 1) with
        | .error e => .error e
        | .ok types => columnOf M ws.datemode values types) = Except.ok col) :
    ReadsColumn M ws first last c col := by
  split at h
  · simp at h
  · rename_i values hv
    split at h
    · simp at h
    · rename_i types ht
      rw [colSlice_spec hc hf (by omega)] at hv ht
      have hlen : values.length = types.length := by rw [hv.1, ht.1]
      obtain ⟨h1, h2⟩ := (C30_columns_typed M ws.datemode values types hlen).1 col h
      refine ⟨?_, types, h1.symm, ?_⟩
      · rw [h1, ht.1]; split <;> omega
      · intro i hi
        obtain ⟨row, x, e1, e2, e3⟩ := hv.2 i (by omega)
        obtain ⟨row', y, f1, f2, f3⟩ := ht.2 i (by omega)
        obtain ⟨w, hw, hr⟩ := h2 i x y e3 f3
        exact ⟨x, y, w, ⟨by omega, hc, ⟨row, e1, e2⟩, row', f1, f2⟩, f3, hw, hr⟩

theorem names_read {ws : Sheet} (hws : ws.WF) {us : List Int} {r : Int} (hr : 0 ≤ r)
    (hus : ∀ c ∈ us, 0 ≤ c) {ns : List Val}
    (h : mapE (fun col => cellAt ws.values r col) us = .ok ns) :
    ns.length = us.length ∧
    ∀ i : Nat, ∀ c, us[i]? = some c → ∃ v t, ws.HasCell r c v t ∧ ns[i]? = some v := by
  rw [mapE_ok_iff] at h
  refine ⟨h.1, ?_⟩
  intro i c hc
  have hc0 := hus c (List.mem_of_getElem? hc)
  obtain ⟨v, hv, hcell⟩ := h.2 i c hc
  rw [cellAt_nonneg hr hc0] at hcell
  obtain ⟨row, h1, h2⟩ := hcell
  obtain ⟨w1, w2, w3, w4⟩ := hws
  have hrl : r.toNat < ws.nrows := by
    rw [← w1]; exact (List.getElem?_eq_some_iff.1 h1).1
  have hcl : c.toNat < ws.ncols := by
    rw [← w3 row (List.mem_of_getElem? h1)]; exact (List.getElem?_eq_some_iff.1 h2).1
  have h3 : ws.types[r.toNat]? = some (ws.types[r.toNat]'(by omega)) := by simp
  have hlen := w4 _ (List.mem_of_getElem? h3)
  refine ⟨v, (ws.types[r.toNat]'(by omega))[c.toNat]'(by omega), ⟨hr, hc0, ⟨row, h1, h2⟩, ?_⟩, hv⟩
  exact ⟨_, h3, by simp⟩

/-- The columns passed to `normalize_usecols`. -/
theorem requested_of {up : Upper} {usecols : Option Usecols} {c0 c1 : Int} {us : List Int}
    (h : normalizeUsecols up (usecolsArg usecols c0 c1) = .ok us) : Requested up usecols c0 c1 us := by
  unfold usecolsArg at h
  have key : normalizeUsecols up (.seq (pyRange c0 (c1 + 1))) = .ok us →
      ∀ c, c ∈ us ↔ c0 ≤ c ∧ c ≤ c1 := by
    intro h c
    simp only [normalizeUsecols, Except.ok.injEq] at h
    subst h
    rw [mem_sortInts, mem_pyRange]
    omega
  unfold Requested
  split
  · exact key h
  · exact key h
  · exact key h
  · rename_i u h1 h2
    split at h
    · rename_i h3; simp at h3
    · rename_i h3; simp only [Option.some.injEq] at h3; exact absurd h3 (by simpa using h1)
    · rename_i h3; simp only [Option.some.injEq] at h3; exact absurd h3 (by simpa using h2)
    · rename_i h3; simp only [Option.some.injEq] at h3; rw [h3]; exact h

/-- C31: what sheetpack returns. -/
theorem C31_sheetpack_range (up : Upper) (M : XlMul) (ws : Sheet) (hws : ws.WF) (header : Header)
    (startcell stopcell : Option (List Char)) (usecols : Option Usecols)
    (data : List (Int × List Val)) (names : List (Int × Val))
    (h : sheetpack up M ws header startcell stopcell usecols = .ok (data, names)) :
    ∃ r0 c0 r1 c1 us hrow, cellreference up 0 0 startcell = .ok (r0, c0) ∧
      StopCell up ws stopcell r1 c1 ∧ Requested up usecols c0 c1 us ∧
      HeaderRow up header r0 hrow ∧
      (∀ c ∈ us, c0 ≤ c ∧ c ≤ c1) ∧
      (∀ c, (∃ col, dget data c = some col) ↔ c ∈ us) ∧
      (∀ c col, dget data c = some col →
        ReadsColumn M ws (if header = .yes then r0 + 1 else r0) r1 c col) ∧
      (∀ c, (∃ v, dget names c = some v) ↔ hrow ≠ none ∧ c ∈ us) ∧
      (∀ c v, dget names c = some v → ∃ r t, hrow = some r ∧ ws.HasCell r c v t) := by
  unfold sheetpack at h
  split at h
  · simp at h
  · simp at h
  rename_i startref stopref0 hstart hstop
  obtain ⟨r0, c0⟩ := startref
  dsimp only at h
  generalize hsr : (if stopcell = none ∨ stopcell = some [] then
      ((ws.nrows : Int) - 1, (ws.ncols : Int) - 1) else stopref0) = stopref at h
  obtain ⟨r1, c1⟩ := stopref
  dsimp only at h
  have h00 := cellreference_nonneg hstart
  have hsc : StopCell up ws stopcell r1 c1 := by
    split at hsr
    · rename_i hn
      simp only [Prod.mk.injEq] at hsr
      exact Or.inl ⟨hn, hsr.1.symm, hsr.2.symm⟩
    · rename_i hn
      subst hsr
      exact Or.inr ⟨fun h => hn (Or.inl h), fun h => hn (Or.inr h), hstop⟩
  have hr1 : -1 ≤ r1 := by
    rcases hsc with ⟨_, h1, _⟩ | ⟨_, _, h1⟩
    · omega
    · have := cellreference_nonneg h1; omega
  split at h
  · simp at h
  · simp at h
  rename_i c cs hus
  have hreq := requested_of hus
  have hsorted := normalizeUsecols_sorted hus
  split at h
  · simp at h
  rename_i hrange
  have hb : ∀ x ∈ c :: cs, c0 ≤ x ∧ x ≤ c1 := by
    intro x hx
    have := sortInts_cons_bounds hsorted rfl x hx
    omega
  have hnn : ∀ x ∈ c :: cs, 0 ≤ x := fun x hx => by have := hb x hx; omega
  clear hrange hus hsorted
  generalize c :: cs = us at hreq hb hnn h
  -- the data
  have hdata : ∀ (first : Int) (cols : List (List Val)), 0 ≤ first →
      sheetColumns M ws first r1 us = .ok cols →
      (∀ c, (∃ col, dget (dictOf (us.zip cols)) c = some col) ↔ c ∈ us) ∧
      (∀ c col, dget (dictOf (us.zip cols)) c = some col → ReadsColumn M ws first r1 c col) := by
    intro first cols hf hc
    unfold sheetColumns at hc
    rw [mapE_ok_iff] at hc
    obtain ⟨d1, d2⟩ := dictOf_zip (ks := us) (vs := cols) hc.1
    refine ⟨fun c => ⟨?_, d2 c⟩, ?_⟩
    · rintro ⟨col, hcol⟩
      obtain ⟨i, hi, _⟩ := d1 c col hcol
      exact List.mem_of_getElem? hi
    · intro c col hcol
      obtain ⟨i, hi, hi2⟩ := d1 c col hcol
      obtain ⟨col', hcol', hcc⟩ := hc.2 i c hi
      rw [hi2] at hcol'
      simp only [Option.some.injEq] at hcol'
      subst hcol'
      exact column_reads (hnn c (List.mem_of_getElem? hi)) hf hr1 hcc
  -- the names
  have hnames : ∀ (r : Int) (ns : List Val), 0 ≤ r →
      mapE (fun col => cellAt ws.values r col) us = .ok ns →
      (∀ c, (∃ v, dget (dictOf (us.zip ns)) c = some v) ↔ some r ≠ none ∧ c ∈ us) ∧
      (∀ c v, dget (dictOf (us.zip ns)) c = some v →
        ∃ r' t, some r = some r' ∧ ws.HasCell r' c v t) := by
    intro r ns hr hns
    obtain ⟨n1, n2⟩ := names_read hws hr hnn hns
    obtain ⟨d1, d2⟩ := dictOf_zip (ks := us) (vs := ns) n1
    refine ⟨fun c => ⟨?_, fun hc => d2 c hc.2⟩, ?_⟩
    · rintro ⟨v, hv⟩
      obtain ⟨i, hi, _⟩ := d1 c v hv
      exact ⟨by simp, List.mem_of_getElem? hi⟩
    · intro c v hv
      obtain ⟨i, hi, hi2⟩ := d1 c v hv
      obtain ⟨v', t, hcell, hv'⟩ := n2 i c hi
      rw [hi2] at hv'
      simp only [Option.some.injEq] at hv'
      subst hv'
      exact ⟨r, t, rfl, hcell⟩
  cases header with
  | yes =>
    dsimp only at h
    cases hns : mapE (fun col => cellAt ws.values r0 col) us with
    | error e => rw [hns] at h; simp at h
    | ok ns =>
      rw [hns] at h
      dsimp only at h
      split at h
      · simp at h
      · rename_i cols hcols
        simp only [Except.ok.injEq, Prod.mk.injEq] at h
        obtain ⟨rfl, rfl⟩ := h
        obtain ⟨e1, e2⟩ := hdata _ _ (by omega) hcols
        obtain ⟨f1, f2⟩ := hnames r0 ns h00.1 hns
        exact ⟨r0, c0, r1, c1, us, some r0, hstart, hsc, hreq, rfl, hb, e1, e2, f1, f2⟩
  | no =>
    dsimp only at h
    split at h
    · simp at h
    · rename_i cols hcols
      simp only [Except.ok.injEq, Prod.mk.injEq] at h
      obtain ⟨rfl, rfl⟩ := h
      obtain ⟨e1, e2⟩ := hdata _ _ h00.1 hcols
      exact ⟨r0, c0, r1, c1, us, none, hstart, hsc, hreq, rfl, hb, e1, e2, by simp [dget],
        by simp [dget]⟩
  | otherTrue =>
    dsimp only at h
    split at h <;> simp at h
  | addr s =>
    dsimp only at h
    cases hcr : cellreference up 0 0 (some s) with
    | error e => rw [hcr] at h; simp at h
    | ok nameref =>
      obtain ⟨hr, hc⟩ := nameref
      rw [hcr] at h
      dsimp only at h
      cases hns : mapE (fun col => cellAt ws.values hr col) us with
      | error e => rw [hns] at h; simp at h
      | ok ns =>
        rw [hns] at h
        dsimp only at h
        split at h
        · simp at h
        · rename_i cols hcols
          obtain ⟨e1, e2⟩ := hdata _ _ h00.1 hcols
          cases s with
          | nil =>
            simp only [Except.ok.injEq, Prod.mk.injEq] at h
            obtain ⟨rfl, rfl⟩ := h
            exact ⟨r0, c0, r1, c1, us, none, hstart, hsc, hreq, Or.inl ⟨rfl, rfl⟩, hb, e1, e2,
              by simp [dget], by simp [dget]⟩
          | cons a s =>
            simp only [Except.ok.injEq, Prod.mk.injEq] at h
            obtain ⟨rfl, rfl⟩ := h
            obtain ⟨f1, f2⟩ := hnames hr ns (cellreference_nonneg hcr).1 hns
            exact ⟨r0, c0, r1, c1, us, some hr, hstart, hsc, hreq,
              Or.inr ⟨by simp, hr, hc, hcr, rfl⟩, hb, e1, e2, f1, f2⟩

/-- All dates of the sheet can be converted. -/
def Sheet.DatesOk (M : XlMul) (ws : Sheet) : Prop :=
  ∀ r c v, ws.HasCell r c v 3 → ∃ x d ms, (v = .flt x ∨ ∃ i : Int, v = .int i ∧ x = i) ∧
    xldateAsDatetime M x ws.datemode = .ok (d, ms)

theorem wf_cell {α : Type} {tbl : List (List α)} {nr nc : Nat} (h1 : tbl.length = nr)
    (h2 : ∀ r ∈ tbl, r.length = nc) {r c : Nat} (hr : r < nr) (hc : c < nc) :
    ∃ row a, tbl[r]? = some row ∧ row[c]? = some a := by
  have h3 : tbl[r]? = some (tbl[r]'(by omega)) := by simp
  have h4 := h2 _ (List.mem_of_getElem? h3)
  exact ⟨_, (tbl[r]'(by omega))[c]'(by omega), h3, by simp⟩

theorem colSlice_total {α : Type} {tbl : List (List α)} {nr nc : Nat} (h1 : tbl.length = nr)
    (h2 : ∀ r ∈ tbl, r.length = nc) {c a b : Int} (hc : 0 ≤ c) (hcn : c < nc) (ha : 0 ≤ a)
    (hb : 0 ≤ b) : ∃ l, colSlice nr tbl c a b = .ok l := by
  unfold colSlice
  dsimp only
  rw [if_neg (by omega)]
  apply mapE_total
  intro x hx
  rw [mem_pyRange] at hx
  have hx2 : x < nr := by
    have h := hx.2
    split at h
    · omega
    · rw [if_neg (by omega)] at h; omega
  obtain ⟨row, v, h3, h4⟩ := wf_cell h1 h2 (r := x.toNat) (c := c.toNat) (by omega) (by omega)
  exact ⟨v, (cellAt_nonneg (by omega) hc).2 ⟨row, h3, h4⟩⟩

theorem requested_normalize {up : Upper} {usecols : Option Usecols} {c0 c1 : Int}
    (hu : ∀ u, usecols = some u → ∃ l, normalizeUsecols up u = .ok l) :
    ∃ us, normalizeUsecols up (usecolsArg usecols c0 c1) = .ok us := by
  unfold usecolsArg
  split
  · exact ⟨_, rfl⟩
  · exact ⟨_, rfl⟩
  · exact ⟨_, rfl⟩
  · exact hu _ rfl

/-- C31: within the sheet, sheetpack does not fail: the start and stop cells and usecols
are well formed, some column is requested and all requested columns are between the start
and the stop column and on the sheet, the row of the names is on the sheet and the dates can
be converted. -/
theorem C31_sheetpack_accepts (up : Upper) (M : XlMul) (ws : Sheet) (hws : ws.WF)
    (hdates : ws.DatesOk M) (header : Header) (startcell stopcell : Option (List Char))
    (usecols : Option Usecols) (r0 c0 r1 c1 : Int)
    (hstart : cellreference up 0 0 startcell = .ok (r0, c0))
    (hstop : StopCell up ws stopcell r1 c1)
    (hu : ∀ u, usecols = some u → ∃ l, normalizeUsecols up u = .ok l)
    (hreq : ∀ us, Requested up usecols c0 c1 us →
      us ≠ [] ∧ ∀ c ∈ us, c0 ≤ c ∧ c ≤ c1 ∧ c < ws.ncols)
    (hrow : header ≠ .otherTrue ∧ (header = .yes → r0 < ws.nrows) ∧ ∀ s, header = .addr s →
      ∃ hr hc, cellreference up 0 0 (some s) = .ok (hr, hc) ∧ hr < ws.nrows) :
    ∃ data names, sheetpack up M ws header startcell stopcell usecols = .ok (data, names) := by
  have h00 := cellreference_nonneg hstart
  have hr1 : -1 ≤ r1 := by
    rcases hstop with ⟨_, h1, _⟩ | ⟨_, _, h1⟩
    · omega
    · have := cellreference_nonneg h1; omega
  have hstop0 : ∃ p, cellreference up 0 0 stopcell = .ok p ∧
      (if stopcell = none ∨ stopcell = some [] then
        ((ws.nrows : Int) - 1, (ws.ncols : Int) - 1) else p) = (r1, c1) := by
    rcases hstop with ⟨hn, h1, h2⟩ | ⟨h1, h2, h3⟩
    · refine ⟨(0, 0), ?_, by rw [if_pos hn, h1, h2]⟩
      rcases hn with rfl | rfl <;> rfl
    · exact ⟨(r1, c1), h3, by rw [if_neg (by simp [h1, h2])]⟩
  obtain ⟨p, hp, hpr⟩ := hstop0
  obtain ⟨us, hus⟩ := requested_normalize (c0 := c0) (c1 := c1) hu
  have hq := requested_of hus
  obtain ⟨hne, hb⟩ := hreq us hq
  unfold sheetpack
  rw [hstart, hp]
  dsimp only
  rw [hpr]
  dsimp only
  rw [hus]
  cases us with
  | nil => exact absurd rfl hne
  | cons c cs =>
  dsimp only
  rw [if_neg (by
    have h1 := hb c (by simp)
    have h2 := hb _ (List.getLast_mem (l := c :: cs) (by simp))
    omega)]
  generalize hul : c :: cs = l at *
  have hcols : ∀ first : Int, 0 ≤ first → ∃ cols, sheetColumns M ws first r1 l = .ok cols := by
    intro first hf
    apply mapE_total
    intro c hc
    have hcb := hb c hc
    obtain ⟨w1, w2, w3, w4⟩ := hws
    obtain ⟨vs, hvs⟩ := colSlice_total w1 w3 (c := c) (a := first) (b := r1 + 1) (by omega) (by omega)
      hf (by omega)
    obtain ⟨ts, hts⟩ := colSlice_total w2 w4 (c := c) (a := first) (b := r1 + 1) (by omega) (by omega)
      hf (by omega)
    rw [hvs, hts]
    dsimp only
    rw [colSlice_spec (by omega) hf (by omega)] at hvs hts
    refine (C30_columns_typed M ws.datemode vs ts (by rw [hvs.1, hts.1])).2 ?_
    intro i v hv ht
    have hi : i < ts.length := (List.getElem?_eq_some_iff.1 ht).1
    obtain ⟨row, x, e1, e2, e3⟩ := hvs.2 i (List.getElem?_eq_some_iff.1 hv).1
    obtain ⟨row', y, f1, f2, f3⟩ := hts.2 i hi
    rw [hv] at e3; rw [ht] at f3
    simp only [Option.some.injEq] at e3 f3
    subst e3; subst f3
    exact hdates (first + i) c v ⟨by omega, by omega, ⟨row, e1, e2⟩, row', f1, f2⟩
  have hnames : ∀ r : Int, 0 ≤ r → r < ws.nrows →
      ∃ ns, mapE (fun col => cellAt ws.values r col) l = .ok ns := by
    intro r h0 hr
    apply mapE_total
    intro c hc
    have hcb := hb c hc
    obtain ⟨w1, w2, w3, w4⟩ := hws
    obtain ⟨row, v, h3, h4⟩ := wf_cell w1 w3 (r := r.toNat) (c := c.toNat) (by omega) (by omega)
    exact ⟨v, (cellAt_nonneg h0 (by omega)).2 ⟨row, h3, h4⟩⟩
  cases header with
  | otherTrue => exact absurd rfl hrow.1
  | no =>
    obtain ⟨cols, hc⟩ := hcols r0 h00.1
    dsimp only; rw [hc]; exact ⟨_, _, rfl⟩
  | yes =>
    obtain ⟨cols, hc⟩ := hcols (r0 + 1) (by omega)
    obtain ⟨ns, hn⟩ := hnames r0 h00.1 (hrow.2.1 rfl)
    dsimp only; rw [hn]; dsimp only; rw [hc]; exact ⟨_, _, rfl⟩
  | addr s =>
    obtain ⟨hr, hc, h1, h2⟩ := hrow.2.2 s rfl
    obtain ⟨cols, hcl⟩ := hcols r0 h00.1
    obtain ⟨ns, hn⟩ := hnames hr (cellreference_nonneg h1).1 h2
    dsimp only; rw [h1]; dsimp only; rw [hn]; dsimp only; rw [hcl]
    cases s <;> exact ⟨_, _, rfl⟩

/-- A sheet for the examples: text, number, date columns under a header row. -/
def exSheet : Sheet :=
  { nrows := 3, ncols := 3, datemode := 0,
    types := [[1, 1, 1], [1, 2, 3], [0, 2, 1]],
    values := [[.str ['a'], .str ['b'], .str ['c']],
      [.str ['x'], .flt 1, .flt 43831], [.str [], .flt 2, .str ['y']]] }

example : exSheet.WF := ⟨rfl, rfl, by decide, by decide⟩

example : sheetpack exUp exactMul exSheet .yes none none none =
    .ok ([(0, [.str ['x'], .str []]), (1, [.flt 1, .flt 2]), (2, [.datetime 43831 0, .str ['y']])],
      [(0, .str ['a']), (1, .str ['b']), (2, .str ['c'])]) := by decide +kernel

example : sheetpack exUp exactMul exSheet (.addr ['A', '1']) (some ['B', '3']) none
    (some (.str ['c', ',', 'B'])) =
    .ok ([(1, [.flt 2]), (2, [.str ['y']])], [(1, .str ['b']), (2, .str ['c'])]) := by
  decide +kernel

end CP
