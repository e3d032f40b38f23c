import Verif.Model.DebugOut
import Verif.Spec.DebugOut
import Verif.Props.TextNames
/-!
# C99: the line number that `debug` prints
-/

namespace CP
open Spec

theorem linesOf_take {t : List Char} {ls : List (List Char)} (h : LinesOf t ls) (k : Nat) :
    LinesOf (ls.take k).flatten (ls.take k) := by
  induction h generalizing k with
  | nil => simpa using LinesOf.nil
  | @last l h1 h2 =>
    cases k with
    | zero => simpa using LinesOf.nil
    | succ k => simpa using LinesOf.last h1 h2
  | @cons l t ls h1 h2 ih =>
    cases k with
    | zero => simpa using LinesOf.nil
    | succ k =>
      have := LinesOf.cons h1 (ih k)
      simpa using this

theorem blank_iff {d : Option (List Char)} (hd : d ≠ some []) {line : List Char} :
    stripBy (· ∈ stripchars d) line = [] ↔ AllPad d line := by
  constructor
  · intro h c hc
    obtain ⟨a, b, h1, h2, h3, -⟩ := stripBy_spec (· ∈ stripchars d) line
    rw [h, List.append_nil] at h1
    have hm : c ∈ stripchars d := by
      rw [h1, List.mem_append] at hc
      rcases hc with hc | hc
      · simpa using h2 c hc
      · simpa using h3 c hc
    cases d with
    | none => exact mem_stripchars_none.1 hm
    | some d => exact (mem_stripchars_some (by rintro rfl; exact hd rfl)).1 hm
  · exact allPad_strip hd

/-- How `linetuples` goes on from the first line of data. -/
def tuplesRest (fl : FloatS) (h : Hint) (delimiter : Option (List Char)) (usecols : Option (List Int))
    (G : Except Exc (List Val × List Func × List (List Char))) (rest : List (List Char)) : Except Exc Lines :=
  match G with
  | .error e => .error e
  | .ok (names, funcs, vals) =>
    match rowTuple fl h usecols funcs vals with
    | .error e => .ok ⟨names, [], some e⟩
    | .ok row => .ok ⟨names, row :: (dataRows fl h delimiter usecols funcs rest).1,
        (dataRows fl h delimiter usecols funcs rest).2⟩

theorem tuplesFrom_lines (fl : FloatS) (h : Hint) (d : Option (List Char)) (usecols : Option (List Int))
    (convs : List (Int × (List Char → Except Exc Val))) (ss : Bool) (fieldnames : List (List Char))
    (first : List Char) :
    ∃ G, (d = some [] → ∃ e, G = .error e) ∧ ∀ (f : TFile) rest, LinesOf (f.chars.drop f.pos) (first :: rest) →
      tuplesFrom fl h d usecols convs ss fieldnames f = tuplesRest fl h d usecols G rest := by
  have hstep : ∀ (f : TFile) rest, LinesOf (f.chars.drop f.pos) (first :: rest) →
      f.readline = (first, { f with pos := f.pos + first.length }) ∧
      fileLines (f.chars.drop (f.pos + first.length)) = rest := by
    intro f rest hl
    have h2 := linesOf_tail hl
    rw [List.drop_drop] at h2
    exact ⟨readline_linesOf hl, fileLines_linesOf h2⟩
  unfold tuplesFrom
  cases hsp : pySplit h.ws d (stripBy (· ∈ stripchars d) first) with
  | error e =>
    refine ⟨.error e, fun _ => ⟨e, rfl⟩, ?_⟩
    intro f rest hl
    rw [(hstep f rest hl).1]
    dsimp only
    rw [hsp]; rfl
  | ok vals =>
    have hd : d ≠ some [] := by
      rintro rfl; simp [pySplit] at hsp
    cases hc : setConverters (unifyFuncs (vals.map (funcOf fl h ss))) convs with
    | error e =>
      refine ⟨.error e, fun hh => absurd hh hd, ?_⟩
      intro f rest hl
      rw [(hstep f rest hl).1]
      dsimp only
      rw [hsp]; dsimp only; rw [hc]; rfl
    | ok funcs =>
      cases hn : mapE ((namesFunc h).apply fl h) (pick usecols (fieldnames.take vals.length)) with
      | error e =>
        refine ⟨.error e, fun hh => absurd hh hd, ?_⟩
        intro f rest hl
        rw [(hstep f rest hl).1]
        dsimp only
        rw [hsp]; dsimp only; rw [hc]; dsimp only; rw [hn]; rfl
      | ok names =>
        refine ⟨.ok (names, funcs, vals), fun hh => absurd hh hd, ?_⟩
        intro f rest hl
        rw [(hstep f rest hl).1]
        dsimp only
        rw [hsp]; dsimp only; rw [hc]; dsimp only; rw [hn]; dsimp only
        rw [(hstep f rest hl).2]
        rfl

/-- The names are in the file. -/
def TextArgs.namesInFile (a : TextArgs) : Bool := a.names = [] && a.hasnames

theorem normal_facts (a : TextArgs) : a.normal.hasnames = a.namesInFile ∧ a.normal.debug = a.debug ∧
    a.normal.delimiter = a.delimiter ∧
    a.normal.skiprows = a.skiprows - (if a.namesInFile then 1 else 0) := by
  unfold TextArgs.normal TextArgs.namesInFile
  by_cases h1 : a.names = []
  · rw [if_neg (by simp [h1])]
    by_cases h2 : a.hasnames = true
    · rw [if_pos h2]; simp [h1, h2]
    · rw [if_neg h2]; simp [h1, h2]
  · rw [if_pos h1]; simp [h1]

/-- `linetuples` as `textpack` calls it, with its stream. -/
def tuplesOf (fl : FloatS) (h : Hint) (a : TextArgs) (f : TFile) : Except Exc Lines :=
  linetuples fl h a.normal.delimiter a.normal.usecols a.normal.converters a.normal.stripstrings
    a.normal.hasnames (f.skip a.normal.skiprows.toNat)

/-- The lines above the data and the first line of data decide how the others are read. -/
theorem tuplesOf_lines (fl : FloatS) (h : Hint) (a : TextArgs) (pre : List (List Char)) (first : List Char)
    (hpre : pre.length = linesBefore a.skiprows a.namesInFile) :
    ∃ G, (a.delimiter = some [] → ∃ e, G = .error e) ∧
      ∀ (f : TFile) rest, LinesOf (f.chars.drop f.pos) (pre ++ first :: rest) →
      tuplesOf fl h a f = tuplesRest fl h a.delimiter a.normal.usecols G rest := by
  obtain ⟨e1, -, e3, e4⟩ := normal_facts a
  unfold tuplesOf linetuples
  rw [e1, e3, e4]
  unfold linesBefore at hpre
  cases hnf : a.namesInFile with
  | false =>
    rw [hnf] at hpre
    simp only [Bool.false_eq_true, if_false, Int.sub_zero] at hpre ⊢
    obtain ⟨G, hG, hall⟩ := tuplesFrom_lines fl h a.delimiter a.normal.usecols a.normal.converters
      a.normal.stripstrings [] first
    refine ⟨G, hG, ?_⟩
    intro f rest hl
    obtain ⟨p, hskip, hl1⟩ := skip_linesOf hl
    rw [← hpre, hskip]
    exact hall _ rest hl1
  | true =>
    rw [hnf] at hpre
    simp only [if_true] at hpre ⊢
    obtain ⟨sk, header, hske⟩ : ∃ sk header, pre = sk ++ [header] := by
      have : pre ≠ [] := by rintro rfl; simp at hpre
      exact ⟨pre.dropLast, pre.getLast this, (List.dropLast_concat_getLast this).symm⟩
    subst hske
    have hsk : sk.length = (a.skiprows - 1).toNat := by simpa using hpre
    have hread : ∀ (f : TFile) rest, LinesOf (f.chars.drop f.pos) (sk ++ [header] ++ first :: rest) →
        ∃ p, (f.skip (a.skiprows - 1).toNat).readline = (header, { f with pos := p }) ∧
          LinesOf (f.chars.drop p) (first :: rest) := by
      intro f rest hl
      obtain ⟨p, hskip, hl1⟩ := skip_linesOf (ss := sk) (ls := header :: first :: rest) (f := f) (by simpa using hl)
      have hl2 := linesOf_tail hl1
      rw [List.drop_drop] at hl2
      refine ⟨p + header.length, ?_, hl2⟩
      rw [← hsk, hskip, readline_linesOf (f := { f with pos := p }) hl1]
    cases hh : headerFields h a.delimiter header with
    | error e =>
      refine ⟨.error e, fun _ => ⟨e, rfl⟩, ?_⟩
      intro f rest hl
      obtain ⟨p, h1, h2⟩ := hread f rest hl
      rw [h1]; dsimp only; rw [hh]; rfl
    | ok fieldnames =>
      obtain ⟨G, hG, hall⟩ := tuplesFrom_lines fl h a.delimiter a.normal.usecols a.normal.converters
        a.normal.stripstrings fieldnames first
      refine ⟨G, hG, ?_⟩
      intro f rest hl
      obtain ⟨p, h1, h2⟩ := hread f rest hl
      rw [h1]; dsimp only; rw [hh]
      exact hall _ rest h2

/-- Beyond the end of the stream there is nothing. -/
theorem readline_end {f : TFile} (h : f.chars.drop f.pos = []) : f.readline = ([], f) := by
  unfold TFile.readline
  rw [h]
  rfl

theorem skip_end (n : Nat) {f : TFile} (h : f.chars.drop f.pos = []) : f.skip n = f := by
  induction n with
  | zero => rfl
  | succ n ih => rw [TFile.skip, readline_end h]; exact ih

theorem skip_add (m n : Nat) (f : TFile) : f.skip (m + n) = (f.skip m).skip n := by
  induction m generalizing f with
  | zero => simp [TFile.skip]
  | succ m ih => rw [Nat.succ_add, TFile.skip, ih]; rfl

theorem skip_short {ls : List (List Char)} {f : TFile} (h : LinesOf (f.chars.drop f.pos) ls) {n : Nat}
    (hn : ls.length ≤ n) : (f.skip n).chars.drop (f.skip n).pos = [] := by
  obtain ⟨p, hp, hl⟩ := skip_linesOf (ss := ls) (ls := []) (f := f) (by simpa using h)
  have hnil : f.chars.drop p = [] := by
    have := linesOf_flatten hl
    simpa using this.symm
  have e : n = ls.length + (n - ls.length) := by omega
  rw [e, skip_add, hp, skip_end _ (f := { f with pos := p }) hnil]
  exact hnil

theorem tuplesFrom_end {fl : FloatS} {h : Hint} {d : Option (List Char)} {usecols : Option (List Int)}
    {convs : List (Int × (List Char → Except Exc Val))} {ss : Bool} {fieldnames : List (List Char)} {f : TFile}
    (hf : f.chars.drop f.pos = []) {l : Lines} (h1 : tuplesFrom fl h d usecols convs ss fieldnames f = .ok l) :
    l.exc = none ∨ l.rows = [] := by
  unfold tuplesFrom at h1
  rw [readline_end hf] at h1
  dsimp only at h1
  split at h1
  · simp at h1
  · split at h1
    · simp at h1
    · split at h1
      · simp at h1
      · split at h1
        · simp only [Except.ok.injEq] at h1; subst h1; right; rfl
        · rw [hf] at h1
          simp only [Except.ok.injEq] at h1; subst h1; left; rfl

/-- Without lines for the data, no number is printed. -/
theorem tuplesOf_short {fl : FloatS} {h : Hint} {a : TextArgs} {f : TFile} {ls : List (List Char)}
    (hl : LinesOf (f.chars.drop f.pos) ls) (hn : ls.length ≤ linesBefore a.skiprows a.namesInFile) {l : Lines}
    (h1 : tuplesOf fl h a f = .ok l) : l.exc = none ∨ l.rows = [] := by
  obtain ⟨e1, -, e3, e4⟩ := normal_facts a
  unfold tuplesOf linetuples at h1
  rw [e1, e3, e4] at h1
  unfold linesBefore at hn
  cases hnf : a.namesInFile with
  | false =>
    rw [hnf] at hn h1
    simp only [Bool.false_eq_true, if_false, Int.sub_zero] at hn h1
    exact tuplesFrom_end (skip_short hl hn) h1
  | true =>
    rw [hnf] at hn h1
    simp only [if_true] at hn h1
    have hsk : (f.skip (a.skiprows - 1).toNat).readline.2 = f.skip ((a.skiprows - 1).toNat + 1) := by
      rw [skip_add]; rfl
    have hend := skip_short hl hn
    rw [← hsk] at hend
    split at h1
    · simp at h1
    · exact tuplesFrom_end hend h1

/-! ### the lines below the first line of data -/

section
variable (fl : FloatS) (h : Hint) (d : Option (List Char)) (usecols : Option (List Int)) (funcs : List Func)

/-- The lines until an exception: the rows are of lines that are not blank. -/
theorem dataRows_error {ls : List (List Char)} {e : Exc} (hd : d ≠ some [])
    (he : (dataRows fl h d usecols funcs ls).2 = some e) :
    ∃ good bad after, ls = good ++ bad :: after ∧ (dataRows fl h d usecols funcs good).2 = none ∧
      (dataRows fl h d usecols funcs good).1 = (dataRows fl h d usecols funcs ls).1 ∧ ¬ AllPad d bad ∧
      ∀ k, good.length < k → (dataRows fl h d usecols funcs (ls.take k)).2 ≠ none := by
  induction ls with
  | nil => simp [dataRows] at he
  | cons line ls ih =>
    by_cases hb : stripBy (· ∈ stripchars d) line = []
    · have hstep : ∀ r, dataRows fl h d usecols funcs (line :: r) = dataRows fl h d usecols funcs r := by
        intro r; rw [dataRows]; dsimp only; rw [if_pos hb]
      rw [hstep] at he
      obtain ⟨good, bad, after, h1, h2, h3, h4, h5⟩ := ih he
      refine ⟨line :: good, bad, after, by rw [h1]; rfl, by rw [hstep]; exact h2, by rw [hstep, hstep]; exact h3,
        h4, ?_⟩
      intro k hk
      cases k with
      | zero => simp at hk
      | succ k =>
        rw [List.take_succ_cons, hstep]
        exact h5 k (by simpa using hk)
    · have hbad : ∀ r e', dataRows fl h d usecols funcs (line :: r) = ([], some e') →
          (∀ r', dataRows fl h d usecols funcs (line :: r') = ([], some e')) →
          ∃ good bad after, line :: ls = good ++ bad :: after ∧ (dataRows fl h d usecols funcs good).2 = none ∧
            (dataRows fl h d usecols funcs good).1 = (dataRows fl h d usecols funcs (line :: ls)).1 ∧ ¬ AllPad d bad ∧
            ∀ k, good.length < k → (dataRows fl h d usecols funcs ((line :: ls).take k)).2 ≠ none := by
        intro r e' _ hall
        refine ⟨[], line, ls, rfl, rfl, by rw [hall]; rfl, fun hp => hb ((blank_iff hd).2 hp), ?_⟩
        intro k hk
        cases k with
        | zero => simp at hk
        | succ k => rw [List.take_succ_cons, hall]; simp
      cases hsp : pySplit h.ws d (stripBy (· ∈ stripchars d) line) with
      | error e' =>
        have hall : ∀ r, dataRows fl h d usecols funcs (line :: r) = ([], some e') := by
          intro r; rw [dataRows]; dsimp only; rw [if_neg hb, hsp]
        exact hbad ls e' (hall ls) hall
      | ok vals =>
        cases hrow : rowTuple fl h usecols funcs vals with
        | error e' =>
          have hall : ∀ r, dataRows fl h d usecols funcs (line :: r) = ([], some e') := by
            intro r; rw [dataRows]; dsimp only; rw [if_neg hb, hsp]; dsimp only; rw [hrow]
          exact hbad ls e' (hall ls) hall
        | ok row =>
          have hstep : ∀ r, dataRows fl h d usecols funcs (line :: r) =
              (row :: (dataRows fl h d usecols funcs r).1, (dataRows fl h d usecols funcs r).2) := by
            intro r; rw [dataRows]; dsimp only; rw [if_neg hb, hsp]; dsimp only; rw [hrow]
          rw [hstep] at he
          obtain ⟨good, bad, after, h1, h2, h3, h4, h5⟩ := ih he
          refine ⟨line :: good, bad, after, by rw [h1]; rfl, by rw [hstep]; exact h2,
            by rw [hstep, hstep, h3], h4, ?_⟩
          intro k hk
          cases k with
          | zero => simp at hk
          | succ k =>
            rw [List.take_succ_cons, hstep]
            exact h5 k (by simpa using hk)

/-- Without an exception every line that is not blank gives a row, and the lines from the last such one
do not matter. -/
theorem dataRows_count {good : List (List Char)} (hd : d ≠ some [])
    (he : (dataRows fl h d usecols funcs good).2 = none) :
    ∃ g b, good = g ++ b ∧ (∀ l ∈ b, AllPad d l) ∧ (∀ l, g.getLast? = some l → ¬ AllPad d l) ∧
      (dataRows fl h d usecols funcs g).2 = none ∧
      ∃ k, k ≤ g.length ∧ (dataRows fl h d usecols funcs good).1.length = g.length - k ∧
        ∀ [DecidablePred (AllPad d)], k = (g.filter fun l => AllPad d l).length := by
  induction good with
  | nil => exact ⟨[], [], rfl, by simp, by simp, rfl, 0, by simp, by simp [dataRows], by simp⟩
  | cons line ls ih =>
    by_cases hb : stripBy (· ∈ stripchars d) line = []
    · have hstep : ∀ r, dataRows fl h d usecols funcs (line :: r) = dataRows fl h d usecols funcs r := by
        intro r; rw [dataRows]; dsimp only; rw [if_pos hb]
      rw [hstep] at he
      have hp := (blank_iff hd).1 hb
      obtain ⟨g, b, h1, h2, h3, h4, k, h5, h6, h7⟩ := ih he
      cases g with
      | nil =>
        refine ⟨[], line :: b, by rw [h1]; rfl, ?_, by simp, rfl, 0, by simp, ?_, by simp⟩
        · intro l hl
          rcases List.mem_cons.1 hl with rfl | hl
          · exact hp
          · exact h2 l hl
        · rw [hstep, h6]; simp
      | cons x g =>
        refine ⟨line :: x :: g, b, by rw [h1]; rfl, h2, ?_, by rw [hstep]; exact h4, k + 1, by simp at h5 ⊢; omega, ?_, ?_⟩
        · intro l hl; apply h3; simpa using hl
        · rw [hstep, h6]; simp
        · intro inst
          rw [List.filter_cons_of_pos (by simpa using hp), List.length_cons, ← h7]
    · have hnp : ¬ AllPad d line := fun hp => hb ((blank_iff hd).2 hp)
      cases hsp : pySplit h.ws d (stripBy (· ∈ stripchars d) line) with
      | error e' =>
        rw [dataRows] at he; dsimp only at he; rw [if_neg hb, hsp] at he; simp at he
      | ok vals =>
        cases hrow : rowTuple fl h usecols funcs vals with
        | error e' =>
          rw [dataRows] at he; dsimp only at he; rw [if_neg hb, hsp] at he; dsimp only at he
          rw [hrow] at he; simp at he
        | ok row =>
          have hstep : ∀ r, dataRows fl h d usecols funcs (line :: r) =
              (row :: (dataRows fl h d usecols funcs r).1, (dataRows fl h d usecols funcs r).2) := by
            intro r; rw [dataRows]; dsimp only; rw [if_neg hb, hsp]; dsimp only; rw [hrow]
          rw [hstep] at he
          obtain ⟨g, b, h1, h2, h3, h4, k, h5, h6, h7⟩ := ih he
          refine ⟨line :: g, b, by rw [h1]; rfl, h2, ?_, by rw [hstep]; exact h4, k, by simp; omega, ?_, ?_⟩
          · intro l hl
            cases g with
            | nil => simp at hl; subst hl; exact hnp
            | cons x g => apply h3; simpa using hl
          · rw [hstep]; simp only [List.length_cons]; rw [h6]; omega
          · intro inst
            rw [List.filter_cons_of_neg (by simpa using hnp)]
            exact h7

end

/-- The file with these lines can be read. -/
def ReadsLines (fl : FloatS) (h : Hint) (a : TextArgs) (ls : List (List Char)) : Prop :=
  ∃ r, textpack fl h ⟨ls.flatten, 0⟩ a = .ok r

theorem textpack_ok_iff {fl : FloatS} {h : Hint} {a : TextArgs} {f : TFile} (hdb : a.debug = true) :
    (∃ r, textpack fl h f a = .ok r) ↔ ∃ l, tuplesOf fl h a f = .ok l ∧ l.exc = none := by
  obtain ⟨-, e2, -, -⟩ := normal_facts a
  unfold textpack
  dsimp only
  rw [e2, hdb]
  rw [show linetuples fl h a.normal.delimiter a.normal.usecols a.normal.converters a.normal.stripstrings
    a.normal.hasnames (f.skip a.normal.skiprows.toNat) = tuplesOf fl h a f from rfl]
  cases ht : tuplesOf fl h a f with
  | error e => simp
  | ok l =>
    simp only [if_true]
    unfold debugData
    cases hx : l.exc with
    | none => simp [hx]
    | some e =>
      dsimp only
      by_cases hr : l.rows = []
      · rw [if_pos hr]; simp [hx]
      · rw [if_neg hr]; simp [hx]

/-- C99, exact: for `skiprows` from 0 on (1 with names in the file), the number printed is the number of
the last line that could be read, less the blank lines above it within the data, less one if the names
are in the file. -/
theorem C99_exact (fl : FloatS) (h : Hint) (a : TextArgs) (f : TFile) (ls : List (List Char))
    (hl : LinesOf (f.chars.drop f.pos) ls) (hsk : (if a.namesInFile then 1 else 0) ≤ a.skiprows) (p : Int)
    (hp : debugLine fl h f a = some p) :
    ∃ n, LastGood (ReadsLines fl h a) (AllPad a.delimiter) (linesBefore a.skiprows a.namesInFile) ls n ∧
      ∃ k : Nat, (∀ [DecidablePred (AllPad a.delimiter)],
          k = (((ls.take n).drop (linesBefore a.skiprows a.namesInFile + 1)).filter
            fun l => AllPad a.delimiter l).length) ∧
        p = n - k - (if a.namesInFile then 1 else 0) := by
  obtain ⟨e1, e2, e3, e4⟩ := normal_facts a
  unfold debugLine at hp
  dsimp only at hp
  by_cases hdb : a.normal.debug = false
  · rw [if_pos hdb] at hp; simp at hp
  rw [if_neg hdb] at hp
  have hdb' : a.debug = true := by rw [← e2]; simpa using hdb
  change (match tuplesOf fl h a f with | .error _ => none | .ok l => _) = _ at hp
  cases ht : tuplesOf fl h a f with
  | error e => rw [ht] at hp; simp at hp
  | ok l =>
  rw [ht] at hp
  dsimp only at hp
  cases hx : l.exc with
  | none => rw [hx] at hp; simp at hp
  | some e =>
  rw [hx] at hp
  dsimp only at hp
  by_cases hr : l.rows = []
  · rw [if_pos hr] at hp; simp at hp
  rw [if_neg hr] at hp
  simp only [Option.some.injEq] at hp
  have hlen : linesBefore a.skiprows a.namesInFile < ls.length := by
    apply Decidable.byContradiction
    intro hn
    rcases tuplesOf_short hl (by omega) ht with h1 | h1
    · rw [hx] at h1; simp at h1
    · exact hr h1
  generalize hB : linesBefore a.skiprows a.namesInFile = B at *
  obtain ⟨pre, first, rest, hdec, hpre⟩ : ∃ pre first rest, ls = pre ++ first :: rest ∧ pre.length = B := by
    refine ⟨ls.take B, ls[B], ls.drop (B + 1), ?_, by simp; omega⟩
    rw [List.getElem_cons_drop, List.take_append_drop]
  subst hdec
  obtain ⟨G, hG, hall⟩ := tuplesOf_lines fl h a pre first (by rw [hpre, hB])
  have ht2 := hall f rest hl
  rw [ht] at ht2
  cases G with
  | error e' => simp [tuplesRest] at ht2
  | ok G =>
  obtain ⟨names, funcs, vals⟩ := G
  have hd : a.delimiter ≠ some [] := by
    intro h0
    obtain ⟨e', h1⟩ := hG h0
    simp at h1
  unfold tuplesRest at ht2
  dsimp only at ht2
  cases hrow : rowTuple fl h a.normal.usecols funcs vals with
  | error e' =>
    rw [hrow] at ht2
    simp only [Except.ok.injEq] at ht2
    subst ht2
    exact absurd rfl hr
  | ok row =>
  rw [hrow] at ht2
  simp only [Except.ok.injEq] at ht2
  subst ht2
  dsimp only at hx hp
  obtain ⟨good, bad, after, g1, g2, g3, g4, g5⟩ := dataRows_error fl h a.delimiter a.normal.usecols funcs hd hx
  obtain ⟨g, b, b1, b2, b3, b4, k, b5, b6, b7⟩ := dataRows_count fl h a.delimiter a.normal.usecols funcs hd g2
  -- when the first lines can be read
  have hreads : ∀ j, B < j → (ReadsLines fl h a ((pre ++ first :: rest).take j) ↔
      (dataRows fl h a.delimiter a.normal.usecols funcs (rest.take (j - (B + 1)))).2 = none) := by
    intro j hj
    have htake : (pre ++ first :: rest).take j = pre ++ first :: rest.take (j - (B + 1)) := by
      rw [List.take_append, hpre, List.take_of_length_le (by omega)]
      rw [show j - B = (j - (B + 1)) + 1 by omega, List.take_succ_cons]
    have hl' := linesOf_take hl j
    rw [htake] at hl' ⊢
    unfold ReadsLines
    rw [textpack_ok_iff hdb', hall ⟨_, 0⟩ _ (by simpa using hl')]
    unfold tuplesRest
    dsimp only
    rw [hrow]
    simp
  have hgl : good.length = g.length + b.length := by rw [b1]; simp
  refine ⟨B + 1 + g.length, ⟨by omega, ?_, ?_, B + 1 + good.length + 1, by omega, ?_, ?_, ?_, ?_⟩, k, ?_, ?_⟩
  · by_cases hg : g = []
    · left; simp [hg]
    · right
      have hlast := List.getLast?_eq_some_getLast hg
      refine ⟨g.getLast hg, ?_, b3 _ hlast⟩
      have hglp : 0 < g.length := by
        cases g with
        | nil => exact absurd rfl hg
        | cons _ _ => simp
      rw [g1, b1]
      rw [List.getElem?_append_right (by omega), hpre,
        show B + 1 + g.length - 1 - B = (g.length - 1) + 1 by omega, List.getElem?_cons_succ, List.append_assoc,
        List.getElem?_append_left (by omega)]
      rw [← hlast, List.getLast?_eq_getElem?]
  · rw [hreads _ (by omega), show B + 1 + g.length - (B + 1) = g.length by omega]
    rw [g1, b1, List.append_assoc, List.take_left]
    exact b4
  · rw [g1]; simp; omega
  · intro j hj1 hj2
    have hbl : j - 1 - (B + 1) - g.length < b.length := by omega
    refine ⟨b[j - 1 - (B + 1) - g.length], ?_, b2 _ (List.getElem_mem _)⟩
    rw [g1, b1]
    rw [List.getElem?_append_right (by omega), hpre,
      show j - 1 - B = (j - 1 - (B + 1)) + 1 by omega, List.getElem?_cons_succ, List.append_assoc,
      List.getElem?_append_right (by omega), List.getElem?_append_left hbl, List.getElem?_eq_getElem]
  · refine ⟨bad, ?_, g4⟩
    rw [g1]
    rw [List.getElem?_append_right (by omega), hpre,
      show B + 1 + good.length + 1 - 1 - B = good.length + 1 by omega, List.getElem?_cons_succ,
      List.getElem?_append_right (by omega), Nat.sub_self]
    rfl
  · intro j hj hrd
    rw [hreads _ (by omega)] at hrd
    exact g5 _ (by omega) hrd
  · intro inst
    rw [b7]
    congr 2
    rw [g1, b1]
    rw [show pre ++ first :: (g ++ b ++ bad :: after) = (pre ++ [first]) ++ (g ++ (b ++ bad :: after)) by simp]
    have hpl : (pre ++ [first]).length = B + 1 := by simp [hpre]
    rw [← hpl, List.take_append, Nat.add_sub_cancel_left, List.take_left, List.take_of_length_le (by omega), List.drop_left]
  · rw [← hp, e4, ← g3]
    rw [List.length_cons, b6]
    have hBs : (B : Int) = a.skiprows := by
      rw [← hB]
      unfold linesBefore
      cases hnf : a.namesInFile with
      | false => rw [hnf] at hsk; simp at hsk ⊢; omega
      | true => rw [hnf] at hsk; simp at hsk ⊢; omega
    omega

/-- C99, exact: when a number is printed. -/
theorem C99_printed (fl : FloatS) (h : Hint) (a : TextArgs) (f : TFile) (ls : List (List Char))
    (hl : LinesOf (f.chars.drop f.pos) ls) (hdb : a.debug = true) :
    (∃ p, debugLine fl h f a = some p) ↔
      (∃ e, textpack fl h f a = .error e) ∧ ReadsLines fl h a (ls.take (linesBefore a.skiprows a.namesInFile + 1)) ∧
        linesBefore a.skiprows a.namesInFile < ls.length := by
  obtain ⟨e1, e2, e3, e4⟩ := normal_facts a
  have herr : (∃ e, textpack fl h f a = .error e) ↔ ¬ ∃ l, tuplesOf fl h a f = .ok l ∧ l.exc = none := by
    rw [← textpack_ok_iff hdb]
    cases textpack fl h f a <;> simp
  have hline : (∃ p, debugLine fl h f a = some p) ↔
      ∃ l e, tuplesOf fl h a f = .ok l ∧ l.exc = some e ∧ l.rows ≠ [] := by
    unfold debugLine
    dsimp only
    rw [if_neg (by rw [e2, hdb]; simp)]
    change (∃ p, (match tuplesOf fl h a f with | .error _ => none | .ok l => _) = some p) ↔ _
    cases tuplesOf fl h a f with
    | error e => simp
    | ok l =>
      dsimp only
      cases hx : l.exc with
      | none => simp [hx]
      | some e =>
        dsimp only
        by_cases hr : l.rows = []
        · rw [if_pos hr]; simp [hr]
        · rw [if_neg hr]; simp [hx, hr]
  rw [hline, herr]
  by_cases hlen : linesBefore a.skiprows a.namesInFile < ls.length
  · obtain ⟨B, hB⟩ : ∃ B, B = linesBefore a.skiprows a.namesInFile := ⟨_, rfl⟩
    rw [← hB] at hlen ⊢
    obtain ⟨pre, first, rest, hdec, hpre⟩ : ∃ pre first rest, ls = pre ++ first :: rest ∧ pre.length = B := by
      refine ⟨ls.take B, ls[B], ls.drop (B + 1), ?_, by simp; omega⟩
      rw [List.getElem_cons_drop, List.take_append_drop]
    subst hdec
    obtain ⟨G, hG, hall⟩ := tuplesOf_lines fl h a pre first (by rw [hpre, hB])
    have htake : (pre ++ first :: rest).take (B + 1) = pre ++ [first] := by
      rw [List.take_append, hpre, List.take_of_length_le (by omega)]
      simp [show B + 1 - B = 1 by omega]
    have hl' := linesOf_take hl (B + 1)
    rw [htake] at hl' ⊢
    unfold ReadsLines
    rw [textpack_ok_iff hdb, hall f rest hl, hall ⟨_, 0⟩ [] (by simpa using hl')]
    unfold tuplesRest
    cases G with
    | error e => simp
    | ok G =>
      obtain ⟨names, funcs, vals⟩ := G
      dsimp only
      cases hrow : rowTuple fl h a.normal.usecols funcs vals with
      | error e => simp
      | ok row =>
        simp only [dataRows]
        cases hx : (dataRows fl h a.delimiter a.normal.usecols funcs rest).2 with
        | none => simp
        | some e => simp; omega
  · constructor
    · rintro ⟨l, e, h1, h2, h3⟩
      rcases tuplesOf_short hl (by omega) h1 with h4 | h4
      · rw [h2] at h4; simp at h4
      · exact absurd h4 h3
    · rintro ⟨-, -, h3⟩
      exact absurd h3 hlen

/-- C99 in full: the number printed is the number of the last line that could be read.  `all` is for
all files and arguments, without it only for files without blank lines within the data and without the
names in the file. -/
def DebugLineRight (all : Bool) : Prop :=
  ∀ (fl : FloatS) (h : Hint) (a : TextArgs) (f : TFile) (ls : List (List Char)) (p : Int),
    LinesOf (f.chars.drop f.pos) ls → (if a.namesInFile then 1 else 0) ≤ a.skiprows →
    (all = false → a.namesInFile = false ∧
      ∀ l ∈ ls.drop (linesBefore a.skiprows a.namesInFile + 1), ¬ AllPad a.delimiter l) →
    debugLine fl h f a = some p →
    ∃ n, LastGood (ReadsLines fl h a) (AllPad a.delimiter) (linesBefore a.skiprows a.namesInFile) ls n ∧ p = n

/-- C99, without blank lines and names in the file (false else, see `C99_counterexample`). -/
theorem C99_line_partial : DebugLineRight false := by
  intro fl h a f ls p hl hsk hno hp
  obtain ⟨hnf, hbl⟩ := hno rfl
  obtain ⟨n, hn, k, hk, hpn⟩ := C99_exact fl h a f ls hl hsk p hp
  refine ⟨n, hn, ?_⟩
  have hk0 : k = 0 := by
    have := @hk (fun _ => Classical.propDecidable _)
    rw [this, List.length_eq_zero_iff, List.filter_eq_nil_iff]
    intro l hl
    have hm : l ∈ ls.drop (linesBefore a.skiprows a.namesInFile + 1) := by
      rw [List.drop_take] at hl
      exact List.mem_of_mem_take hl
    simpa using hbl l hm
  rw [hpn, hk0, hnf]
  simp

/-- The names in the second line, a bad number in the fifth. -/
def exNamedLines : List Char := "made today\na;b\n1;2\n3;4\n5;x\n".toList

/-- A blank line, and a bad number in the fourth line. -/
def exBlankLine : List Char := "1;2\n\n3;4\n5;x\n".toList

/-- C99: the last good line is line 4, the number printed is 3; it is 3, the number printed is 2. -/
theorem C99_numbers :
    debugLine exFloat .text ⟨exNamedLines, 0⟩ { delimiter := some [';'], skiprows := 2, hasnames := true, debug := true } = some 3 ∧
    debugLine exFloat .text ⟨exBlankLine, 0⟩ { delimiter := some [';'], debug := true } = some 2 ∧
    debugLine exFloat .text ⟨"1;2\n3;4\n5;x\n".toList, 0⟩ { delimiter := some [';'], debug := true } = some 2 := by
  refine ⟨?_, ?_, ?_⟩ <;> decide +kernel

/-- C99: false in general. -/
theorem C99_counterexample : ¬ DebugLineRight true := by
  intro hall
  have hl : LinesOf (exBlankLine.drop 0) (fileLines exBlankLine) := by
    have e : exBlankLine.drop 0 = ['1', ';', '2'] ++ '\n' :: ([] ++ '\n' :: (['3', ';', '4'] ++ '\n' ::
      (['5', ';', 'x'] ++ '\n' :: []))) := by decide
    have e2 : fileLines exBlankLine = [['1', ';', '2'] ++ ['\n'], [] ++ ['\n'], ['3', ';', '4'] ++ ['\n'],
      ['5', ';', 'x'] ++ ['\n']] := by decide +kernel
    rw [e, e2]
    exact .cons (by decide) (.cons (by decide) (.cons (by decide) (.cons (by decide) .nil)))
  obtain ⟨n, hn, hp⟩ := hall exFloat .text { delimiter := some [';'], debug := true } ⟨exBlankLine, 0⟩ (fileLines exBlankLine) 2 hl
    (by decide) (by simp) C99_numbers.2.1
  obtain ⟨n', hn', k, hk, hp'⟩ := C99_exact exFloat .text { delimiter := some [';'], debug := true } ⟨exBlankLine, 0⟩ (fileLines exBlankLine) hl
    (by decide) 2 C99_numbers.2.1
  have := lastGood_unique hn hn'
  subst this
  have h2 : n = 2 := by omega
  subst h2
  obtain ⟨-, h3, -⟩ := hn
  rcases h3 with h3 | ⟨l, h3, h4⟩
  · exact absurd h3 (by decide)
  · have e3 : (fileLines exBlankLine)[2 - 1]? = some ['\n'] := by decide +kernel
    rw [e3] at h3
    simp only [Option.some.injEq] at h3
    subst h3
    apply h4
    intro c hc
    simp only [List.mem_singleton] at hc
    subst hc
    refine ⟨by decide, fun hh => by decide⟩

/-- Arguments and a file that meet the hypotheses of `C99_line_partial`. -/
example : ∃ n, LastGood (ReadsLines exFloat .text { delimiter := some [';'], debug := true }) (AllPad (some [';'])) 0
    [['1', '\n'], ['2', '\n'], ['x', '\n']] n ∧ (2 : Int) = n := by
  have hl : LinesOf ((['1', '\n', '2', '\n', 'x', '\n'] : List Char).drop 0) [['1', '\n'], ['2', '\n'], ['x', '\n']] :=
    LinesOf.cons (l := ['1']) (by decide) (.cons (l := ['2']) (by decide) (.cons (l := ['x']) (by decide) .nil))
  refine C99_line_partial exFloat .text { delimiter := some [';'], debug := true } ⟨['1', '\n', '2', '\n', 'x', '\n'], 0⟩ _ 2 hl (by decide)
    ?_ (by decide +kernel)
  intro _
  refine ⟨rfl, ?_⟩
  intro l hm hp
  have : l = ['2', '\n'] ∨ l = ['x', '\n'] := by
    have hm : l ∈ [['2', '\n'], ['x', '\n']] := hm
    simpa using hm
  rcases this with rfl | rfl
  · exact absurd (hp '2' (by simp)).1 (by decide)
  · exact absurd (hp 'x' (by simp)).1 (by decide)

end CP
