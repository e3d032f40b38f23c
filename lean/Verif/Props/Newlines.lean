import Verif.Spec.Newlines
import Verif.Model.Newlines
import Verif.Lemmas.Lazy
import Verif.Props.Lazy
/-!
# C75: the ends of lines make no difference
-/

namespace CP

open Spec

/-! ## Lines that differ in their ends -/

/-- Lines that differ in their ends. -/
def LineAlike (l l' : List Char) : Prop :=
  ∃ b w w', l = b ++ w ∧ l' = b ++ w' ∧ '\n' ∉ b ∧ '\r' ∉ b ∧
    (w = [] ∧ w' = [] ∨ LineEnd w ∧ LineEnd w')

inductive Alike : List (List Char) → List (List Char) → Prop
  | nil : Alike [] []
  | cons {l l' ls ls'} : LineAlike l l' → Alike ls ls' → Alike (l :: ls) (l' :: ls')

theorem LineEnd.mem {w : List Char} (h : LineEnd w) : ∀ c ∈ w, c = '\n' ∨ c = '\r' := by
  intro c hc
  rcases h with rfl | rfl <;> simp at hc
  · exact .inl hc
  · exact hc.symm

theorem LineAlike.mem {l l' : List Char} (h : LineAlike l l') :
    ∃ b w w', l = b ++ w ∧ l' = b ++ w' ∧ '\n' ∉ b ∧ '\r' ∉ b ∧
      (∀ c ∈ w, c = '\n' ∨ c = '\r') ∧ ∀ c ∈ w', c = '\n' ∨ c = '\r' := by
  obtain ⟨b, w, w', h1, h2, h3, h4, h5⟩ := h
  refine ⟨b, w, w', h1, h2, h3, h4, ?_, ?_⟩
  · rcases h5 with ⟨rfl, rfl⟩ | ⟨h5, _⟩
    · simp
    · exact LineEnd.mem h5
  · rcases h5 with ⟨rfl, rfl⟩ | ⟨_, h5⟩
    · simp
    · exact LineEnd.mem h5

/-- Streams with the same lines ahead. -/
def SameAhead (f f' : TFile) : Prop := SameLines (f.chars.drop f.pos) (f'.chars.drop f'.pos)

theorem fileLines_end {l e t : List Char} (h1 : '\n' ∉ l) (he : LineEnd e) :
    fileLines (l ++ e ++ t) = (l ++ e) :: fileLines t := by
  rcases he with rfl | rfl
  · have := fileLines_cons h1 t
    simpa using this
  · have := fileLines_cons (l := l ++ ['\r']) (by simp [h1]) t
    simpa using this

theorem readline_same {f f' : TFile} (h : SameAhead f f') :
    LineAlike f.readline.1 f'.readline.1 ∧ SameAhead f.readline.2 f'.readline.2 := by
  unfold SameAhead at h ⊢
  unfold TFile.readline
  dsimp only
  rw [← List.drop_drop, ← List.drop_drop]
  generalize f.chars.drop f.pos = s at *
  generalize f'.chars.drop f'.pos = s' at *
  cases h with
  | last h1 h2 =>
    have : (fileLines s).headD [] = s := by
      by_cases hs : s = []
      · subst hs; rfl
      · rw [fileLines_free h1 hs]; rfl
    rw [this]
    refine ⟨⟨s, [], [], by simp, by simp, h1, h2, .inl ⟨rfl, rfl⟩⟩, ?_⟩
    rw [List.drop_length]
    exact .last (by simp) (by simp)
  | cons h1 h2 he he' ht =>
    rw [fileLines_end h1 he, fileLines_end h1 he']
    dsimp only [List.headD]
    rw [List.drop_left, List.drop_left]
    exact ⟨⟨_, _, _, rfl, rfl, h1, h2, .inr ⟨he, he'⟩⟩, ht⟩

theorem skip_same {f f' : TFile} (n : Nat) (h : SameAhead f f') : SameAhead (f.skip n) (f'.skip n) := by
  induction n generalizing f f' with
  | zero => exact h
  | succ n ih => exact ih (readline_same h).2

theorem fileLines_same {s s' : List Char} (h : SameLines s s') : Alike (fileLines s) (fileLines s') := by
  induction h with
  | @last l h1 h2 =>
    by_cases hs : l = []
    · subst hs; exact .nil
    · rw [fileLines_free h1 hs]
      exact .cons ⟨l, [], [], by simp, by simp, h1, h2, .inl ⟨rfl, rfl⟩⟩ .nil
  | cons h1 h2 he he' _ ih =>
    rw [fileLines_end h1 he, fileLines_end h1 he']
    exact .cons ⟨_, _, _, rfl, rfl, h1, h2, .inr ⟨he, he'⟩⟩ ih

theorem readLines_same {f f' : TFile} (n : Nat) (h : SameAhead f f') :
    Alike (f.readLines n) (f'.readLines n) := by
  induction n generalizing f f' with
  | zero => exact .nil
  | succ n ih =>
    obtain ⟨h1, h2⟩ := readline_same h
    exact .cons h1 (ih h2)

theorem stripBy_end {p : Char → Bool} {b w : List Char} (hw : ∀ c ∈ w, p c = true) :
    stripBy p (b ++ w) = stripBy p b := by
  obtain ⟨x, y, h1, h2, h3, h4, h5⟩ := stripBy_spec p b
  generalize stripBy p b = t at *
  rw [h1, List.append_assoc]
  exact stripBy_pad h2 (by
    intro c hc
    rcases List.mem_append.1 hc with hc | hc
    · exact h3 c hc
    · exact hw c hc) h4 h5

theorem strip_same {p : Char → Bool} (hn : p '\n' = true) (hr : p '\r' = true) {l l' : List Char}
    (h : LineAlike l l') : stripBy p l = stripBy p l' := by
  obtain ⟨b, w, w', rfl, rfl, _, _, hw, hw'⟩ := h.mem
  have : ∀ w : List Char, (∀ c ∈ w, c = '\n' ∨ c = '\r') → ∀ c ∈ w, p c = true := by
    intro w hw c hc
    rcases hw c hc with rfl | rfl <;> assumption
  rw [stripBy_end (this w hw), stripBy_end (this w' hw')]

/-! ## textpack -/

/-- The ends of lines are padding with this delimiter. -/
def EndsPadded (d : Option (List Char)) : Prop := Pad d '\n' ∧ Pad d '\r'

theorem endsPadded_strip {d : Option (List Char)} (h : EndsPadded d) :
    decide ('\n' ∈ stripchars d) = true ∧ decide ('\r' ∈ stripchars d) = true := by
  obtain ⟨h1, h2⟩ := h
  cases d with
  | none => exact ⟨by simpa using mem_stripchars_none.2 h1, by simpa using mem_stripchars_none.2 h2⟩
  | some d =>
    by_cases hd : d = []
    · subst hd; decide +kernel
    · exact ⟨by simpa using (mem_stripchars_some hd).2 h1, by simpa using (mem_stripchars_some hd).2 h2⟩

theorem dataRows_same {fl : FloatS} {h : Hint} {d : Option (List Char)} (hd : EndsPadded d)
    {u : Option (List Int)} {funcs : List Func} {ls ls' : List (List Char)} (ha : Alike ls ls') :
    dataRows fl h d u funcs ls = dataRows fl h d u funcs ls' := by
  obtain ⟨h1, h2⟩ := endsPadded_strip hd
  induction ha with
  | nil => rfl
  | cons hl _ ih => rw [dataRows, dataRows, strip_same h1 h2 hl, ih]

theorem tuplesFrom_same {fl : FloatS} {h : Hint} {d : Option (List Char)} (hd : EndsPadded d)
    {u : Option (List Int)} {cs : List (Int × (List Char → Except Exc Val))} {st : Bool}
    {ns : List (List Char)} {f f' : TFile} (hf : SameAhead f f') :
    tuplesFrom fl h d u cs st ns f = tuplesFrom fl h d u cs st ns f' := by
  obtain ⟨h1, h2⟩ := endsPadded_strip hd
  obtain ⟨h3, h4⟩ := readline_same hf
  unfold tuplesFrom
  dsimp only
  rw [strip_same h1 h2 h3]
  simp only [dataRows_same hd (fileLines_same h4)]

theorem linetuples_same {fl : FloatS} {h : Hint} {d : Option (List Char)} (hd : EndsPadded d)
    {u : Option (List Int)} {cs : List (Int × (List Char → Except Exc Val))} {st hn : Bool}
    {f f' : TFile} (hf : SameAhead f f') :
    linetuples fl h d u cs st hn f = linetuples fl h d u cs st hn f' := by
  obtain ⟨h1, h2⟩ := endsPadded_strip hd
  obtain ⟨h3, h4⟩ := readline_same hf
  unfold linetuples
  dsimp only
  rw [tuplesFrom_same hd hf]
  unfold headerFields
  rw [strip_same h1 h2 h3]
  split
  · split
    · rfl
    · exact tuplesFrom_same hd h4
  · rfl

/-- C75 for `textpack`: streams (of text or bytes, at any position) with the same lines ahead
give the same, data and names or exception, whatever the ends of the lines, unless the
delimiter has a character of those. -/
theorem C75_textpack (fl : FloatS) (h : Hint) (f f' : TFile) (a : TextArgs)
    (hf : SameLines (f.chars.drop f.pos) (f'.chars.drop f'.pos))
    (hd : Pad a.delimiter '\n' ∧ Pad a.delimiter '\r') :
    textpack fl h f a = textpack fl h f' a := by
  have hdel : a.normal.delimiter = a.delimiter := by
    unfold TextArgs.normal; split
    · rfl
    · split <;> rfl
  unfold textpack
  dsimp only
  rw [linetuples_same (by rw [hdel]; exact hd) (skip_same _ hf)]

/-! ## preparse -/

theorem numRest_end {dig : Char → Bool} (hd : DigitClass dig) {point : Char} (hp : point = '.' ∨ point = ',')
    {w : List Char} (hw : ∀ c ∈ w, Plain dig point c) (s : List Char) :
    numRest dig point (s ++ w) = (numRest dig point s).map (· ++ w) := by
  cases w with
  | nil =>
    simp
  | cons x w =>
    have hx := hw x (by simp)
    cases hs : numRest dig point s with
    | none =>
      have hno := (numRest_spec hd hp s).2 hs
      cases hsw : numRest dig point (s ++ x :: w) with
      | none => rfl
      | some r =>
        obtain ⟨n, h1, h2, _⟩ := (numRest_spec hd hp _).1 r hsw
        obtain ⟨r', hr'⟩ := number_prefix hx h2 h1
        exact absurd h2 (hno n r' hr')
    | some r =>
      obtain ⟨n, h1, h2, h3⟩ := (numRest_spec hd hp s).1 r hs
      cases hsw : numRest dig point (s ++ x :: w) with
      | none => exact absurd h2 ((numRest_spec hd hp _).2 hsw n (r ++ x :: w) (by rw [h1]; simp))
      | some r' =>
        obtain ⟨n', h1', h2', h3'⟩ := (numRest_spec hd hp _).1 r' hsw
        obtain ⟨q, hq⟩ := number_prefix hx h2' h1'
        have hle := h3 n' q hq h2'
        have hge := h3' n (r ++ x :: w) (by rw [h1]; simp) h2
        have hnn : n = n' ∧ r = q := List.append_inj (by rw [← h1, ← hq]) (by omega)
        obtain ⟨rfl, rfl⟩ := hnn
        rw [h1, List.append_assoc] at h1'
        simp [List.append_cancel_left h1']

theorem scan_plain {dig : Char → Bool} (hd : DigitClass dig) {point : Char} (hp : point = '.' ∨ point = ',')
    {w : List Char} (hw : ∀ c ∈ w, Plain dig point c) (k : Nat) (before : List Char) (hk : w.length < k) :
    (numRx dig point).scan k before w = ([], before ++ w) := by
  induction k generalizing before w with
  | zero => omega
  | succ k ih =>
    unfold Rx.scan
    have : numRest dig point w = none := by
      have h := numRest_end hd hp hw []
      rw [List.nil_append] at h
      rw [h]; rfl
    rw [first_num hd hp, this]
    cases w with
    | nil => simp
    | cons c cs =>
      dsimp only [Option.map_none]
      rw [ih (fun c hc => hw c (by simp [hc])) _ (by simp at hk; omega)]
      simp

theorem scan_end {dig : Char → Bool} (hd : DigitClass dig) {point : Char} (hp : point = '.' ∨ point = ',')
    {w : List Char} (hw : ∀ c ∈ w, Plain dig point c) (k k' : Nat) (before s : List Char)
    (hk : s.length < k) (hk' : s.length + w.length < k') :
    (numRx dig point).scan k' before (s ++ w) =
      (((numRx dig point).scan k before s).1, ((numRx dig point).scan k before s).2 ++ w) := by
  induction k generalizing k' before s with
  | zero => omega
  | succ k ih =>
    cases hs : numRest dig point s with
    | none =>
      cases s with
      | nil =>
        rw [List.nil_append, scan_plain hd hp hw k' before (by simpa using hk')]
        unfold Rx.scan
        rw [first_num hd hp, hs]
        rfl
      | cons c cs =>
        obtain ⟨k', rfl⟩ : ∃ j, k' = j + 1 := ⟨k' - 1, by omega⟩
        have hsw : numRest dig point (c :: cs ++ w) = none := by rw [numRest_end hd hp hw, hs]; rfl
        rw [List.cons_append] at hsw ⊢
        rw [Rx.scan.eq_def _ (k' + 1), Rx.scan.eq_def _ (k + 1)]
        dsimp only
        rw [first_num hd hp, hsw, first_num hd hp, hs]
        dsimp only [Option.map_none]
        simp only [List.length_cons] at hk hk'
        exact ih k' _ cs (by omega) (by omega)
    | some r =>
      obtain ⟨n, h1, h2⟩ := numRest_sound hs
      have hn := List.length_pos_iff.2 (isNumber_ne_nil h2)
      have hl := congrArg List.length h1
      rw [List.length_append] at hl
      obtain ⟨k', rfl⟩ : ∃ j, k' = j + 1 := ⟨k' - 1, by omega⟩
      rw [Rx.scan.eq_def _ (k' + 1), Rx.scan.eq_def _ (k + 1)]
      dsimp only
      rw [first_num hd hp, numRest_end hd hp hw, hs, first_num hd hp, hs]
      dsimp only [Option.map_some]
      rw [if_pos (by simp only [List.length_append]; omega), if_pos (by omega)]
      rw [ih k' [] r (by omega) (by omega)]
      dsimp only
      have e1 : (s ++ w).take ((s ++ w).length - (r ++ w).length) = n := by
        rw [h1]; simp
      have e2 : s.take (s.length - r.length) = n := by rw [h1]; simp
      rw [e1, e2]

theorem findall_end {dig : Char → Bool} (hd : DigitClass dig) {point : Char} (hp : point = '.' ∨ point = ',')
    {w : List Char} (hw : ∀ c ∈ w, Plain dig point c) (s : List Char) :
    (numRx dig point).findall (s ++ w) = (numRx dig point).findall s := by
  unfold Rx.findall
  rw [scan_end hd hp hw (s.length + 1) ((s ++ w).length + 1) [] s (by omega) (by simp)]

theorem split_end {dig : Char → Bool} (hd : DigitClass dig) {point : Char} (hp : point = '.' ∨ point = ',')
    {w : List Char} (hw : ∀ c ∈ w, Plain dig point c) (s : List Char) :
    ∃ init last, (numRx dig point).split s = init ++ [last] ∧
      (numRx dig point).split (s ++ w) = init ++ [last ++ w] := by
  unfold Rx.split
  dsimp only
  rw [scan_end hd hp hw (s.length + 1) ((s ++ w).length + 1) [] s (by omega) (by simp)]
  exact ⟨_, _, rfl, rfl⟩

theorem weave_last {nums gs : List (List Char)} (hl : gs.length + 1 = nums.length) :
    ∃ p n, n ∈ nums ∧ weave nums gs = p ++ n := by
  induction nums generalizing gs with
  | nil => simp at hl
  | cons n ns ih =>
    cases gs with
    | nil =>
      have : ns = [] := List.length_eq_zero_iff.1 (by simpa using hl.symm)
      subst this
      exact ⟨[], n, by simp, by simp [weave]⟩
    | cons g gs =>
      obtain ⟨p, m, h1, h2⟩ := ih (gs := gs) (by simpa using hl)
      exact ⟨n ++ g ++ p, m, by simp [h1], by rw [weave, h2]; simp⟩

theorem separated_end {dig : Char → Bool} {point : Char} {nums : List (List Char)}
    (hn : ∀ n ∈ nums, IsNumber dig point n) {w : List Char} (hw : ∀ c ∈ w, Plain dig point c) {s : List Char}
    {gs : List (List Char)} : Separated dig nums (s ++ w) gs ↔ Separated dig nums s gs := by
  constructor
  · rintro ⟨h1, h2, a, b, h3⟩
    refine ⟨h1, h2, ?_⟩
    obtain ⟨p, n, hmem, hwv⟩ := weave_last h1
    rcases List.append_eq_append_iff.1 h3 with ⟨x, e1, e2⟩ | ⟨x, e1, e2⟩
    · -- the numbers reach into the plain text
      have hx : x = [] := by
        by_cases hx : x = []
        · exact hx
        · exfalso
          have hlast : (a ++ weave nums gs).getLast? = some (x.getLast hx) := by
            rw [e1, List.getLast?_append, List.getLast?_eq_some_getLast hx]; rfl
          have hne := isNumber_ne_nil (hn n hmem)
          rw [hwv, ← List.append_assoc, List.getLast?_append, List.getLast?_eq_some_getLast hne] at hlast
          simp only [Option.some_or, Option.some.injEq] at hlast
          refine isNumber_not_plain (hn n hmem) _ (List.getLast_mem hne) ?_
          rw [hlast]
          exact hw _ (by rw [e2]; simp)
      subst hx
      exact ⟨a, [], by rw [e1]; simp⟩
    · exact ⟨a, x, e1⟩
  · rintro ⟨h1, h2, a, b, h3⟩
    exact ⟨h1, h2, a, b ++ w, by rw [h3]; simp⟩

theorem lineRes_end {dig : Char → Bool} (hd : DigitClass dig) {point : Char} (hp : point = '.' ∨ point = ',')
    {w : List Char} (hw : ∀ c ∈ w, Plain dig point c) (s : List Char) :
    lineRes dig point (s ++ w) = lineRes dig point s := by
  have hnums : (lineRes dig point (s ++ w)).nums = (lineRes dig point s).nums := findall_end hd hp hw s
  have hseps : (lineRes dig point (s ++ w)).seps = (lineRes dig point s).seps := by
    by_cases h0 : (lineRes dig point s).nums = []
    · rw [lineRes_empty h0, lineRes_empty (by rw [hnums]; exact h0)]
    · have ht := lineRes_nums hd hp s
      have hn := tokens_numbers ht
      have hse := fun gs => separated_end (gs := gs) hn hw (s := s)
      rcases lineRes_seps hd hp h0 with ⟨gs, h1, h2⟩ | ⟨h1, h2⟩ <;>
      rcases lineRes_seps hd hp (line := s ++ w) (by rw [hnums]; exact h0) with ⟨gs', h3, h4⟩ | ⟨h3, h4⟩
      · rw [hnums] at h3
        rw [h2, h4, separated_unique ht h1 ((hse gs').1 h3)]
      · rw [hnums] at h3
        exact absurd ((hse gs).2 h1) (h3 gs)
      · rw [hnums] at h3
        exact absurd ((hse gs').1 h3) (h1 gs')
      · rw [h2, h4]
  cases hl : lineRes dig point (s ++ w)
  cases hr : lineRes dig point s
  rw [hl, hr] at hnums hseps
  dsimp only at hnums hseps
  rw [hnums, hseps]

theorem ends_plain {dig : Char → Bool} (hd : DigitClass dig) {point : Char} (hp : point = '.' ∨ point = ',')
    {w : List Char} (hw : ∀ c ∈ w, c = '\n' ∨ c = '\r') : ∀ c ∈ w, Plain dig point c := by
  intro c hc
  refine space_plain hd hp ?_
  rcases hw c hc with rfl | rfl <;> decide

theorem lineRes_same {dig : Char → Bool} (hd : DigitClass dig) {point : Char} (hp : point = '.' ∨ point = ',')
    {l l' : List Char} (h : LineAlike l l') : lineRes dig point l = lineRes dig point l' := by
  obtain ⟨b, w, w', rfl, rfl, _, _, hw, hw'⟩ := h.mem
  rw [lineRes_end hd hp (ends_plain hd hp hw), lineRes_end hd hp (ends_plain hd hp hw')]

theorem split_blank_same {dig : Char → Bool} (hd : DigitClass dig) {point : Char} (hp : point = '.' ∨ point = ',')
    {l l' : List Char} (h : LineAlike l l') :
    ((numRx dig point).split l).any (fun m => decide (strip m ≠ [])) =
      ((numRx dig point).split l').any (fun m => decide (strip m ≠ [])) := by
  obtain ⟨b, w, w', rfl, rfl, _, _, hw, hw'⟩ := h.mem
  have key : ∀ w : List Char, (∀ c ∈ w, c = '\n' ∨ c = '\r') →
      ((numRx dig point).split (b ++ w)).any (fun m => decide (strip m ≠ [])) =
        ((numRx dig point).split b).any (fun m => decide (strip m ≠ [])) := by
    intro w hw
    obtain ⟨init, last, h1, h2⟩ := split_end hd hp (ends_plain hd hp hw) b
    have : strip (last ++ w) = strip last := by
      rw [strip_eq, strip_eq]
      exact stripBy_end (fun c hc => by rcases hw c hc with rfl | rfl <;> decide)
    rw [h1, h2, List.any_append, List.any_append]
    simp only [List.any_cons, List.any_nil, this]
  rw [key w hw, key w' hw']

/-- What is cut from a line that is followed by other characters than those of the
delimiter. -/
theorem cutAt_end {d : List Char} (hd : d ≠ []) {w : List Char} (hw : ∀ c ∈ w, c ∉ d) {s : List Char}
    {fs : List (List Char)} (h : CutAt d s fs) :
    ∃ init last, fs = init ++ [last] ∧ CutAt d (s ++ w) (init ++ [last ++ w]) := by
  induction h with
  | @last s h =>
    refine ⟨[], s, rfl, .last ?_⟩
    rintro ⟨a, b, hab⟩
    rcases List.append_eq_append_iff.1 hab with ⟨x, e1, e2⟩ | ⟨x, e1, e2⟩
    · exact h ⟨a, x, e1.symm⟩
    · by_cases hx : x = []
      · subst hx; exact h ⟨a, [], by simpa using e1⟩
      · have hlast : (a ++ d).getLast? = some (x.getLast hx) := by
          rw [e1, List.getLast?_append, List.getLast?_eq_some_getLast hx]; rfl
        rw [List.getLast?_append, List.getLast?_eq_some_getLast hd] at hlast
        simp only [Option.some_or, Option.some.injEq] at hlast
        refine hw (x.getLast hx) (by rw [e2]; simp) ?_
        rw [← hlast]; exact List.getLast_mem hd
  | @cut f t fs hf _ ih =>
    obtain ⟨init, last, h1, h2⟩ := ih
    refine ⟨f :: init, last, by rw [h1]; rfl, ?_⟩
    rw [List.append_assoc]
    exact .cut hf h2

/-- The fields of a line that are not blank, as `findNames` takes them. -/
theorem fields_same {d : Option (List Char)} (hd : ∀ s, d = some s → '\n' ∉ s ∧ '\r' ∉ s)
    {l l' : List Char} (h : LineAlike l l') :
    (pySplit pySpace d l).map (fun fs => (fs.filter fun f => strip f ≠ []).map strip) =
      (pySplit pySpace d l').map (fun fs => (fs.filter fun f => strip f ≠ []).map strip) := by
  obtain ⟨b, w, w', e1, e2, hw, hw'⟩ : ∃ b w w', l = b ++ w ∧ l' = b ++ w' ∧
      (∀ c ∈ w, c = '\n' ∨ c = '\r') ∧ ∀ c ∈ w', c = '\n' ∨ c = '\r' := by
    obtain ⟨b, w, w', e1, e2, _, _, hw, hw'⟩ := h.mem
    exact ⟨b, w, w', e1, e2, hw, hw'⟩
  subst e1 e2
  clear h
  have key : ∀ w : List Char, (∀ c ∈ w, c = '\n' ∨ c = '\r') →
      (pySplit pySpace d (b ++ w)).map (fun fs => (fs.filter fun f => strip f ≠ []).map strip) =
        (pySplit pySpace d b).map (fun fs => (fs.filter fun f => strip f ≠ []).map strip) := by
    intro w hw
    have hsp : ∀ c ∈ w, pySpace c = true := fun c hc => by rcases hw c hc with rfl | rfl <;> decide
    match d, hd with
    | none, _ =>
      obtain ⟨ws, hws⟩ := words_exists pySpace b
      have hws2 : Words (fun c => pySpace c = true) ws (b ++ w) := by
        clear hw
        induction hws with
        | nil h0 =>
          exact .nil (fun c hc => by
            rcases List.mem_append.1 hc with hc | hc
            · exact h0 c hc
            · exact hsp c hc)
        | @cons w0 f fs rest h1 h2 h3 h4 _ ih =>
          rw [List.append_assoc]
          refine .cons h1 h2 h3 ?_ ih
          intro c hc
          cases rest with
          | nil => exact hsp c (List.mem_of_mem_head? hc)
          | cons r rs => exact h4 c (by simpa using hc)
      simp only [pySplit, splitWs_words hws, splitWs_words hws2]
    | some [], _ => rfl
    | some (x :: xs), hd =>
      obtain ⟨h1, h2⟩ := hd _ rfl
      obtain ⟨fs, hfs⟩ := cutAt_exists (d := x :: xs) (by simp) b
      have hwd : ∀ c ∈ w, c ∉ x :: xs := by
        intro c hc; rcases hw c hc with rfl | rfl <;> assumption
      obtain ⟨init, last, e1, e2⟩ := cutAt_end (by simp) hwd hfs
      simp only [pySplit, cutAt_splitStr (by simp) hfs, cutAt_splitStr (by simp) e2, e1, Except.map,
        List.filter_append, List.map_append]
      have : strip (last ++ w) = strip last := by
        rw [strip_eq, strip_eq]; exact stripBy_end hsp
      by_cases hs : strip last = [] <;> simp [this, hs]
  rw [key w hw, key w' hw']

theorem findNames_same {ff : List Char → Bool} {d : Option (List Char)}
    (hd : ∀ s, d = some s → '\n' ∉ s ∧ '\r' ∉ s) {n : Nat} {ls ls' : List (List Char)} (h : Alike ls ls') :
    findNames ff d n ls = findNames ff d n ls' := by
  induction h with
  | nil => rfl
  | @cons l l' ls ls' hl _ ih =>
    have hf := fields_same hd hl
    rw [findNames, findNames]
    cases h1 : pySplit pySpace d l with
    | error e =>
      rw [h1] at hf
      cases h2 : pySplit pySpace d l' with
      | error e' => rw [h2] at hf; simp only [Except.map, Except.error.injEq] at hf; rw [hf]
      | ok fs' => rw [h2] at hf; simp [Except.map] at hf
    | ok fs =>
      rw [h1] at hf
      cases h2 : pySplit pySpace d l' with
      | error e' => rw [h2] at hf; simp [Except.map] at hf
      | ok fs' =>
        rw [h2] at hf
        simp only [Except.map, Except.ok.injEq] at hf
        dsimp only
        rw [hf, ih]

theorem Alike.append {a a' b b' : List (List Char)} (h : Alike a a') (h' : Alike b b') :
    Alike (a ++ b) (a' ++ b') := by
  induction h with
  | nil => exact h'
  | cons hl _ ih => exact .cons hl ih

theorem Alike.reverse {a a' : List (List Char)} (h : Alike a a') : Alike a.reverse a'.reverse := by
  induction h with
  | nil => exact .nil
  | cons hl _ ih => rw [List.reverse_cons, List.reverse_cons]; exact ih.append (.cons hl .nil)

theorem Alike.take {a a' : List (List Char)} (h : Alike a a') (n : Nat) : Alike (a.take n) (a'.take n) := by
  induction h generalizing n with
  | nil => simpa using Alike.nil
  | cons hl _ ih =>
    cases n with
    | zero => exact .nil
    | succ n => exact .cons hl (ih n)

theorem Alike.dropBlank {a a' : List (List Char)} (h : Alike a a') :
    Alike (a.dropWhile fun l => strip l = []) (a'.dropWhile fun l => strip l = []) := by
  induction h with
  | nil => exact .nil
  | @cons l l' ls ls' hl hls ih =>
    have : strip l = strip l' := strip_same (by decide) (by decide) hl
    rw [List.dropWhile_cons, List.dropWhile_cons, this]
    split
    · exact ih
    · exact .cons hl hls

theorem Alike.map_eq {β : Type} {g : List Char → β} (hg : ∀ l l', LineAlike l l' → g l = g l')
    {a a' : List (List Char)} (h : Alike a a') : a.map g = a'.map g := by
  induction h with
  | nil => rfl
  | cons hl _ ih => rw [List.map_cons, List.map_cons, hg _ _ hl, ih]

theorem Alike.last {a a' : List (List Char)} (h : Alike a a') :
    LineAlike (a.getLast?.getD []) (a'.getLast?.getD []) := by
  have := h.reverse
  rw [← List.head?_reverse, ← List.head?_reverse]
  generalize a.reverse = r at *
  generalize a'.reverse = r' at *
  cases this with
  | nil => exact ⟨[], [], [], rfl, rfl, by simp, by simp, .inl ⟨rfl, rfl⟩⟩
  | cons hl _ => exact hl

theorem strip_subset {s : List Char} : ∀ c ∈ strip s, c ∈ s := by
  intro c hc
  obtain ⟨a, b, h, _⟩ := stripBy_spec pySpace s
  rw [h]
  rw [strip_eq] at hc
  simp [hc]

theorem weave_subset {nums gs : List (List Char)} (hl : gs.length + 1 = nums.length) :
    ∀ g ∈ gs, ∀ c ∈ g, c ∈ weave nums gs := by
  induction nums generalizing gs with
  | nil => simp at hl
  | cons n ns ih =>
    cases gs with
    | nil => simp
    | cons g gs =>
      intro g' hg' c hc
      rw [weave]
      rcases List.mem_cons.1 hg' with rfl | hg'
      · simp [hc]
      · have := ih (gs := gs) (by simpa using hl) g' hg' c hc
        simp [this]

/-- Separators have only characters of the line. -/
theorem seps_subset {dig : Char → Bool} (hd : DigitClass dig) {point : Char} (hp : point = '.' ∨ point = ',')
    (s : List Char) : ∀ sep ∈ (lineRes dig point s).seps, ∀ c ∈ sep, c ∈ s := by
  by_cases h0 : (lineRes dig point s).nums = []
  · rw [lineRes_empty h0]; simp
  · rcases lineRes_seps hd hp h0 with ⟨gs, ⟨h1, _, a, b, h3⟩, h2⟩ | ⟨_, h2⟩
    · rw [h2]
      intro sep hsep c hc
      obtain ⟨g, hg, rfl⟩ := List.mem_map.1 hsep
      have hcg : c ∈ g := by
        unfold cleanSep at hc
        split at hc
        · exact strip_subset c hc
        · exact hc
      rw [h3]
      have := weave_subset h1 g hg c hcg
      simp [this]
    · rw [h2]; simp

/-- The separators of a line have nothing of its end. -/
theorem seps_free {dig : Char → Bool} (hd : DigitClass dig) {point : Char} (hp : point = '.' ∨ point = ',')
    {l l' : List Char} (h : LineAlike l l') : ∀ sep ∈ (lineRes dig point l).seps, '\n' ∉ sep ∧ '\r' ∉ sep := by
  obtain ⟨b, w, w', rfl, rfl, h1, h2, hw, _⟩ := h.mem
  intro sep hsep
  rw [lineRes_end hd hp (ends_plain hd hp hw)] at hsep
  have := seps_subset hd hp b sep hsep
  exact ⟨fun hc => h1 (this _ hc), fun hc => h2 (this _ hc)⟩

theorem preparse_same {dig : Char → Bool} (hd : DigitClass dig) {ff : List Char → Bool}
    {ls ls' : List (List Char)} (h : Alike ls ls') :
    preparse dig ff ls = preparse dig ff ls' ∧
      ∀ d, preparse dig ff ls' = .ok (some d) → ∀ s, d.delimiter = some s → '\n' ∉ s ∧ '\r' ∉ s := by
  have hk := (h.reverse.dropBlank).reverse
  have hm : ∀ point, (point = '.' ∨ point = ',') →
      (ls.reverse.dropWhile fun l => strip l = []).reverse.map (lineRes dig point) =
      (ls'.reverse.dropWhile fun l => strip l = []).reverse.map (lineRes dig point) :=
    fun point hp => hk.map_eq (fun l l' hl => lineRes_same hd hp hl)
  have hlast := fun point (hp : point = '.' ∨ point = ',') => split_blank_same hd hp h.last
  have hfree : ∀ point, (point = '.' ∨ point = ',') → ∀ r,
      pyLast ((ls'.reverse.dropWhile fun l => strip l = []).reverse.map (lineRes dig point)) = .ok r →
      ∀ sep ∈ r.seps, '\n' ∉ sep ∧ '\r' ∉ sep := by
    intro point hp r hr sep hsep
    rw [← hm point hp] at hr
    unfold pyLast at hr
    rw [List.getLast?_map] at hr
    cases hg : (ls.reverse.dropWhile fun l => strip l = []).reverse.getLast? with
    | none => rw [hg] at hr; simp at hr
    | some l =>
      rw [hg] at hr
      simp only [Option.map_some, Except.ok.injEq] at hr
      subst hr
      have hl := hk.last
      rw [hg] at hl
      exact seps_free hd hp hl sep hsep
  have pl : ∀ {r : LineRes} {s : List Char}, pyLast r.seps = .ok s → s ∈ r.seps := by
    intro r s hs
    unfold pyLast at hs
    split at hs
    · rename_i x hx
      simp only [Except.ok.injEq] at hs
      subst hs
      exact List.mem_of_getLast? hx
    · simp at hs
  unfold preparse
  dsimp only
  rw [hm '.' (.inl rfl), hm ',' (.inr rfl)]
  cases hdl : pyLast ((ls'.reverse.dropWhile fun l => strip l = []).reverse.map (lineRes dig '.')) with
  | error e => exact ⟨rfl, fun d hd => (nomatch hd)⟩
  | ok dl =>
    cases hcl : pyLast ((ls'.reverse.dropWhile fun l => strip l = []).reverse.map (lineRes dig ',')) with
    | error e => exact ⟨rfl, fun d hd => (nomatch hd)⟩
    | ok cl =>
      have f1 := hfree '.' (.inl rfl) dl hdl
      have f2 := hfree ',' (.inr rfl) cl hcl
      have hpt : (if decide (dl.numcnt ≤ cl.numcnt) = true then '.' else ',') = '.' ∨
          (if decide (dl.numcnt ≤ cl.numcnt) = true then '.' else ',') = ',' := by
        split
        · exact .inl rfl
        · exact .inr rfl
      dsimp only
      rw [hlast _ hpt]
      generalize (if (decide (dl.numcnt ≤ cl.numcnt)) = true then dl else cl) = last
      generalize (if last.numcnt = 1 then 0 else 1) = exp
      by_cases hse : last.septypcnt ≠ exp
      · simp only [if_pos hse]
        exact ⟨trivial, fun d hd => (nomatch hd)⟩
      simp only [if_neg hse]
      generalize hany : (((numRx dig (if decide (dl.numcnt ≤ cl.numcnt) = true then '.' else ',')).split
        (ls'.getLast?.getD [])).any fun m => decide (strip m ≠ [])) = anys
      by_cases hc : exp = 0 ∧ anys = true
      · simp only [if_pos hc]
        exact ⟨trivial, fun d hd => (nomatch hd)⟩
      simp only [if_neg hc]
      generalize hdel : (if exp = 1 then _ else _ : Except Exc (Option (List Char))) = del
      cases del with
      | error e => exact ⟨rfl, fun d hd => (nomatch hd)⟩
      | ok d =>
        have hd0 : ∀ s, d = some s → '\n' ∉ s ∧ '\r' ∉ s := by
          rintro s rfl
          by_cases he : exp = 1
          · rw [if_pos he] at hdel
            split at hdel
            · simp at hdel
            · rename_i s1 hs1
              split at hdel
              · rename_i hne
                simp only [Except.ok.injEq, Option.some.injEq] at hdel
                subst hdel
                by_cases hfl : decide (dl.numcnt ≤ cl.numcnt) = true
                · rw [if_pos hfl] at hs1
                  exact f1 _ (pl hs1)
                · rw [if_neg hfl] at hs1
                  simp only [Except.ok.injEq] at hs1
                  exact absurd hs1.symm hne
              · split at hdel
                · simp at hdel
                · rename_i s2 hs2
                  simp only [Except.ok.injEq, Option.some.injEq] at hdel
                  subst hdel
                  exact f2 _ (pl hs2)
          · rw [if_neg he] at hdel
            simp at hdel
        dsimp only
        rw [findNames_same hd0 (h.take _).reverse]
        refine ⟨rfl, fun d' hd' => ?_⟩
        split at hd'
        · simp at hd'
        · simp only [Except.ok.injEq, Option.some.injEq] at hd'
          subst hd'
          exact hd0

/-! ## lazy_textpack -/

theorem decode_same {c : Codec} (hc : KeepsLineEnds c) {l l' t : List Char} (h : LineAlike l l')
    (ht : c.decode l = .ok t) : ∃ t', c.decode l' = .ok t' ∧ LineAlike t t' := by
  obtain ⟨b, w, w', rfl, rfl, h1, h2, h3⟩ := h
  rcases h3 with ⟨rfl, rfl⟩ | ⟨h3, h4⟩
  · rw [List.append_nil] at *
    obtain ⟨h5, h6⟩ := hc.decode_free b t h1 h2 ht
    exact ⟨t, ht, t, [], [], by simp, by simp, h5, h6, .inl ⟨rfl, rfl⟩⟩
  · rw [hc.decode_end b w h3 h1 h2] at ht
    rw [hc.decode_end b w' h4 h1 h2]
    cases hb : c.decode b with
    | error e => rw [hb] at ht; simp [Except.map] at ht
    | ok x =>
      rw [hb] at ht
      simp only [Except.map, Except.ok.injEq] at ht
      obtain ⟨h5, h6⟩ := hc.decode_free b x h1 h2 hb
      exact ⟨x ++ w', rfl, x, w, w', ht.symm, rfl, h5, h6, .inr ⟨h3, h4⟩⟩

theorem decode_fails_same {c : Codec} (hc : KeepsLineEnds c) {l l' : List Char} (h : LineAlike l l') {e : Exc}
    (ht : c.decode l = .error e) : c.decode l' = .error e := by
  obtain ⟨b, w, w', rfl, rfl, h1, h2, h3⟩ := h
  rcases h3 with ⟨rfl, rfl⟩ | ⟨h3, h4⟩
  · exact ht
  · rw [hc.decode_end b w h3 h1 h2] at ht
    rw [hc.decode_end b w' h4 h1 h2]
    cases hb : c.decode b with
    | error e' => rw [hb] at ht; simpa [Except.map] using ht
    | ok x => rw [hb] at ht; simp [Except.map] at ht

theorem decodes_same {c : Codec} (hc : KeepsLineEnds c) {ls ls' : List (List Char)} (h : Alike ls ls') :
    (∃ e, mapE c.decode ls = .error e ∧ mapE c.decode ls' = .error e) ∨
    ∃ ts ts', mapE c.decode ls = .ok ts ∧ mapE c.decode ls' = .ok ts' ∧ Alike ts ts' := by
  induction h with
  | nil => exact .inr ⟨[], [], rfl, rfl, .nil⟩
  | @cons l l' ls ls' hl _ ih =>
    rw [mapE, mapE]
    cases hd : c.decode l with
    | error e =>
      rw [decode_fails_same hc hl hd]
      exact .inl ⟨e, rfl, rfl⟩
    | ok t =>
      obtain ⟨t', ht', ha⟩ := decode_same hc hl hd
      rw [ht']
      rcases ih with ⟨e, h1, h2⟩ | ⟨ts, ts', h1, h2, h3⟩
      · rw [h1, h2]; exact .inl ⟨e, rfl, rfl⟩
      · rw [h1, h2]; exact .inr ⟨_, _, rfl, rfl, .cons ha h3⟩

theorem endsPadded_free {d : Option (List Char)} (h : ∀ s, d = some s → '\n' ∉ s ∧ '\r' ∉ s) : EndsPadded d := by
  cases d with
  | none => exact ⟨⟨by decide, by decide⟩, ⟨by decide, by decide⟩⟩
  | some d =>
    obtain ⟨h1, h2⟩ := h d rfl
    exact ⟨⟨by decide, fun _ => h1⟩, ⟨by decide, fun _ => h2⟩⟩

theorem lazyArgs_delimiter {b : Option TextArgs} {kw : LazyKw} {a : TextArgs} (h : lazyArgs b kw = .ok a) :
    a.delimiter = kw.delimiter.getD (b.getD {}).delimiter := by
  unfold lazyArgs at h
  split at h
  · simp at h
  · rename_i a' ha'
    split at h
    · simp at h
    · simp only [Except.ok.injEq] at h
      subst h
      unfold limitNames at ha'
      split at ha'
      · split at ha'
        · simp only [Except.ok.injEq] at ha'
          subst ha'; rfl
        · simp at ha'
      · simp only [Except.ok.injEq] at ha'
        subst ha'; rfl
      · simp only [Except.ok.injEq] at ha'
        subst ha'; rfl

/-- C75 for `lazy_textpack`: streams with the same lines, at the same of them, give the same,
whatever the ends of the lines and whatever keywords are given (a delimiter given has no
character of the line ends).  For bytes: with a codec that leaves the line ends alone. -/
theorem C75_lazy (fl : FloatS) (dig : Char → Bool) (hd : DigitClass dig) (ff : List Char → Bool)
    (codec : Option Codec) (hc : ∀ c, codec = some c → KeepsLineEnds c) (f f' : TFile)
    (hf : SameLines (f.chars.drop f.pos) (f'.chars.drop f'.pos)) (h0 : SameLines f.chars f'.chars)
    (n : Nat) (kw : LazyKw)
    (hkw : ∀ d, kw.delimiter = some d → Pad d '\n' ∧ Pad d '\r') :
    lazyTextpack fl dig ff codec f n kw = lazyTextpack fl dig ff codec f' n kw := by
  have hlines : (∃ e, lazyLines codec n f = .error e ∧ lazyLines codec n f' = .error e) ∨
      ∃ ts ts', lazyLines codec n f = .ok ts ∧ lazyLines codec n f' = .ok ts' ∧ Alike ts ts' := by
    unfold lazyLines
    cases codec with
    | none => exact .inr ⟨_, _, rfl, rfl, readLines_same n hf⟩
    | some c => exact decodes_same (hc c rfl) (readLines_same n hf)
  have hpad : ∀ (b : Option TextArgs) (a : TextArgs), (∀ s, (b.getD {}).delimiter = some s → '\n' ∉ s ∧ '\r' ∉ s) →
      lazyArgs b kw = .ok a → EndsPadded a.delimiter := by
    intro b a hb ha
    rw [lazyArgs_delimiter ha]
    cases hk : kw.delimiter with
    | none => exact endsPadded_free hb
    | some d => exact hkw d hk
  have htext : ∀ a : TextArgs, EndsPadded a.delimiter →
      textpack fl (lazyHint codec kw) { f with pos := 0 } a =
      textpack fl (lazyHint codec kw) { f' with pos := 0 } a :=
    fun a ha => C75_textpack fl _ _ _ a h0 ha
  unfold lazyTextpack
  rcases hlines with ⟨e, h1, h2⟩ | ⟨ts, ts', h1, h2, h3⟩
  · rw [h1, h2]
  rw [h1, h2]
  obtain ⟨hp, hfree⟩ := preparse_same hd (ff := ff) h3
  dsimp only
  rw [hp]
  split
  · rfl
  · cases hl : lazyArgs none kw with
    | error e => rfl
    | ok a => exact htext a (hpad none a (fun s hs => (nomatch hs)) hl)
  · rename_i d hpd
    cases hda : derivedArgs fl codec (lazyHint codec kw) d with
    | error e => rfl
    | ok base =>
      dsimp only
      cases hl : lazyArgs (some base) kw with
      | error e => rfl
      | ok a =>
        refine htext a (hpad _ a ?_ hl)
        intro s hs
        have hfr := hfree d hpd
        unfold derivedArgs at hda
        split at hda
        · simp at hda
        · rename_i del hdel
          simp only [Except.ok.injEq] at hda
          subst hda
          dsimp only [Option.getD_some] at hs
          subst hs
          unfold encodeDelimiter at hdel
          split at hdel
          · rename_i c s0 hs0
            split at hdel
            · simp at hdel
            · rename_i s1 he
              simp only [Except.ok.injEq, Option.some.injEq] at hdel
              subst hdel
              obtain ⟨g1, g2⟩ := hfr s0 hs0
              exact (hc c rfl).encode_free s0 s1 g1 g2 he
          · simp only [Except.ok.injEq] at hdel
            exact hfr s hdel

/-! ## Files opened by name -/

theorem universal_free {l t : List Char} (h1 : '\n' ∉ l) (h2 : '\r' ∉ l) : universal (l ++ t) = l ++ universal t := by
  induction l with
  | nil => rfl
  | cons c cs ih =>
    have hc : c ≠ '\r' := fun h => h2 (by simp [h])
    rw [List.cons_append, universal.eq_4]
    · rw [ih (fun h => h1 (by simp [h])) (fun h => h2 (by simp [h]))]; rfl
    · intro s h; exact absurd h hc
    · intro h; exact absurd h hc

theorem universal_ends {e : List Char} (he : LineEnd e ∨ e = ['\r']) {ls : List (List Char)} {last : List Char}
    (hl : ∀ l ∈ last :: ls, '\n' ∉ l ∧ '\r' ∉ l) : universal (withEnds e ls last) = withEnds ['\n'] ls last := by
  induction ls with
  | nil =>
    obtain ⟨h1, h2⟩ := hl last (by simp)
    have := universal_free (t := []) h1 h2
    simpa [withEnds, universal] using this
  | cons l ls ih =>
    obtain ⟨h1, h2⟩ := hl l (by simp)
    have ih := ih (fun x hx => hl x (by
      rcases List.mem_cons.1 hx with rfl | hx
      · simp
      · simp [hx]))
    have e1 : ∀ e, withEnds e (l :: ls) last = l ++ (e ++ withEnds e ls last) := by
      intro e; simp [withEnds]
    rw [e1, e1, universal_free h1 h2, ← ih]
    congr 1
    rcases he with (rfl | rfl) | rfl
    · rfl
    · rfl
    · -- a lone carriage return, not followed by a line feed
      have hnl : ∀ s, withEnds ['\r'] ls last ≠ '\n' :: s := by
        intro s hs
        cases ls with
        | nil =>
          have : last = '\n' :: s := by simpa [withEnds] using hs
          exact (hl last (by simp)).1 (by rw [this]; simp)
        | cons m ms =>
          cases m with
          | nil => simp [withEnds] at hs
          | cons c cs =>
            have : c = '\n' := by simp [withEnds] at hs; exact hs.1
            exact (hl (c :: cs) (by simp)).1 (by simp [this])
      show universal ('\r' :: withEnds ['\r'] ls last) = '\n' :: universal (withEnds ['\r'] ls last)
      rw [universal.eq_3]
      intro s hs
      exact hnl s hs

/-- C75 for files given by name, opened as text: the three kinds of line ends, those of
Unix, Windows and old Macintosh, give the same stream, so all that is made of it. -/
theorem C75_text_file {e e' : List Char} (he : LineEnd e ∨ e = ['\r']) (he' : LineEnd e' ∨ e' = ['\r'])
    {ls : List (List Char)} {last : List Char} (hl : ∀ l ∈ last :: ls, '\n' ∉ l ∧ '\r' ∉ l) :
    openText (withEnds e ls last) = openText (withEnds e' ls last) := by
  unfold openText
  rw [universal_ends he hl, universal_ends he' hl]

/-- Texts of the same lines, all with one end or all with the other. -/
theorem sameLines_withEnds {e e' : List Char} (he : LineEnd e) (he' : LineEnd e') {ls : List (List Char)}
    {last : List Char} (hl : ∀ l ∈ last :: ls, '\n' ∉ l ∧ '\r' ∉ l) :
    SameLines (withEnds e ls last) (withEnds e' ls last) := by
  induction ls with
  | nil =>
    obtain ⟨h1, h2⟩ := hl last (by simp)
    exact .last h1 h2
  | cons l ls ih =>
    obtain ⟨h1, h2⟩ := hl l (by simp)
    have e1 : ∀ e, withEnds e (l :: ls) last = l ++ e ++ withEnds e ls last := by
      intro e; simp [withEnds]
    rw [e1, e1]
    refine .cons h1 h2 he he' (ih fun x hx => hl x ?_)
    rcases List.mem_cons.1 hx with rfl | hx
    · simp
    · simp [hx]

/-- The hypotheses of C75 can be met, and what is read of both. -/
example : SameLines "a;b\r\n1;2\r\n3;4".toList "a;b\n1;2\n3;4".toList ∧
    lazyTextpack exFloat asciiDig asciiWord none ⟨"a;b\r\n1;2\r\n3;4".toList, 0⟩ 9 {} =
      lazyTextpack exFloat asciiDig asciiWord none ⟨"a;b\n1;2\n3;4".toList, 0⟩ 9 {} ∧
    lazyTextpack exFloat asciiDig asciiWord none ⟨"a;b\n1;2\n3;4".toList, 0⟩ 9 {} =
      .ok ([(0, [.flt 1, .flt 3]), (1, [.flt 2, .flt 4])], [(0, .str ['a']), (1, .str ['b'])]) := by
  have h : SameLines "a;b\r\n1;2\r\n3;4".toList "a;b\n1;2\n3;4".toList :=
    sameLines_withEnds (ls := ["a;b".toList, "1;2".toList]) (last := "3;4".toList) (.inr rfl) (.inl rfl) (by decide)
  refine ⟨h, ?_, ?_⟩
  · exact C75_lazy _ _ asciiDig_class _ none (fun c hc => (nomatch hc))
      ⟨_, 0⟩ ⟨_, 0⟩ h h 9 {} (fun d hd => (nomatch hd))
  · decide +kernel

/-- Text as bytes, one for each character: a codec that leaves the line ends alone. -/
example : KeepsLineEnds ⟨.ok, .ok⟩ where
  decode_end _ _ _ _ _ := rfl
  decode_free _ _ h1 h2 h := by cases h; exact ⟨h1, h2⟩
  encode_free _ _ h1 h2 h := by cases h; exact ⟨h1, h2⟩

/-- Ends that are both in one file. -/
example : SameLines "1\r\n2\n".toList "1\n2\n".toList :=
  .cons (l := ['1']) (e := ['\r', '\n']) (e' := ['\n']) (t := ['2', '\n']) (t' := ['2', '\n'])
    (by decide) (by decide) (.inr rfl) (.inl rfl)
    (.cons (l := ['2']) (e := ['\n']) (e' := ['\n']) (t := []) (t' := []) (by decide) (by decide) (.inl rfl) (.inl rfl)
      (.last (by decide) (by decide)))

/-- Beyond C75: in a stream of bytes (or of text opened by the caller with `newline=''`) a
lone carriage return ends no line: the lines are all one, and a field has the ends. -/
theorem carriage_return_stream :
    textpack exFloat (.codec .ok) ⟨"1;a\r3;b\r".toList, 0⟩ { delimiter := some [';'] } =
      .ok ([(0, [.flt 1]), (1, [.str "a\r3".toList]), (2, [.str ['b']])], []) ∧
    textpack exFloat .text (openText "1;a\r3;b\r".toList) { delimiter := some [';'] } =
      .ok ([(0, [.flt 1, .flt 3]), (1, [.str ['a'], .str ['b']])], []) := by
  constructor <;> decide +kernel

end CP
