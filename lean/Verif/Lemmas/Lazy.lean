import Verif.Model.Lazy
import Verif.Spec.Lazy
import Verif.Lemmas.Table
import Verif.Lemmas.Text
import Verif.Lemmas.Preparse
/-!
# Lemmas on the lines of numeric tables
-/

namespace CP

open Spec

theorem whites_space {c : Char} (h : c ∈ whites) : pySpace c = true := by
  simp only [whites, List.mem_cons, List.not_mem_nil, or_false] at h
  rcases h with rfl | rfl | rfl | rfl | rfl | rfl <;> decide

theorem space_plain {dig : Char → Bool} (hd : DigitClass dig) {point : Char} (hp : point = '.' ∨ point = ',')
    {c : Char} (h : pySpace c = true) : Plain dig point c := by
  refine ⟨hd.2 c h, ?_, ?_⟩
  · intro hm
    simp at hm
    rcases hm with rfl | rfl | rfl | rfl <;> revert h <;> decide
  · intro hm
    rcases hp with rfl | rfl <;> subst hm <;> revert h <;> decide

theorem readLines_linesOf {ls : List (List Char)} {f : TFile} (n : Nat)
    (h : LinesOf (f.chars.drop f.pos) ls) :
    f.readLines n = ls.take n ++ List.replicate (n - ls.length) [] := by
  induction n generalizing f ls with
  | zero => simp [TFile.readLines]
  | succ n ih =>
    cases ls with
    | nil =>
      have he : fileLines (f.chars.drop f.pos) = [] := fileLines_linesOf h
      have hr : f.readline = ([], f) := by simp [TFile.readline, he]
      rw [TFile.readLines, hr]
      dsimp only
      rw [ih h]
      simp [List.replicate_succ]
    | cons l ls =>
      have h1 := readline_linesOf h
      rw [TFile.readLines, h1]
      dsimp only
      rw [ih (ls := ls) (by
        have := linesOf_tail h
        rw [List.drop_drop] at this
        exact this)]
      simp

theorem noDelim_head {d f : List Char} {c : Char} (hc : d.head? = some c) (hf : c ∉ f) : NoDelim d f := by
  intro u v huv
  apply Classical.byContradiction
  intro hv
  have hlen := congrArg List.length huv
  simp only [List.length_append] at hlen
  have hvl := List.length_pos_iff.2 hv
  have hu : u.length < f.length := by omega
  have h1 : (f ++ d)[u.length]? = f[u.length]? := List.getElem?_append_left hu
  have h2 : (u ++ d ++ v)[u.length]? = some c := by
    cases d with
    | nil => simp at hc
    | cons x xs => simp at hc; subst hc; simp
  rw [huv, h2] at h1
  exact hf (List.mem_of_getElem? h1.symm)

/-- A field with its number. -/
def FieldOf (f n : List Char) : Prop := ∃ v u, f = v ++ n ++ u ∧ AsciiBlank v ∧ AsciiBlank u

/-- Fields with their numbers. -/
def FieldsMatch (fs nums : List (List Char)) : Prop :=
  fs.length = nums.length ∧ ∀ (j : Nat) f n, fs[j]? = some f → nums[j]? = some n → FieldOf f n

theorem joined_cons {d f : List Char} {fs : List (List Char)} (h : fs ≠ []) :
    joined d (f :: fs) = f ++ d ++ joined d fs := by
  cases fs with
  | nil => exact absurd rfl h
  | cons g gs => simp [joined]

/-- What a separator is: with whitespace around, of which there is none if it is whitespace. -/
theorem sepMeans_parts {g sep : List Char} (hne : g ≠ []) (h : SepMeans g sep) :
    ∃ u v, g = u ++ sep ++ v ∧ (∀ c ∈ u, pySpace c = true) ∧ (∀ c ∈ v, pySpace c = true) ∧
      ∃ c, sep.head? = some c ∧ (pySpace c = true → u = [] ∧ v = []) := by
  rcases h with ⟨_, rfl⟩ | ⟨⟨c, hc, hc'⟩, u, v, rfl, hu, hv, h1, _⟩
  · refine ⟨[], [], by simp, by simp, by simp, ?_⟩
    cases sep with
    | nil => exact absurd rfl hne
    | cons c cs => exact ⟨c, rfl, fun _ => ⟨rfl, rfl⟩⟩
  · refine ⟨u, v, rfl, hu, hv, ?_⟩
    cases sep with
    | nil =>
      exfalso
      simp at hc
      rcases hc with hc | hc
      · rw [hu c hc] at hc'; simp at hc'
      · rw [hv c hc] at hc'; simp at hc'
    | cons x xs => exact ⟨x, rfl, fun hx => absurd hx (h1 x rfl)⟩

/-- The fields between the separators. -/
theorem weave_fields {dig : Char → Bool} {point : Char} {sep : List Char} {c0 : Char} (hc0 : sep.head? = some c0)
    (hpl : Plain dig point c0) {nums gs : List (List Char)}
    (hl : gs.length + 1 = nums.length) (hn : ∀ n ∈ nums, IsNumber dig point n)
    (hg : ∀ g ∈ gs, g ≠ [] ∧ (∀ c ∈ g, Plain dig point c ∧ (pySpace c = true → c ∈ whites)) ∧ SepMeans g sep)
    {v : List Char} (hv : AsciiBlank v) (hvc : pySpace c0 = true → v = []) :
    ∃ fs, v ++ weave nums gs = joined sep fs ∧ fs ≠ [] ∧ FieldsMatch fs nums ∧ ∀ f ∈ fs, c0 ∉ f := by
  have hno : ∀ (v n u : List Char), AsciiBlank v → (pySpace c0 = true → v = []) → IsNumber dig point n →
      AsciiBlank u → (pySpace c0 = true → u = []) → c0 ∉ v ++ n ++ u := by
    intro v n u hv hvc hn hu huc hm
    simp only [List.mem_append] at hm
    rcases hm with (hm | hm) | hm
    · have := whites_space (hv _ hm); rw [hvc this] at hm; simp at hm
    · exact isNumber_not_plain hn _ hm hpl
    · have := whites_space (hu _ hm); rw [huc this] at hm; simp at hm
  induction nums generalizing gs v with
  | nil => simp at hl
  | cons n ns ih =>
    cases gs with
    | nil =>
      have : ns = [] := by simpa using hl.symm
      subst this
      refine ⟨[v ++ n], by simp [weave, joined], by simp, ⟨rfl, ?_⟩, ?_⟩
      · intro j f m hf hm
        cases j with
        | succ j => simp at hf
        | zero =>
          simp at hf hm
          subst hf hm
          exact ⟨v, [], by simp, hv, by simp [AsciiBlank]⟩
      · intro f hf
        simp at hf
        subst hf
        simpa using hno v n [] hv hvc (hn n (by simp)) (by simp [AsciiBlank]) (fun _ => rfl)
    | cons g gs =>
      obtain ⟨hg1, hg2, hg3⟩ := hg g (by simp)
      obtain ⟨u, w, rfl, hu, hw, c, hc, huw⟩ := sepMeans_parts hg1 hg3
      rw [hc0] at hc
      have : c0 = c := by simpa using hc
      subst this
      have hub : AsciiBlank u := fun x hx => (hg2 x (by simp [hx])).2 (hu x hx)
      have hwb : AsciiBlank w := fun x hx => (hg2 x (by simp [hx])).2 (hw x hx)
      obtain ⟨fs, h1, h2, ⟨h3, h4⟩, h5⟩ := ih (gs := gs) (v := w) (by simpa using hl)
        (fun m hm => hn m (by simp [hm])) (fun g hg' => hg g (by simp [hg'])) hwb (fun h => (huw h).2)
      refine ⟨(v ++ n ++ u) :: fs, ?_, by simp, ⟨by simp [h3], ?_⟩, ?_⟩
      · rw [joined_cons h2, ← h1]
        simp [weave]
      · intro j f m hf hm
        cases j with
        | zero =>
          simp only [List.getElem?_cons_zero, Option.some.injEq] at hf hm
          subst hf hm
          exact ⟨v, u, rfl, hv, hub⟩
        | succ j =>
          simp only [List.getElem?_cons_succ] at hf hm
          exact h4 j f m hf hm
      · intro f hf
        rcases List.mem_cons.1 hf with rfl | hf
        · exact hno v n u hv hvc (hn n (by simp)) hub (fun h => (huw h).1)
        · exact h5 f hf

theorem weave_ne_nil {dig : Char → Bool} {point : Char} {nums gs : List (List Char)}
    (hl : gs.length + 1 = nums.length) (hn : ∀ n ∈ nums, IsNumber dig point n) :
    (∃ n ∈ nums, ∃ t, weave nums gs = n ++ t) ∧ ∃ n ∈ nums, ∃ t, weave nums gs = t ++ n := by
  induction nums generalizing gs with
  | nil => simp at hl
  | cons n ns ih =>
    cases gs with
    | nil =>
      have : ns = [] := by simpa using hl.symm
      subst this
      exact ⟨⟨n, by simp, [], by simp [weave]⟩, ⟨n, by simp, [], by simp [weave]⟩⟩
    | cons g gs =>
      obtain ⟨_, m, hm, t, ht⟩ := ih (gs := gs) (by simpa using hl) (fun m hm => hn m (by simp [hm]))
      exact ⟨⟨n, by simp, g ++ weave ns gs, by simp [weave]⟩, ⟨m, by simp [hm], n ++ g ++ t, by simp [weave, ht]⟩⟩

theorem number_not_pad {dig : Char → Bool} (hd : DigitClass dig) {point : Char} (hp : point = '.' ∨ point = ',')
    {n : List Char} (hn : IsNumber dig point n) {c : Char} (hc : c ∈ n) : pySpace c = false := by
  cases h : pySpace c with
  | false => rfl
  | true => exact absurd (space_plain hd hp h) (isNumber_not_plain hn c hc)

theorem rowLine_fields {dig : Char → Bool} (hd : DigitClass dig) {point : Char} (hp : point = '.' ∨ point = ',')
    {sep : Option (List Char)} {nums : List (List Char)} {line : List Char} (h : Hint) (hk : sep ≠ none → 2 ≤ nums.length)
    (hr : RowLine dig point sep nums line) :
    ∃ fs, HasFields (White h) sep line fs ∧ FieldsMatch fs nums ∧ fs ≠ [] ∧ ∀ n ∈ nums, IsNumber dig point n := by
  cases sep with
  | none =>
    obtain ⟨a, n, b, rfl, rfl, ha, hn, hb⟩ := hr
    have hw : ∀ c, c ∈ whites → White h c := by
      intro c hc
      cases h with
      | text => exact whites_space hc
      | bytes => exact hc
      | codec _ => exact hc
    have hw' : ∀ c, White h c → pySpace c = true := by
      intro c hc
      cases h with
      | text => exact hc
      | bytes => exact whites_space hc
      | codec _ => exact whites_space hc
    refine ⟨[n], .white (by simp) (.cons (fun c hc => hw c (ha c hc)) (isNumber_ne_nil hn) ?_ ?_
      (.nil fun c hc => hw c (hb c hc))), ⟨rfl, ?_⟩, by simp, by simpa using hn⟩
    · intro c hc hwc
      exact absurd (hw' c hwc) (by rw [number_not_pad hd hp hn hc]; simp)
    · intro c hc
      exact hw c (hb c (List.mem_of_mem_head? (by rw [hc]; rfl)))
    · intro j f m hf hm
      cases j with
      | succ j => simp at hf
      | zero =>
        simp at hf hm
        subst hf hm
        exact ⟨[], [], by simp, by simp [AsciiBlank], by simp [AsciiBlank]⟩
  | some sep =>
    obtain ⟨a, gs, b, rfl, hl, hn, ha, hb, hg⟩ := hr
    have hk := hk (by simp)
    cases hgs : gs with
    | nil => rw [hgs] at hl; simp at hl; omega
    | cons g0 gs0 =>
      obtain ⟨hg1, hg2, hg3⟩ := hg g0 (by simp [hgs])
      obtain ⟨u, w, hgu, _, _, c0, hc0, _⟩ := sepMeans_parts hg1 hg3
      have hc0m : c0 ∈ g0 := by
        have := List.mem_of_mem_head? (show c0 ∈ sep.head? by rw [hc0]; rfl)
        rw [hgu]; simp [this]
      rw [← hgs]
      obtain ⟨fs, h1, h2, h3, h4⟩ := weave_fields (v := []) hc0 (hg2 c0 hc0m).1 hl hn hg (by simp [AsciiBlank])
        (fun _ => rfl)
      rw [List.nil_append] at h1
      obtain ⟨⟨n1, hn1, t1, ht1⟩, n2, hn2, t2, ht2⟩ := weave_ne_nil hl hn
      refine ⟨fs, ?_, h3, h2, hn⟩
      rw [h1]
      refine .delim (by intro h; rw [h] at hc0; simp at hc0) h2 (fun f hf => noDelim_head hc0 (h4 f hf)) ha hb ?_ ?_ ?_
      · rw [← h1, ht1]
        simp [isNumber_ne_nil (hn n1 hn1)]
      · intro c hc hpad
        rw [← h1, ht1] at hc
        have hm : c ∈ n1 := by
          obtain ⟨x, xs, hx⟩ := List.exists_cons_of_ne_nil (isNumber_ne_nil (hn n1 hn1))
          rw [hx] at hc ⊢
          simp at hc
          simp [hc]
        have := number_not_pad hd hp (hn n1 hn1) hm
        rw [whites_space hpad.1] at this
        simp at this
      · intro c hc hpad
        rw [← h1, ht2, List.getLast?_append] at hc
        have hm : c ∈ n2 := by
          rw [List.getLast?_eq_some_getLast (isNumber_ne_nil (hn n2 hn2))] at hc
          simp at hc
          rw [← hc]; exact List.getLast_mem _
        have := number_not_pad hd hp (hn n2 hn2) hm
        rw [whites_space hpad.1] at this
        simp at this

theorem tableRows_rows {dig : Char → Bool} (hd : DigitClass dig) {point : Char} (hp : point = '.' ∨ point = ',')
    {sep : Option (List Char)} {k : Nat} (h : Hint) (hk : sep ≠ none → 2 ≤ k) {ls : List (List Char)}
    {rows : List (List (List Char))} (ht : TableRows dig point sep k ls rows) :
    ∃ fss, Rows (White h) sep ls fss ∧ fss.length = rows.length ∧
      ∀ (i : Nat) fs, fss[i]? = some fs → ∃ nums, rows[i]? = some nums ∧ FieldsMatch fs nums ∧ nums.length = k ∧
        ∀ n ∈ nums, IsNumber dig point n := by
  induction ht with
  | nil => exact ⟨[], .nil, rfl, by simp⟩
  | blank hb _ ih =>
    obtain ⟨fss, h1, h2, h3⟩ := ih
    exact ⟨fss, .blank hb h1, h2, h3⟩
  | row hl hr _ ih =>
    rename_i line nums ls rs _
    obtain ⟨fss, h1, h2, h3⟩ := ih
    obtain ⟨fs, g1, g2, _, g3⟩ := rowLine_fields hd hp h (fun hs => by rw [hl]; exact hk hs) hr
    refine ⟨fs :: fss, .row g1 h1, by simp [h2], ?_⟩
    intro i f hf
    cases i with
    | zero => simp at hf; subst hf; exact ⟨nums, rfl, g2, hl, g3⟩
    | succ i => simpa using h3 i f (by simpa using hf)

theorem rowLine_tableLine {dig : Char → Bool} (hd : DigitClass dig) {point : Char} (hp : point = '.' ∨ point = ',')
    {sep : List Char} {nums : List (List Char)} {line : List Char} (h : RowLine dig point (some sep) nums line) :
    TableLine dig point sep nums line := by
  obtain ⟨a, gs, b, h1, h2, h3, ha, hb, hg⟩ := h
  exact ⟨a, gs, b, h1, h2, h3, fun c hc => space_plain hd hp (whites_space (ha c hc).1),
    fun c hc => space_plain hd hp (whites_space (hb c hc).1),
    fun g hg' => ⟨(hg g hg').1, fun c hc => ((hg g hg').2.1 c hc).1, (hg g hg').2.2⟩⟩

/-- Among the lines of a table, those that are not blank are rows. -/
theorem tableRows_line {dig : Char → Bool} {point : Char} {sep : Option (List Char)} {k : Nat}
    {ls : List (List Char)} {rows : List (List (List Char))} (ht : TableRows dig point sep k ls rows)
    {l : List Char} (hl : l ∈ ls) (hb : ¬ Blank l) : ∃ nums, nums.length = k ∧ RowLine dig point sep nums l := by
  induction ht with
  | nil => simp at hl
  | blank hp _ ih =>
    rcases List.mem_cons.1 hl with rfl | hl
    · exact absurd (fun c hc => whites_space (hp c hc).1) hb
    · exact ih hl
  | row hn hr _ ih =>
    rcases List.mem_cons.1 hl with rfl | hl
    · exact ⟨_, hn, hr⟩
    · exact ih hl

/-! ### a decimal comma -/

theorem pointed_append (a b : List Char) : pointed (a ++ b) = pointed a ++ pointed b := by
  simp [pointed]

theorem pointed_free {s : List Char} (h : ',' ∉ s) : pointed s = s := by
  induction s with
  | nil => rfl
  | cons c cs ih =>
    have hc : c ≠ ',' := fun e => h (by simp [e])
    have := ih (fun hm => h (by simp [hm]))
    simp only [pointed] at this ⊢
    simp [hc, this]

theorem pointed_number {dig : Char → Bool} (hd : DigitClass dig) {point : Char} (hp : point = '.' ∨ point = ',')
    {n : List Char} (h : IsNumber dig point n) : IsNumber dig '.' (pointed n) := by
  obtain ⟨sg, m, ex, hsg, hm, hex, rfl⟩ := h
  have hdig : ∀ s : List Char, (∀ c ∈ s, dig c = true) → pointed s = s := by
    intro s hs
    apply pointed_free
    intro hc
    have := hs _ hc
    rw [hd.1 ',' (by simp)] at this
    simp at this
  have hsign : ∀ s, Sign s → pointed s = s := by
    rintro s (rfl | rfl | rfl) <;> rfl
  have hpt : pointed [point] = ['.'] := by rcases hp with rfl | rfl <;> rfl
  refine ⟨sg, pointed m, ex, hsg, ?_, hex, ?_⟩
  · rcases hm with hm | ⟨a, b, ha, hb, rfl⟩ | ⟨b, hb, rfl⟩
    · rw [hdig m hm.2]; exact .inl hm
    · refine .inr (.inl ⟨a, b, ha, hb, ?_⟩)
      rw [show a ++ point :: b = a ++ [point] ++ b by simp, pointed_append, pointed_append, hdig a ha.2, hdig b hb, hpt]
      simp
    · refine .inr (.inr ⟨b, hb, ?_⟩)
      rw [show point :: b = [point] ++ b by simp, pointed_append, hdig b hb.2, hpt]
      simp
  · rw [pointed_append, pointed_append, hsign sg hsg]
    congr 1
    rcases hex with rfl | ⟨e, sg', ds, he, hsg', hds, rfl⟩
    · rfl
    · rw [show e :: (sg' ++ ds) = [e] ++ (sg' ++ ds) by simp, pointed_append, pointed_append, hsign sg' hsg',
        hdig ds hds.2]
      rcases he with rfl | rfl <;> rfl

/-- The value of a field of a table. -/
theorem fieldOf_value {fl : FloatS} {dig : Char → Bool} (hd : DigitClass dig) {val : List Char → Val}
    (hfl : FloatReads fl dig val) {point : Char} (hp : point = '.' ∨ point = ',') {f n : List Char}
    (hn : IsNumber dig point n) (hf : FieldOf f n) :
    f ≠ [] ∧ fl (pointed f) = some (val (pointed n)) ∧ (point = '.' → fl f = some (val (pointed n))) := by
  obtain ⟨v, u, rfl, hv, hu⟩ := hf
  have hb : ∀ s, AsciiBlank s → pointed s = s := by
    intro s hs
    apply pointed_free
    intro hc
    have := whites_space (hs _ hc)
    revert this; decide
  refine ⟨by simp [isNumber_ne_nil hn], ?_, ?_⟩
  · rw [pointed_append, pointed_append, hb v hv, hb u hu]
    exact hfl v _ u hv (pointed_number hd hp hn) hu
  · rintro rfl
    have : pointed n = n := by
      apply pointed_free
      intro hc
      exact isNumber_not_plain hn _ hc ⟨hd.1 _ (by simp), by decide, by decide⟩
    rw [this]
    exact hfl v n u hv hn hu

end CP
