import Verif.Lemmas.Regex
/-!
# The separators found on a line
-/

namespace CP

open Spec

theorem strip_eq (s : List Char) : strip s = stripBy pySpace s := rfl

theorem strip_nil_iff {s : List Char} : strip s = [] ↔ Blank s := by
  constructor
  · intro h c hc
    obtain ⟨a, b, h1, h2, h3, _, _⟩ := stripBy_spec pySpace s
    rw [← strip_eq, h] at h1
    rw [h1] at hc
    simp only [List.append_nil, List.mem_append] at hc
    rcases hc with hc | hc
    · exact h2 c hc
    · exact h3 c hc
  · intro h; rw [strip_eq]; exact stripBy_all h

/-- The separator as `preparse` takes it. -/
def cleanSep (g : List Char) : List Char := if strip g ≠ [] then strip g else g

theorem sepMeans_iff {g sep : List Char} : SepMeans g sep ↔ sep = cleanSep g := by
  unfold SepMeans cleanSep
  by_cases h : strip g = []
  · have hb := strip_nil_iff.1 h
    rw [if_neg (by simp [h])]
    constructor
    · rintro (⟨_, h'⟩ | ⟨⟨c, hc, hc'⟩, _⟩)
      · exact h'
      · rw [hb c hc] at hc'; simp at hc'
    · intro h'; exact .inl ⟨hb, h'⟩
  · rw [if_pos h, trimmed_iff, ← strip_eq]
    have : ∃ c ∈ g, pySpace c = false := by
      apply Classical.byContradiction
      intro hno
      apply h
      rw [strip_nil_iff]
      intro c hc
      cases hs : pySpace c with
      | true => rfl
      | false => exact absurd ⟨c, hc, hs⟩ hno
    constructor
    · rintro (⟨hb, _⟩ | ⟨_, h'⟩)
      · exact absurd (strip_nil_iff.2 hb) h
      · exact h'
    · intro h'; exact .inr ⟨this, h'⟩

/-! ### the pattern with the numbers -/

theorem run_lit (n s : List Char) :
    (Rx.lit n).run s = if n <+: s then [([], s.drop n.length)] else [] := by
  induction n generalizing s with
  | nil => simp [Rx.lit, Rx.run]
  | cons c cs ih =>
    rw [Rx.lit, Rx.run]
    cases s with
    | nil => simp [Rx.run]
    | cons x xs =>
      rw [Rx.run]
      by_cases h : x = c
      · subst h
        simp [ih, List.cons_prefix_cons]
      · have : ¬ (c :: cs <+: x :: xs) := by
          rw [List.cons_prefix_cons]; exact fun h' => h h'.1.symm
        simp [h, this]

theorem mem_run_lit {n s : List Char} {gs : List (List Char)} {rest : List Char} :
    (gs, rest) ∈ (Rx.lit n).run s ↔ gs = [] ∧ s = n ++ rest := by
  rw [run_lit]
  constructor
  · intro h
    split at h
    · rename_i hp
      obtain ⟨t, rfl⟩ := hp
      simp at h
      exact ⟨h.1, by rw [h.2]⟩
    · simp at h
  · rintro ⟨rfl, rfl⟩
    simp

theorem mem_runStar {p : Char → Bool} {s rest : List Char} :
    rest ∈ runStar p s ↔ ∃ g, s = g ++ rest ∧ ∀ c ∈ g, p c = true := by
  induction s with
  | nil =>
    simp only [runStar, List.mem_singleton]
    constructor
    · rintro rfl; exact ⟨[], rfl, by simp⟩
    · rintro ⟨g, h, _⟩; simp at h; exact h.2
  | cons c cs ih =>
    rw [runStar]
    have key : (∃ g, c :: cs = g ++ rest ∧ ∀ c ∈ g, p c = true) ↔
        rest = c :: cs ∨ (p c = true ∧ ∃ g, cs = g ++ rest ∧ ∀ c ∈ g, p c = true) := by
      constructor
      · rintro ⟨g, h, hg⟩
        cases g with
        | nil => exact .inl (by simpa using h.symm)
        | cons x xs =>
          simp at h
          obtain ⟨rfl, h⟩ := h
          exact .inr ⟨hg _ (by simp), xs, h, fun y hy => hg y (by simp [hy])⟩
      · rintro (rfl | ⟨hc, g, rfl, hg⟩)
        · exact ⟨[], rfl, by simp⟩
        · refine ⟨c :: g, by simp, ?_⟩
          intro y hy
          rcases List.mem_cons.1 hy with rfl | hy
          · exact hc
          · exact hg y hy
    rw [key]
    by_cases hc : p c = true
    · rw [if_pos hc, List.mem_append, ih, List.mem_singleton]
      constructor
      · rintro (h | h)
        · exact .inr ⟨hc, h⟩
        · exact .inl h
      · rintro (h | ⟨_, h⟩)
        · exact .inr h
        · exact .inl h
    · rw [if_neg hc, List.mem_singleton]
      constructor
      · exact .inl
      · rintro (h | ⟨h, _⟩)
        · exact h
        · exact absurd h hc

theorem mem_run_plus {p : Char → Bool} {s rest : List Char} {gs : List (List Char)} :
    (gs, rest) ∈ (Rx.plus p).run s ↔ gs = [] ∧ ∃ g, g ≠ [] ∧ s = g ++ rest ∧ ∀ c ∈ g, p c = true := by
  unfold Rx.plus
  rw [Rx.run]
  cases s with
  | nil =>
    simp [Rx.run]
    intro _ g hg h; exact absurd h hg
  | cons c cs =>
    rw [Rx.run]
    by_cases hc : p c = true
    · rw [if_pos hc]
      simp [Rx.run, mem_runStar]
      rw [and_comm]
      apply and_congr_right
      intro _
      constructor
      · rintro ⟨g, rfl, hg⟩
        exact ⟨c :: g, by simp, rfl, by
          intro y hy
          rcases List.mem_cons.1 hy with rfl | hy
          · exact hc
          · exact hg y hy⟩
      · rintro ⟨g, hne, h, hg⟩
        cases g with
        | nil => exact absurd rfl hne
        | cons x xs =>
          simp at h
          exact ⟨xs, h.2, fun y hy => hg y (by simp [hy])⟩
    · rw [if_neg hc]
      simp
      intro _ g hne h
      cases g with
      | nil => exact absurd rfl hne
      | cons x xs =>
        simp at h
        obtain ⟨rfl, _⟩ := h
        exact ⟨c, by simp, by simpa using hc⟩

/-- The ways to match the numbers with something between. -/
theorem mem_run_sep {dig : Char → Bool} {nums : List (List Char)} (hne : nums ≠ []) {s rest : List Char}
    {gs : List (List Char)} :
    (gs, rest) ∈ (sepRx dig nums).run s ↔
      gs.length + 1 = nums.length ∧ (∀ g ∈ gs, g ≠ [] ∧ ∀ c ∈ g, dig c = false) ∧ s = weave nums gs ++ rest := by
  induction nums generalizing s gs with
  | nil => exact absurd rfl hne
  | cons n ns ih =>
    cases ns with
    | nil =>
      rw [sepRx, mem_run_lit]
      constructor
      · rintro ⟨rfl, rfl⟩; simp [weave]
      · rintro ⟨h1, _, h3⟩
        simp at h1
        subst h1
        simp [weave] at h3
        exact ⟨rfl, h3⟩
    | cons m ms =>
      rw [sepRx]
      simp only [Rx.run, List.mem_flatMap, List.mem_map, Prod.exists, Prod.mk.injEq, mem_run_lit]
      constructor
      · rintro ⟨g1, r1, ⟨rfl, rfl⟩, g2, r2, ⟨g3, r3, ⟨g4, r4, hplus, rfl, rfl⟩, g5, r5, hin, rfl, rfl⟩, rfl, rfl⟩
        obtain ⟨rfl, g, hg, rfl, hgd⟩ := mem_run_plus.1 hplus
        obtain ⟨h1, h2, h3⟩ := (ih (by simp)).1 hin
        have ht : (g ++ r4).take ((g ++ r4).length - r4.length) = g := by simp
        refine ⟨by simp at h1 ⊢; omega, ?_, ?_⟩
        · intro g' hg'
          simp only [List.nil_append, List.cons_append, List.mem_cons] at hg'
          rcases hg' with rfl | hg'
          · rw [ht]; exact ⟨hg, fun c hc => by simpa using hgd c hc⟩
          · exact h2 g' hg'
        · simp only [List.nil_append, List.cons_append, weave, ht]
          rw [h3]; simp
      · rintro ⟨h1, h2, h3⟩
        cases gs with
        | nil => simp at h1
        | cons g gs =>
          have hr := (ih (s := weave (m :: ms) gs ++ rest) (gs := gs) (by simp)).2
            ⟨by simp at h1 ⊢; omega, fun g' hg' => h2 g' (by simp [hg']), rfl⟩
          refine ⟨[], g ++ (weave (m :: ms) gs ++ rest), ⟨rfl, by rw [h3]; simp [weave]⟩, g :: gs, rest,
            ⟨[g], weave (m :: ms) gs ++ rest, ⟨[], weave (m :: ms) gs ++ rest, ?_, ?_, rfl⟩, gs, rest, hr, rfl, rfl⟩,
            rfl, rfl⟩
          · rw [mem_run_plus]
            exact ⟨rfl, g, (h2 g (by simp)).1, rfl, fun c hc => by simpa using (h2 g (by simp)).2 c hc⟩
          · simp

theorem search_some {rx : Rx} {s : List Char} {gs : List (List Char)} (h : rx.search s = some gs) :
    ∃ a b rest, s = a ++ b ∧ (gs, rest) ∈ rx.run b := by
  induction s with
  | nil =>
    rw [Rx.search] at h
    cases hf : rx.first [] with
    | none => rw [hf] at h; simp at h
    | some r =>
      rw [hf] at h
      simp at h
      subst h
      exact ⟨[], [], r.2, rfl, List.mem_of_mem_head? (by unfold Rx.first at hf; rw [hf]; simp)⟩
  | cons c cs ih =>
    rw [Rx.search] at h
    cases hf : rx.first (c :: cs) with
    | none =>
      rw [hf] at h
      dsimp only at h
      obtain ⟨a, b, rest, h1, h2⟩ := ih h
      exact ⟨c :: a, b, rest, by rw [h1]; rfl, h2⟩
    | some r =>
      rw [hf] at h
      simp at h
      subst h
      exact ⟨[], c :: cs, r.2, rfl, List.mem_of_mem_head? (by unfold Rx.first at hf; rw [hf]; simp)⟩

theorem search_none {rx : Rx} {s : List Char} (h : rx.search s = none) (a b : List Char) (hs : s = a ++ b) :
    rx.run b = [] := by
  induction s generalizing a with
  | nil =>
    rw [Rx.search, Option.map_eq_none_iff] at h
    simp at hs
    rw [hs.2, run_nil_iff]; exact h
  | cons c cs ih =>
    rw [Rx.search] at h
    cases hf : rx.first (c :: cs) with
    | some r => rw [hf] at h; simp at h
    | none =>
      rw [hf] at h
      cases a with
      | nil => simp at hs; rw [← hs, run_nil_iff]; exact hf
      | cons x xs => simp at hs; exact ih h xs hs.2

/-! ### there is one way to separate the numbers -/

theorem tokens_digits {dig : Char → Bool} {point : Char} {line : List Char} {ts : List (List Char)}
    (h : Tokens dig point line ts) : line.filter dig = ts.flatten.filter dig := by
  induction h with
  | nil => rfl
  | @other c s ts hno _ ih =>
    have : dig c = false := by
      cases hc : dig c with
      | false => rfl
      | true =>
        exact absurd ⟨[], [c], [], .inl rfl, .inl ⟨by simp, by simpa using hc⟩, .inl rfl, rfl⟩ (hno [c] s rfl)
    rw [List.filter_cons_of_neg (by simp [this]), ih]
  | num _ _ _ ih => simp [ih]

theorem weave_digits {dig : Char → Bool} {nums gs : List (List Char)} (hg : ∀ g ∈ gs, ∀ c ∈ g, dig c = false) :
    (weave nums gs).filter dig = nums.flatten.filter dig := by
  induction nums generalizing gs with
  | nil => rfl
  | cons n ns ih =>
    cases gs with
    | nil => simp [weave]
    | cons g gs =>
      have : g.filter dig = [] := by
        rw [List.filter_eq_nil_iff]; intro c hc; simp [hg g (by simp) c hc]
      simp only [weave, List.flatten_cons, List.filter_append, this, List.append_nil]
      rw [ih (fun g' hg' => hg g' (by simp [hg']))]

/-- Where the first digit is decides where a part without digits before a number ends. -/
theorem prefix_unique {dig : Char → Bool} {a a' n x x' : List Char} (ha : ∀ c ∈ a, dig c = false)
    (ha' : ∀ c ∈ a', dig c = false) (hn : ∃ c ∈ n, dig c = true) (h : a ++ n ++ x = a' ++ n ++ x') :
    a = a' ∧ x = x' := by
  obtain ⟨c, hc, hcd⟩ := hn
  have ht : ∀ a y : List Char, (∀ c ∈ a, dig c = false) →
      ((a ++ n ++ y).takeWhile fun c => !dig c).length = a.length + (n.takeWhile fun c => !dig c).length := by
    intro a y ha
    induction a with
    | nil =>
      have : (n ++ y).takeWhile (fun c => !dig c) = n.takeWhile fun c => !dig c := by
        clear h
        induction n with
        | nil => simp at hc
        | cons z zs ih =>
          rw [List.cons_append]
          by_cases hz : dig z = true
          · simp [hz]
          · have hz' : dig z = false := by simpa using hz
            rcases List.mem_cons.1 hc with rfl | hc
            · exact absurd hcd hz
            · simp [hz', ih hc]
      simp [this]
    | cons z zs ih =>
      have hz := ha z (by simp)
      have := ih (fun c hc => ha c (by simp [hc]))
      simp [hz] at this ⊢
      omega
  have h1 := ht a x ha
  have h2 := ht a' x' ha'
  rw [h] at h1
  have hl : a.length = a'.length := by omega
  rw [List.append_assoc, List.append_assoc] at h
  obtain ⟨h3, h4⟩ := List.append_inj h hl
  exact ⟨h3, List.append_cancel_left h4⟩

theorem weave_unique {dig : Char → Bool} {nums gs gs' : List (List Char)} {a a' b b' : List Char}
    (hnd : ∀ n ∈ nums, ∃ c ∈ n, dig c = true)
    (hl : gs.length + 1 = nums.length) (hl' : gs'.length + 1 = nums.length)
    (hg : ∀ g ∈ gs, ∀ c ∈ g, dig c = false) (hg' : ∀ g ∈ gs', ∀ c ∈ g, dig c = false)
    (ha : ∀ c ∈ a, dig c = false) (ha' : ∀ c ∈ a', dig c = false)
    (h : a ++ weave nums gs ++ b = a' ++ weave nums gs' ++ b') : a = a' ∧ gs = gs' := by
  induction nums generalizing a a' gs gs' with
  | nil => simp at hl
  | cons n ns ih =>
    cases gs with
    | nil =>
      cases gs' with
      | nil =>
        cases ns with
        | cons m ms => simp at hl
        | nil =>
          simp only [weave, List.flatten_nil, List.append_nil] at h
          exact ⟨(prefix_unique ha ha' (hnd n (by simp)) h).1, rfl⟩
      | cons g' gs' => simp only [List.length_cons, List.length_nil] at hl hl'; omega
    | cons g gs =>
      cases gs' with
      | nil => simp only [List.length_cons, List.length_nil] at hl hl'; omega
      | cons g' gs' =>
        have e1 : a ++ weave (n :: ns) (g :: gs) ++ b = a ++ n ++ (g ++ weave ns gs ++ b) := by simp [weave]
        have e2 : a' ++ weave (n :: ns) (g' :: gs') ++ b' = a' ++ n ++ (g' ++ weave ns gs' ++ b') := by
          simp [weave]
        rw [e1, e2] at h
        obtain ⟨h1, h2⟩ := prefix_unique ha ha' (hnd n (by simp)) h
        obtain ⟨h3, h4⟩ := ih (fun n hn => hnd n (by simp [hn])) (by simp at hl; omega) (by simp at hl'; omega)
          (fun g hg1 => hg g (by simp [hg1])) (fun g hg1 => hg' g (by simp [hg1])) (hg g (by simp))
          (hg' g' (by simp)) h2
        exact ⟨h1, by rw [h3, h4]⟩

theorem tokens_numbers {dig : Char → Bool} {point : Char} {line : List Char} {ts : List (List Char)}
    (h : Tokens dig point line ts) : ∀ t ∈ ts, IsNumber dig point t := by
  induction h with
  | nil => simp
  | other _ _ ih => exact ih
  | num hn _ _ ih =>
    intro t ht
    rcases List.mem_cons.1 ht with rfl | ht
    · exact hn
    · exact ih t ht

theorem separated_unique {dig : Char → Bool} {point : Char} {line : List Char} {nums gs gs' : List (List Char)}
    (ht : Tokens dig point line nums) (h : Separated dig nums line gs) (h' : Separated dig nums line gs') :
    gs = gs' := by
  obtain ⟨hl, hg, a, b, hs⟩ := h
  obtain ⟨hl', hg', a', b', hs'⟩ := h'
  have hno : ∀ (gs : List (List Char)) (a b : List Char), (∀ g ∈ gs, g ≠ [] ∧ ∀ c ∈ g, dig c = false) →
      line = a ++ weave nums gs ++ b → ∀ c ∈ a, dig c = false := by
    intro gs a b hg hs
    have h1 := tokens_digits ht
    rw [hs, List.filter_append, List.filter_append, weave_digits (fun g h => (hg g h).2)] at h1
    have h2 := congrArg List.length h1
    simp only [List.length_append] at h2
    have h3 : a.filter dig = [] := List.length_eq_zero_iff.1 (by omega)
    intro c hc
    have := List.filter_eq_nil_iff.1 h3 c hc
    simpa using this
  exact (weave_unique (fun n hn => isNumber_digit (tokens_numbers ht n hn)) hl hl' (fun g h => (hg g h).2)
    (fun g h => (hg' g h).2) (hno gs a b hg hs) (hno gs' a' b' hg' hs') (hs ▸ hs')).2

/-- `re.search` finds the separators if and only if the numbers are separated. -/
theorem search_sep {dig : Char → Bool} {point : Char} {line : List Char} {nums gs : List (List Char)}
    (ht : Tokens dig point line nums) (hne : nums ≠ []) :
    (sepRx dig nums).search line = some gs ↔ Separated dig nums line gs := by
  constructor
  · intro h
    obtain ⟨a, b, rest, h1, h2⟩ := search_some h
    obtain ⟨h3, h4, h5⟩ := (mem_run_sep hne).1 h2
    exact ⟨h3, h4, a, rest, by rw [h1, h5]; simp⟩
  · intro h
    have h0 := h
    obtain ⟨hl, hg, a, b, hs⟩ := h
    cases hr : (sepRx dig nums).search line with
    | none =>
      have := search_none hr a (weave nums gs ++ b) (by rw [hs]; simp)
      have h2 := (mem_run_sep (s := weave nums gs ++ b) (rest := b) hne).2 ⟨hl, hg, rfl⟩
      rw [this] at h2
      simp at h2
    | some gs' =>
      obtain ⟨a', b', rest, h1, h2⟩ := search_some hr
      obtain ⟨h3, h4, h5⟩ := (mem_run_sep hne).1 h2
      rw [separated_unique ht h0 ⟨h3, h4, a', rest, by rw [h1, h5]; simp⟩]

/-! ### one line -/

theorem eraseDups_one {α : Type} [BEq α] [LawfulBEq α] {l : List α} :
    l.eraseDups.length = 1 ↔ l ≠ [] ∧ ∃ x, ∀ y ∈ l, y = x := by
  cases l with
  | nil => simp
  | cons a as =>
    rw [List.eraseDups_cons]
    constructor
    · intro h
      refine ⟨by simp, a, ?_⟩
      simp only [List.length_cons, Nat.add_eq_right, List.length_eq_zero_iff] at h
      intro y hy
      rcases List.mem_cons.1 hy with rfl | hy
      · rfl
      · apply Classical.byContradiction
        intro hne
        have : y ∈ (as.filter fun b => !b == a).eraseDups := by
          rw [List.mem_eraseDups, List.mem_filter]
          exact ⟨hy, by simpa using hne⟩
        rw [h] at this
        simp at this
    · rintro ⟨_, x, hx⟩
      have hf : (as.filter fun b => !b == a) = [] := by
        rw [List.filter_eq_nil_iff]
        intro y hy
        have h1 := hx y (by simp [hy])
        have h2 := hx a (by simp)
        simp [h1, h2]
      rw [hf]; rfl

theorem eraseDups_zero {α : Type} [BEq α] [LawfulBEq α] {l : List α} : l.eraseDups.length = 0 ↔ l = [] := by
  cases l with
  | nil => simp
  | cons a as => rw [List.eraseDups_cons]; simp

theorem lineRes_nums {dig : Char → Bool} (hd : DigitClass dig) {point : Char} (hp : point = '.' ∨ point = ',')
    (line : List Char) : Tokens dig point line (lineRes dig point line).nums := findall_tokens hd hp line

theorem lineRes_seps {dig : Char → Bool} (hd : DigitClass dig) {point : Char} (hp : point = '.' ∨ point = ',')
    {line : List Char} (h : (lineRes dig point line).nums ≠ []) :
    (∃ gs, Separated dig (lineRes dig point line).nums line gs ∧ (lineRes dig point line).seps = gs.map cleanSep) ∨
    ((∀ gs, ¬ Separated dig (lineRes dig point line).nums line gs) ∧ (lineRes dig point line).seps = []) := by
  have key : (lineRes dig point line).seps =
      (((sepRx dig (lineRes dig point line).nums).search line).getD []).map cleanSep := rfl
  cases hs : (sepRx dig (lineRes dig point line).nums).search line with
  | none =>
    right
    refine ⟨fun gs hgs => ?_, by rw [key, hs]; rfl⟩
    rw [(search_sep (lineRes_nums hd hp line) h).2 hgs] at hs
    simp at hs
  | some gs =>
    left
    exact ⟨gs, (search_sep (lineRes_nums hd hp line) h).1 hs, by rw [key, hs]; rfl⟩

theorem lineRes_empty {dig : Char → Bool} {point : Char}
    {line : List Char} (h : (lineRes dig point line).nums = []) : (lineRes dig point line).seps = [] := by
  have key : (lineRes dig point line).seps =
      (((sepRx dig (lineRes dig point line).nums).search line).getD []).map cleanSep := rfl
  rw [key, h]
  have : ∀ s, (sepRx dig []).search s = some [] := by
    intro s
    cases s <;> simp [Rx.search, sepRx, Rx.first, Rx.run]
  rw [this]; rfl

/-- The line has one kind of separator. -/
theorem oneSep_iff {dig : Char → Bool} (hd : DigitClass dig) {point : Char} (hp : point = '.' ∨ point = ',')
    {line : List Char} :
    (lineRes dig point line).septypcnt = 1 ↔ ∃ sep, OneSep dig point line sep := by
  unfold LineRes.septypcnt
  rw [eraseDups_one]
  constructor
  · rintro ⟨hne, x, hx⟩
    have hn : (lineRes dig point line).nums ≠ [] := fun h => hne (lineRes_empty h)
    rcases lineRes_seps hd hp hn with ⟨gs, hs, he⟩ | ⟨_, he⟩
    · refine ⟨x, _, gs, lineRes_nums hd hp line, ?_, hs, ?_⟩
      · intro h; rw [h] at he; exact hne he
      · intro g hg
        rw [sepMeans_iff]
        exact (hx _ (by rw [he]; exact List.mem_map_of_mem hg)).symm
    · exact absurd he hne
  · rintro ⟨sep, nums, gs, ht, hgs, hs, hall⟩
    have hnums := tokens_unique ht (lineRes_nums hd hp line)
    subst hnums
    have hn : (lineRes dig point line).nums ≠ [] := by
      intro h; have := hs.1; rw [h] at this; simp at this
    rcases lineRes_seps hd hp hn with ⟨gs', hs', he⟩ | ⟨hno, _⟩
    · rw [he, ← separated_unique ht hs hs']
      refine ⟨by simpa using hgs, sep, ?_⟩
      intro y hy
      obtain ⟨g, hg, rfl⟩ := List.mem_map.1 hy
      exact (sepMeans_iff.1 (hall g hg)).symm
    · exact absurd hs (hno gs)

theorem oneSep_seps {dig : Char → Bool} (hd : DigitClass dig) {point : Char} (hp : point = '.' ∨ point = ',')
    {line sep : List Char} (h : OneSep dig point line sep) :
    (lineRes dig point line).seps ≠ [] ∧ (∀ s ∈ (lineRes dig point line).seps, s = sep) ∧ sep ≠ [] ∧
      2 ≤ (lineRes dig point line).numcnt := by
  obtain ⟨nums, gs, ht, hgs, hs, hall⟩ := h
  have hnums := tokens_unique ht (lineRes_nums hd hp line)
  subst hnums
  have hn : (lineRes dig point line).nums ≠ [] := by
    intro h; have := hs.1; rw [h] at this; simp at this
  have hgl : 0 < gs.length := List.length_pos_iff.2 hgs
  refine ⟨?_, ?_, ?_, ?_⟩
  · rcases lineRes_seps hd hp hn with ⟨gs', hs', he⟩ | ⟨hno, _⟩
    · rw [he, ← separated_unique ht hs hs']; simpa using hgs
    · exact absurd hs (hno gs)
  · rcases lineRes_seps hd hp hn with ⟨gs', hs', he⟩ | ⟨hno, _⟩
    · rw [he, ← separated_unique ht hs hs']
      intro s hs1
      obtain ⟨g, hg, rfl⟩ := List.mem_map.1 hs1
      exact (sepMeans_iff.1 (hall g hg)).symm
    · exact absurd hs (hno gs)
  · obtain ⟨g, gs', rfl⟩ := List.exists_cons_of_ne_nil hgs
    rw [sepMeans_iff.1 (hall g (by simp))]
    unfold cleanSep
    split
    · assumption
    · exact (hs.2.1 g (by simp)).1
  · have := hs.1
    unfold LineRes.numcnt
    omega

/-- The line has a number and no separator. -/
theorem noSep_iff {dig : Char → Bool} (hd : DigitClass dig) {point : Char} (hp : point = '.' ∨ point = ',')
    {line : List Char} :
    ((lineRes dig point line).septypcnt = 0 ∧ (lineRes dig point line).numcnt ≠ 0) ↔ NoSep dig point line := by
  unfold LineRes.septypcnt LineRes.numcnt
  rw [eraseDups_zero]
  constructor
  · rintro ⟨h1, h2⟩
    have hn : (lineRes dig point line).nums ≠ [] := by
      intro h; rw [h] at h2; simp at h2
    refine ⟨_, lineRes_nums hd hp line, hn, ?_⟩
    rcases lineRes_seps hd hp hn with ⟨gs, hs, he⟩ | ⟨hno, _⟩
    · rw [h1] at he
      have hgs : gs = [] := by simpa using he.symm
      subst hgs
      left; have := hs.1; simpa using this.symm
    · exact .inr hno
  · rintro ⟨nums, ht, hn, h⟩
    have hnums := tokens_unique ht (lineRes_nums hd hp line)
    subst hnums
    refine ⟨?_, by simpa using hn⟩
    rcases lineRes_seps hd hp hn with ⟨gs, hs, he⟩ | ⟨_, he⟩
    · rcases h with h | h
      · have := hs.1
        rw [h] at this
        have hgs : gs = [] := List.length_eq_zero_iff.1 (by omega)
        rw [he, hgs]; rfl
      · exact absurd hs (h gs)
    · exact he

/-! ### the fields of a line -/

theorem leftmost {d s : List Char} (h : d <:+: s) : ∃ f t, s = f ++ d ++ t ∧ NoDelim d f := by
  have hpre : ∀ s : List Char, d <+: s → ∃ f t, s = f ++ d ++ t ∧ NoDelim d f := by
    rintro s ⟨t, rfl⟩
    refine ⟨[], t, rfl, ?_⟩
    intro u v huv
    have := congrArg List.length huv
    simp at this
    exact List.length_eq_zero_iff.1 (by omega)
  induction s with
  | nil =>
    have := List.infix_nil.1 h
    exact hpre [] (by rw [this]; exact List.nil_prefix)
  | cons x xs ih =>
    by_cases hp : d <+: x :: xs
    · exact hpre _ hp
    · rcases List.infix_cons_iff.1 h with h | h
      · exact absurd h hp
      · obtain ⟨f, t, rfl, hf⟩ := ih h
        refine ⟨x :: f, t, by simp, ?_⟩
        intro u v huv
        cases u with
        | nil =>
          exfalso
          apply hp
          refine ⟨v ++ t, ?_⟩
          rw [← List.append_assoc]
          simp only [List.nil_append] at huv
          rw [← huv]; simp
        | cons y ys =>
          simp only [List.cons_append, List.cons.injEq] at huv
          exact hf ys v huv.2

theorem cutAt_exists {d : List Char} (hd : d ≠ []) (s : List Char) : ∃ fs, CutAt d s fs := by
  generalize hn : s.length = n
  induction n using Nat.strongRecOn generalizing s with
  | _ n ih =>
    by_cases h : d <:+: s
    · obtain ⟨f, t, rfl, hf⟩ := leftmost h
      have : 0 < d.length := List.length_pos_iff.2 hd
      obtain ⟨fs, hfs⟩ := ih t.length (by rw [← hn]; simp; omega) t rfl
      exact ⟨_, .cut hf hfs⟩
    · exact ⟨_, .last h⟩

theorem cutAt_splitStr {d s : List Char} {fs : List (List Char)} (hd : d ≠ []) (h : CutAt d s fs) :
    splitStr d s = fs := by
  induction h with
  | last h => exact splitStr_free h
  | cut hf _ ih => rw [splitStr_field hd hf, ih]

theorem words_exists (p : Char → Bool) (s : List Char) : ∃ fs, Words (fun c => p c = true) fs s := by
  generalize hn : s.length = n
  induction n using Nat.strongRecOn generalizing s with
  | _ n ih =>
    obtain ⟨w, hw, hwp⟩ := dropWhile_prefix p s
    obtain ⟨f, hf, hfp⟩ := dropWhile_prefix (fun c => !p c) (s.dropWhile p)
    cases hr : s.dropWhile p with
    | nil =>
      rw [hr, List.append_nil] at hw
      exact ⟨[], .nil (by rw [hw]; exact hwp)⟩
    | cons x xs =>
      have hx : p x = false := dropWhile_head_false (p := p) (s := s) x (by rw [hr]; rfl)
      have hfne : f ≠ [] := by
        intro h0
        rw [h0, hr, List.dropWhile_cons_of_pos (by simp [hx])] at hf
        have := congrArg List.length hf
        have hl := dropWhile_len (fun c => !p c) xs
        simp at this
        omega
      rw [hr] at hf hw
      have hlen : ((x :: xs).dropWhile fun c => !p c).length < n := by
        have h1 := congrArg List.length hf
        have h2 := congrArg List.length hw
        have : 0 < f.length := List.length_pos_iff.2 hfne
        rw [List.length_append] at h1 h2
        omega
      obtain ⟨fs, hfs⟩ := ih _ hlen _ rfl
      refine ⟨f :: fs, ?_⟩
      have : s = w ++ f ++ (x :: xs).dropWhile fun c => !p c := by
        rw [List.append_assoc, ← hf]; exact hw
      rw [this]
      refine .cons hwp hfne (fun c hc => by simpa using hfp c hc) ?_ hfs
      intro c hc
      have := dropWhile_head_false (p := fun c => !p c) (s := x :: xs) c hc
      simpa using this

theorem trimAll_iff {cuts fs : List (List Char)} :
    TrimAll cuts fs ↔ fs = (cuts.filter fun f => strip f ≠ []).map strip := by
  constructor
  · intro h
    induction h with
    | nil => rfl
    | blank hb _ ih => rw [List.filter_cons_of_neg (by simp [strip_nil_iff.2 hb]), ih]
    | field hb ht _ ih =>
      rw [List.filter_cons_of_pos (by simp [strip_nil_iff, hb]), List.map_cons, ← ih, trimmed_iff.1 ht, strip_eq]
  · rintro rfl
    induction cuts with
    | nil => exact .nil
    | cons c cs ih =>
      by_cases hb : strip c = []
      · rw [List.filter_cons_of_neg (by simp [hb])]
        exact .blank (strip_nil_iff.1 hb) ih
      · rw [List.filter_cons_of_pos (by simp [hb]), List.map_cons]
        exact .field (fun h => hb (strip_nil_iff.2 h)) (trimmed_iff.2 rfl) ih

theorem fieldsOf_iff {d : Option (List Char)} (hd : d ≠ some []) (line : List Char) :
    ∃ cuts, pySplit pySpace d line = .ok cuts ∧
      ∀ fs, FieldsOf d line fs ↔ fs = (cuts.filter fun f => strip f ≠ []).map strip := by
  cases d with
  | none =>
    obtain ⟨ws, hws⟩ := words_exists pySpace line
    refine ⟨ws, by rw [pySplit, splitWs_words hws], fun fs => ?_⟩
    constructor
    · rintro ⟨cuts, h1, h2⟩
      dsimp only at h2
      have : cuts = ws := by rw [← splitWs_words h2, splitWs_words hws]
      rw [← this]; exact trimAll_iff.1 h1
    · intro h; exact ⟨ws, trimAll_iff.2 h, hws⟩
  | some d =>
    have hd' : d ≠ [] := fun h => hd (by rw [h])
    obtain ⟨cs, hcs⟩ := cutAt_exists hd' line
    refine ⟨cs, ?_, fun fs => ?_⟩
    · obtain ⟨x, xs, rfl⟩ := List.exists_cons_of_ne_nil hd'
      rw [pySplit, cutAt_splitStr hd' hcs]
      simp
    · constructor
      · rintro ⟨cuts, h1, h2⟩
        dsimp only at h2
        have : cuts = cs := by rw [← cutAt_splitStr hd' h2, cutAt_splitStr hd' hcs]
        rw [← this]; exact trimAll_iff.1 h1
      · intro h; exact ⟨cs, trimAll_iff.2 h, hcs⟩

theorem findNames_spec {ff : List Char → Bool} {d : Option (List Char)} (hd : d ≠ some []) {n : Nat} (hn : 1 ≤ n)
    (above : List (List Char)) :
    ∃ names, findNames ff d n above = .ok names ∧ FoundNames ff d n above names := by
  induction above with
  | nil => exact ⟨[], rfl, .inl ⟨by simp, rfl⟩⟩
  | cons l ls ih =>
    obtain ⟨cuts, h1, h2⟩ := fieldsOf_iff hd l
    rw [findNames, h1]
    dsimp only
    generalize hf : (cuts.filter fun f => strip f ≠ []).map strip = fields at *
    have skip : (∀ fs, ¬ NameLine ff d n l fs) → ∃ names, findNames ff d n ls = .ok names ∧
        FoundNames ff d n (l :: ls) names := by
      intro hno
      obtain ⟨names, h3, h4⟩ := ih
      refine ⟨names, h3, ?_⟩
      rcases h4 with ⟨h4, h5⟩ | ⟨near, m, far, fs, h4, h5, h6, h7⟩
      · refine .inl ⟨?_, h5⟩
        intro m hm
        rcases List.mem_cons.1 hm with rfl | hm
        · exact hno
        · exact h4 m hm
      · refine .inr ⟨l :: near, m, far, fs, by rw [h4]; rfl, ?_, h6, h7⟩
        intro m' hm
        rcases List.mem_cons.1 hm with rfl | hm
        · exact hno
        · exact h5 m' hm
    by_cases hl : fields.length = n
    · rw [if_neg (by simp [hl])]
      cases fields with
      | nil => simp at hl; omega
      | cons f fs =>
        dsimp only
        by_cases hw : ff f = true
        · rw [if_pos hw]
          exact ⟨_, rfl, .inr ⟨[], l, ls, f :: fs, rfl, by simp, ⟨(h2 _).2 rfl, hl, f, rfl, hw⟩, rfl⟩⟩
        · rw [if_neg hw]
          apply skip
          rintro fs' ⟨h3, _, f', h4, h5⟩
          rw [(h2 fs').1 h3] at h4
          simp at h4
          subst h4
          exact hw h5
    · rw [if_pos hl]
      apply skip
      rintro fs' ⟨h3, h4, _⟩
      rw [(h2 fs').1 h3] at h4
      exact hl h4

/-! ### preparse, given the last line that is not blank -/

theorem kept_eq {body blanks : List (List Char)} {last : List Char} (hl : ¬ Blank last)
    (hb : ∀ l ∈ blanks, Blank l) :
    ((body ++ [last] ++ blanks).reverse.dropWhile fun l => strip l = []).reverse = body ++ [last] := by
  have h1 : ∀ (bs rest : List (List Char)), (∀ l ∈ bs, Blank l) →
      (bs ++ rest).dropWhile (fun l => decide (strip l = [])) = rest.dropWhile (fun l => decide (strip l = [])) := by
    intro bs rest h
    induction bs with
    | nil => rfl
    | cons b bs ih =>
      rw [List.cons_append, List.dropWhile_cons_of_pos (by simp [strip_nil_iff, h b (by simp)])]
      exact ih (fun l hl => h l (by simp [hl]))
  rw [List.reverse_append, h1 _ _ (by simpa using hb), List.reverse_append, List.reverse_singleton,
    List.singleton_append, List.dropWhile_cons_of_neg (by simp [strip_nil_iff, hl])]
  simp

theorem blank_decomp (lines : List (List Char)) :
    (∀ l ∈ lines, Blank l) ∨ ∃ body last blanks, lines = body ++ [last] ++ blanks ∧ ¬ Blank last ∧
      ∀ l ∈ blanks, Blank l := by
  induction lines with
  | nil => exact .inl (by simp)
  | cons l ls ih =>
    rcases ih with ih | ⟨body, last, blanks, h1, h2, h3⟩
    · by_cases hb : Blank l
      · left
        intro m hm
        rcases List.mem_cons.1 hm with rfl | hm
        · exact hb
        · exact ih m hm
      · exact .inr ⟨[], l, ls, rfl, hb, ih⟩
    · exact .inr ⟨l :: body, last, blanks, by rw [h1]; rfl, h2, h3⟩

/-- The decimal point inferred from a line. -/
def pointOf (dig : Char → Bool) (last : List Char) : Char :=
  if (lineRes dig '.' last).numcnt ≤ (lineRes dig ',' last).numcnt then '.' else ','

/-- The first line of data. -/
def startOf (dig : Char → Bool) (point : Char) (exp : Nat) (ls : List (List Char)) : Nat :=
  ls.length - (ls.reverse.takeWhile fun l => !stopsData exp (lineRes dig point l)).length

/-- `preparse` in terms of the last line that is not blank. -/
def preparseAt (dig : Char → Bool) (ff : List Char → Bool) (lines body : List (List Char)) (last : List Char) :
    Except Exc (Option Derived) :=
  let point := pointOf dig last
  let r := lineRes dig point last
  let exp := if r.numcnt = 1 then 0 else 1
  if r.septypcnt ≠ exp then .ok none
  else if exp = 0 ∧ ((numRx dig point).split (lines.getLast?.getD [])).any (fun m => strip m ≠ []) then .ok none
  else
    let delimiter := if exp = 1 then r.seps.getLast? else none
    let start := startOf dig point exp (body ++ [last])
    match findNames ff delimiter r.numcnt (lines.take start).reverse with
    | .error e => .error e
    | .ok names => .ok (some
        { skiprows := start, delimiter := delimiter,
          converters := if point = ',' ∧ r.numcnt ≠ 0 then some (List.range r.numcnt) else none,
          names := names, usecols := List.range r.numcnt })

theorem takeWhile_map_len {α β : Type} (f : α → β) (p : β → Bool) (l : List α) :
    ((l.map f).takeWhile p).length = (l.takeWhile fun x => p (f x)).length := by
  induction l with
  | nil => rfl
  | cons a as ih =>
    rw [List.map_cons]
    by_cases h : p (f a) = true
    · simp [h, ih]
    · simp [h]

theorem preparse_eq {dig : Char → Bool} (hd : DigitClass dig) (ff : List Char → Bool)
    {body blanks : List (List Char)} {last : List Char} (hl : ¬ Blank last) (hb : ∀ l ∈ blanks, Blank l) :
    preparse dig ff (body ++ [last] ++ blanks) = preparseAt dig ff (body ++ [last] ++ blanks) body last := by
  generalize hlines : body ++ [last] ++ blanks = lines
  have hk := kept_eq (body := body) hl hb
  rw [hlines] at hk
  unfold preparse
  rw [hk]
  dsimp only
  have hp1 : ∀ pt, pyLast ((body ++ [last]).map (lineRes dig pt)) = .ok (lineRes dig pt last) := by
    intro pt; simp [pyLast]
  rw [hp1, hp1]
  dsimp only
  unfold preparseAt
  dsimp only
  have hstart : ∀ pt exp, ((body ++ [last]).map (lineRes dig pt)).length -
      (((body ++ [last]).map (lineRes dig pt)).reverse.takeWhile fun r => !stopsData exp r).length =
      startOf dig pt exp (body ++ [last]) := by
    intro pt exp
    unfold startOf
    rw [← List.map_reverse, takeWhile_map_len, List.length_map]
  have hseps : ∀ pt, (pt = '.' ∨ pt = ',') → (lineRes dig pt last).septypcnt = 1 →
      ∃ s, s ≠ [] ∧ pyLast (lineRes dig pt last).seps = .ok s ∧ (lineRes dig pt last).seps.getLast? = some s := by
    intro pt hpt h1
    obtain ⟨sep, hsep⟩ := (oneSep_iff hd hpt).1 h1
    obtain ⟨h2, h3, h4, _⟩ := oneSep_seps hd hpt hsep
    have h5 := List.getLast?_eq_some_getLast h2
    refine ⟨_, ?_, ?_, h5⟩
    · rw [h3 _ (List.getLast_mem h2)]; exact h4
    · unfold pyLast; rw [h5]
  by_cases hflag : (lineRes dig '.' last).numcnt ≤ (lineRes dig ',' last).numcnt
  · have hpt : pointOf dig last = '.' := if_pos hflag
    simp only [hpt, hflag, decide_true, if_true, hstart]
    generalize hexp : (if (lineRes dig '.' last).numcnt = 1 then 0 else 1) = exp at *
    by_cases h1 : (lineRes dig '.' last).septypcnt = exp
    · have h1' : ¬ ((lineRes dig '.' last).septypcnt ≠ exp) := fun h => h h1
      rw [if_neg h1', if_neg h1']
      by_cases hs : exp = 0 ∧ (((numRx dig '.').split (lines.getLast?.getD [])).any
          fun m => decide (strip m ≠ [])) = true
      · rw [if_pos hs, if_pos hs]
      · rw [if_neg hs, if_neg hs]
        by_cases h2 : exp = 1
        · rw [h2] at h1
          obtain ⟨s, hs1, hs2, hs3⟩ := hseps '.' (.inl rfl) h1
          simp only [h2, if_true, hs2, hs3, if_pos hs1]
          simp
          generalize findNames ff _ _ _ = z
          cases z <;> rfl
        · simp only [if_neg h2]
          simp
          generalize findNames ff _ _ _ = z
          cases z <;> rfl
    · rw [if_pos h1, if_pos h1]
  · have hpt : pointOf dig last = ',' := if_neg hflag
    simp only [hpt, hflag, decide_false, if_false, hstart, Bool.false_eq_true]
    generalize hexp : (if (lineRes dig ',' last).numcnt = 1 then 0 else 1) = exp at *
    by_cases h1 : (lineRes dig ',' last).septypcnt = exp
    · have h1' : ¬ ((lineRes dig ',' last).septypcnt ≠ exp) := fun h => h h1
      rw [if_neg h1', if_neg h1']
      by_cases hs : exp = 0 ∧ (((numRx dig ',').split (lines.getLast?.getD [])).any
          fun m => decide (strip m ≠ [])) = true
      · rw [if_pos hs, if_pos hs]
      · rw [if_neg hs, if_neg hs]
        by_cases h2 : exp = 1
        · rw [h2] at h1
          obtain ⟨s, hs1, hs2, hs3⟩ := hseps ',' (.inr rfl) h1
          simp only [h2, if_true, hs2, hs3]
          simp
          generalize findNames ff _ _ _ = z
          cases z <;> rfl
        · simp only [if_neg h2]
          simp
          generalize findNames ff _ _ _ = z
          cases z <;> rfl
    · rw [if_pos h1, if_pos h1]

/-! ### the text around the numbers -/

theorem scan_parts {dig : Char → Bool} (hd : DigitClass dig) {point : Char} (hp : point = '.' ∨ point = ',')
    (k : Nat) (before s : List Char) :
    before ++ s = (((numRx dig point).scan k before s).1.map fun p => p.1 ++ p.2).flatten ++
      ((numRx dig point).scan k before s).2 := by
  induction k generalizing before s with
  | zero => simp [Rx.scan]
  | succ k ih =>
    unfold Rx.scan
    rw [first_num hd hp]
    cases hn : numRest dig point s with
    | none =>
      dsimp only [Option.map_none]
      cases s with
      | nil => simp
      | cons c cs =>
        dsimp only
        rw [← ih]; simp
    | some r =>
      obtain ⟨n, hs, _⟩ := numRest_sound hn
      dsimp only [Option.map_some]
      split
      · have htake : s.take (s.length - r.length) = n := by rw [hs]; simp
        dsimp only [List.map_cons]
        rw [htake, List.map_cons, List.flatten_cons, List.append_assoc, ← ih, hs]
        simp
      · simp

/-- A line with one number: the text before and after it. -/
theorem split_one {dig : Char → Bool} (hd : DigitClass dig) {point : Char} (hp : point = '.' ∨ point = ',')
    {line : List Char} {n : List Char} (h : (numRx dig point).findall line = [n]) :
    ∃ a b, (numRx dig point).split line = [a, b] ∧ line = a ++ n ++ b := by
  have hparts := scan_parts hd hp (line.length + 1) [] line
  unfold Rx.findall at h
  unfold Rx.split
  dsimp only
  generalize (numRx dig point).scan (line.length + 1) [] line = sc at *
  obtain ⟨l, t⟩ := sc
  match l, h with
  | [(a, m)], h =>
    simp at h
    subst h
    exact ⟨a, t, rfl, by simpa using hparts⟩

/-! ### where the data begins -/

theorem startOf_spec {dig : Char → Bool} {point : Char} {exp : Nat} {ls : List (List Char)} :
    ∃ a b, ls = a ++ b ∧ startOf dig point exp ls = a.length ∧
      (∀ l ∈ b, stopsData exp (lineRes dig point l) = false) ∧
      (∀ l, a.getLast? = some l → stopsData exp (lineRes dig point l) = true) := by
  unfold startOf
  generalize hp : (fun l => !stopsData exp (lineRes dig point l)) = p
  refine ⟨(ls.reverse.dropWhile p).reverse, (ls.reverse.takeWhile p).reverse, ?_, ?_, ?_, ?_⟩
  · rw [← List.reverse_append, List.takeWhile_append_dropWhile, List.reverse_reverse]
  · have := congrArg List.length (List.takeWhile_append_dropWhile (p := p) (l := ls.reverse))
    rw [List.length_append, List.length_reverse] at this
    rw [List.length_reverse]
    omega
  · intro l hl
    rw [List.mem_reverse] at hl
    have := List.all_takeWhile (p := p) (l := ls.reverse)
    rw [List.all_eq_true] at this
    have := this l hl
    rw [← hp] at this
    simpa using this
  · intro l hl
    rw [List.getLast?_reverse] at hl
    have := List.head?_dropWhile_not p ls.reverse
    rw [hl] at this
    rw [← hp] at this
    simpa using this

theorem dataLine_iff {dig : Char → Bool} (hd : DigitClass dig) {point : Char} (hp : point = '.' ∨ point = ',')
    {n : Nat} {line : List Char} :
    stopsData (if n = 1 then 0 else 1) (lineRes dig point line) = false ↔ DataLine dig point n line := by
  unfold stopsData DataLine
  by_cases h : n = 1
  · rw [if_pos h, if_pos h, ← noSep_iff hd hp]
    constructor
    · intro h'
      simp at h'
      exact ⟨h'.1, h'.2 h'.1⟩
    · rintro ⟨h1, h2⟩; simp [h1, h2]
  · rw [if_neg h, if_neg h, ← oneSep_iff hd hp]
    constructor
    · intro h'; simp at h'; exact h'.1
    · intro h1; simp [h1]

end CP
