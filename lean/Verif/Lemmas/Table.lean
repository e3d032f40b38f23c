import Verif.Lemmas.Preparse
/-!
# The numbers on the lines of a table
-/

namespace CP

open Spec

theorem isNumber_not_plain {dig : Char → Bool} {point : Char} {n : List Char} (h : IsNumber dig point n) :
    ∀ c ∈ n, ¬ Plain dig point c := by
  obtain ⟨sg, m, ex, hsg, hm, hex, rfl⟩ := h
  have hdig : ∀ s : List Char, (∀ c ∈ s, dig c = true) → ∀ c ∈ s, ¬ Plain dig point c := by
    rintro s hs c hc ⟨h, _⟩
    rw [hs c hc] at h; simp at h
  have hsign : ∀ s, Sign s → ∀ c ∈ s, ¬ Plain dig point c := by
    rintro s hs c hc ⟨_, h, _⟩
    apply h
    rcases hs with rfl | rfl | rfl <;> simp at hc <;> simp [hc]
  intro c hc
  simp only [List.mem_append] at hc
  rcases hc with (hc | hc) | hc
  · exact hsign sg hsg c hc
  · rcases hm with ⟨_, hmd⟩ | ⟨a, b, ⟨_, ha⟩, hb, rfl⟩ | ⟨b, ⟨_, hb⟩, rfl⟩
    · exact hdig m hmd c hc
    · simp only [List.mem_append, List.mem_cons] at hc
      rcases hc with hc | rfl | hc
      · exact hdig a ha c hc
      · rintro ⟨_, _, h⟩; exact h rfl
      · exact hdig b hb c hc
    · simp only [List.mem_cons] at hc
      rcases hc with rfl | hc
      · rintro ⟨_, _, h⟩; exact h rfl
      · exact hdig b hb c hc
  · rcases hex with rfl | ⟨e, sg', ds, he, hsg', ⟨_, hds⟩, rfl⟩
    · simp at hc
    · simp only [List.mem_append, List.mem_cons] at hc
      rcases hc with rfl | hc | hc
      · rintro ⟨_, h, _⟩; apply h; rcases he with rfl | rfl <;> simp
      · exact hsign sg' hsg' c hc
      · exact hdig ds hds c hc

/-- A number at the start of a text is before the first plain character. -/
theorem number_prefix {dig : Char → Bool} {point x : Char} (hx : Plain dig point x) {a b n rest : List Char}
    (hn : IsNumber dig point n) (h : a ++ x :: b = n ++ rest) : ∃ r, a = n ++ r := by
  have hno : x ∉ n := fun hm => isNumber_not_plain hn x hm hx
  rcases List.append_eq_append_iff.1 h with ⟨c, h1, h2⟩ | ⟨c, h1, h2⟩
  · cases c with
    | nil => exact ⟨[], by simpa using h1.symm⟩
    | cons y ys =>
      simp only [List.cons_append, List.cons.injEq] at h2
      exfalso; apply hno
      rw [h1, h2.1]; simp
  · exact ⟨c, h1⟩

theorem tokens_join {dig : Char → Bool} {point x : Char} (hx : Plain dig point x) {a b : List Char}
    {ta tb : List (List Char)} (ha : Tokens dig point a ta) (hb : Tokens dig point b tb) :
    Tokens dig point (a ++ x :: b) (ta ++ tb) := by
  induction ha with
  | nil =>
    refine .other ?_ hb
    intro n rest hs hn
    obtain ⟨r, hr⟩ := number_prefix hx (a := []) hn hs
    have := isNumber_ne_nil hn
    simp at hr
    exact this hr.1
  | @other c s ts hno _ ih =>
    refine .other ?_ ih
    intro n rest hs hn
    obtain ⟨r, hr⟩ := number_prefix hx (a := c :: s) hn hs
    exact hno n r hr hn
  | @num n s ts hn hlong _ ih =>
    rw [List.append_assoc, List.cons_append]
    refine .num hn ?_ ih
    intro n' rest hs hn'
    rw [← List.append_assoc] at hs
    obtain ⟨r, hr⟩ := number_prefix hx hn' hs
    exact hlong n' r hr hn'

theorem tokens_plain {dig : Char → Bool} {point : Char} {w s : List Char} {ts : List (List Char)}
    (hw : ∀ c ∈ w, Plain dig point c) (h : Tokens dig point s ts) : Tokens dig point (w ++ s) ts := by
  induction w with
  | nil => exact h
  | cons c cs ih =>
    have := tokens_join (hw c (by simp)) (a := []) .nil (ih (fun c hc => hw c (by simp [hc])))
    simpa using this

theorem tokens_single {dig : Char → Bool} {point : Char} {n : List Char} (h : IsNumber dig point n) :
    Tokens dig point n [n] := by
  have := Tokens.num (s := []) h (by
    intro n' rest hs _
    have := congrArg List.length hs
    simp at this
    omega) .nil
  simpa using this

theorem tokens_none {dig : Char → Bool} {point : Char} {w : List Char} (hw : ∀ c ∈ w, Plain dig point c) :
    Tokens dig point w [] := by
  have := tokens_plain hw (.nil : Tokens dig point [] [])
  simpa using this

/-- A number, then plain text. -/
theorem tokens_num_plain {dig : Char → Bool} {point : Char} {n w s : List Char} {ts : List (List Char)}
    (hn : IsNumber dig point n) (hw : ∀ c ∈ w, Plain dig point c) (hne : w ≠ []) (h : Tokens dig point s ts) :
    Tokens dig point (n ++ w ++ s) (n :: ts) := by
  obtain ⟨x, xs, rfl⟩ := List.exists_cons_of_ne_nil hne
  have h1 := tokens_plain (fun c hc => hw c (by simp [hc])) h (w := xs)
  have := tokens_join (hw x (by simp)) (tokens_single hn) h1
  simpa using this

theorem tokens_weave {dig : Char → Bool} {point : Char} {nums gs : List (List Char)} {b : List Char}
    (hl : gs.length + 1 = nums.length) (hn : ∀ n ∈ nums, IsNumber dig point n)
    (hg : ∀ g ∈ gs, g ≠ [] ∧ ∀ c ∈ g, Plain dig point c) (hb : ∀ c ∈ b, Plain dig point c) :
    Tokens dig point (weave nums gs ++ b) nums := by
  induction nums generalizing gs with
  | nil => simp at hl
  | cons n ns ih =>
    cases gs with
    | nil =>
      cases ns with
      | cons m ms => simp at hl
      | nil =>
        simp only [weave, List.flatten_nil, List.append_nil]
        by_cases hbe : b = []
        · subst hbe; rw [List.append_nil]; exact tokens_single (hn n (by simp))
        · have := tokens_num_plain (hn n (by simp)) hb hbe .nil
          simpa using this
    | cons g gs =>
      have h1 := ih (gs := gs) (by simpa using hl) (fun n hn' => hn n (by simp [hn']))
        (fun g hg' => hg g (by simp [hg']))
      have := tokens_num_plain (hn n (by simp)) (hg g (by simp)).2 (hg g (by simp)).1 h1
      simp only [weave]
      simpa using this

theorem tableLine_tokens {dig : Char → Bool} {point : Char} {sep : List Char} {nums : List (List Char)}
    {line : List Char} (h : TableLine dig point sep nums line) : Tokens dig point line nums := by
  obtain ⟨a, gs, b, rfl, hl, hn, ha, hb, hg⟩ := h
  rw [List.append_assoc]
  exact tokens_plain ha (tokens_weave hl hn (fun g h => ⟨(hg g h).1, (hg g h).2.1⟩) hb)

theorem tableLine_oneSep {dig : Char → Bool} {point : Char} {sep : List Char} {nums : List (List Char)}
    {line : List Char} (h : TableLine dig point sep nums line) (h2 : 2 ≤ nums.length) :
    OneSep dig point line sep := by
  have ht := tableLine_tokens h
  obtain ⟨a, gs, b, hs, hl, hn, ha, hb, hg⟩ := h
  refine ⟨nums, gs, ht, ?_, ⟨hl, fun g h => ⟨(hg g h).1, fun c hc => ((hg g h).2.1 c hc).1⟩, a, b, hs⟩,
    fun g h => (hg g h).2.2⟩
  intro h0; rw [h0] at hl; simp at hl; omega

theorem oneSep_unique {dig : Char → Bool} {point : Char} {line sep sep' : List Char}
    (h : OneSep dig point line sep) (h' : OneSep dig point line sep') : sep = sep' := by
  obtain ⟨nums, gs, ht, hne, hs, hall⟩ := h
  obtain ⟨nums', gs', ht', _, hs', hall'⟩ := h'
  have := tokens_unique ht ht'
  subst this
  have := separated_unique ht hs hs'
  subst this
  obtain ⟨g, gs, rfl⟩ := List.exists_cons_of_ne_nil hne
  rw [sepMeans_iff.1 (hall g (by simp)), sepMeans_iff.1 (hall' g (by simp))]

theorem few_not_oneSep {dig : Char → Bool} {point : Char} {line : List Char} {ts : List (List Char)}
    (ht : Tokens dig point line ts) (h : ts.length < 2) (sep : List Char) : ¬ OneSep dig point line sep := by
  rintro ⟨nums, gs, ht', hne, hs, _⟩
  have := tokens_unique ht ht'
  subst this
  have := hs.1
  have : 0 < gs.length := List.length_pos_iff.2 hne
  omega

/-! ### counting -/

theorem tokens_split {dig : Char → Bool} (hd : DigitClass dig) {point x : Char} (hp : point = '.' ∨ point = ',')
    (hx : Plain dig point x) {a b : List Char} {ts : List (List Char)} (h : Tokens dig point (a ++ x :: b) ts) :
    ∃ ta tb, Tokens dig point a ta ∧ Tokens dig point b tb ∧ ts = ta ++ tb :=
  ⟨_, _, findall_tokens hd hp a, findall_tokens hd hp b,
    tokens_unique h (tokens_join hx (findall_tokens hd hp a) (findall_tokens hd hp b))⟩

theorem tokens_drop {dig : Char → Bool} (hd : DigitClass dig) {point : Char} (hp : point = '.' ∨ point = ',')
    {w s : List Char} (hw : ∀ c ∈ w, Plain dig point c) {ts : List (List Char)}
    (h : Tokens dig point (w ++ s) ts) : Tokens dig point s ts := by
  have := tokens_unique h (tokens_plain hw (findall_tokens hd hp s))
  rw [this]; exact findall_tokens hd hp s

/-- A text with a digit has a number. -/
theorem tokens_pos {dig : Char → Bool} {point : Char} {s : List Char} {ts : List (List Char)}
    (h : Tokens dig point s ts) (hc : ∃ c ∈ s, dig c = true) : 1 ≤ ts.length := by
  obtain ⟨c, hc, hcd⟩ := hc
  have h1 := tokens_digits h
  have h2 : c ∈ s.filter dig := List.mem_filter.2 ⟨hc, hcd⟩
  rw [h1] at h2
  cases ts with
  | nil => simp at h2
  | cons t ts => simp

/-- There are at least as many numbers as in the parts between plain separators. -/
theorem tokens_count {dig : Char → Bool} (hd : DigitClass dig) {point : Char} (hp : point = '.' ∨ point = ',')
    (f : List Char → Nat) {nums gs : List (List Char)} {b : List Char} (hl : gs.length + 1 = nums.length)
    (hf : ∀ n ∈ nums, ∀ ts, Tokens dig point n ts → f n ≤ ts.length)
    (hg : ∀ g ∈ gs, g ≠ [] ∧ ∀ c ∈ g, Plain dig point c) (hb : ∀ c ∈ b, Plain dig point c)
    {ts : List (List Char)} (h : Tokens dig point (weave nums gs ++ b) ts) : (nums.map f).sum ≤ ts.length := by
  induction nums generalizing gs ts with
  | nil => simp
  | cons n ns ih =>
    cases gs with
    | nil =>
      cases ns with
      | cons m ms => simp at hl
      | nil =>
        simp only [weave, List.flatten_nil, List.append_nil] at h
        simp only [List.map_cons, List.map_nil, List.sum_cons, List.sum_nil, Nat.add_zero]
        cases b with
        | nil => rw [List.append_nil] at h; exact hf n (by simp) ts h
        | cons x xs =>
          obtain ⟨ta, tb, h1, _, rfl⟩ := tokens_split hd hp (hb x (by simp)) h
          have := hf n (by simp) ta h1
          rw [List.length_append]; omega
    | cons g gs =>
      obtain ⟨x, xs, rfl⟩ := List.exists_cons_of_ne_nil (hg g (by simp)).1
      have e : weave (n :: ns) ((x :: xs) :: gs) ++ b = n ++ x :: (xs ++ (weave ns gs ++ b)) := by simp [weave]
      rw [e] at h
      obtain ⟨ta, tb, h1, h2, rfl⟩ := tokens_split hd hp ((hg (x :: xs) (by simp)).2 x (by simp)) h
      have h3 := tokens_drop hd hp (fun c hc => (hg (x :: xs) (by simp)).2 c (by simp [hc])) h2
      have h4 := ih (by simpa using hl) (fun n hn => hf n (by simp [hn])) (fun g hg' => hg g (by simp [hg'])) h3
      have := hf n (by simp) ta h1
      rw [List.length_append, List.map_cons, List.sum_cons]; omega

theorem sum_map_one {α : Type} (l : List α) : (l.map fun _ => 1).sum = l.length := by
  induction l with
  | nil => rfl
  | cons a as ih => rw [List.map_cons, List.sum_cons, ih, List.length_cons]; omega

theorem sum_map_le {α : Type} {f g : α → Nat} {l : List α} (h : ∀ x ∈ l, f x ≤ g x) :
    (l.map f).sum ≤ (l.map g).sum := by
  induction l with
  | nil => simp
  | cons a as ih =>
    have h1 := h a (by simp)
    have h2 := ih (fun x hx => h x (by simp [hx]))
    simp only [List.map_cons, List.sum_cons]; omega

theorem sum_map_lt {α : Type} {f g : α → Nat} {l : List α} (h : ∀ x ∈ l, f x ≤ g x) (h' : ∃ x ∈ l, f x < g x) :
    (l.map f).sum < (l.map g).sum := by
  induction l with
  | nil => simp at h'
  | cons a as ih =>
    have h1 := h a (by simp)
    simp only [List.map_cons, List.sum_cons]
    obtain ⟨x, hx, hlt⟩ := h'
    rcases List.mem_cons.1 hx with rfl | hx
    · have := sum_map_le (fun x hx => h x (by simp [hx])) (l := as) (f := f) (g := g)
      omega
    · have := ih (fun x hx => h x (by simp [hx])) ⟨x, hx, hlt⟩
      omega

/-- Read with the other point, a number with digits on both sides of its point is at least
two. -/
theorem fractional_two {dig : Char → Bool} (hd : DigitClass dig) {point other : Char}
    (hp : other = '.' ∨ other = ',') (hx : Plain dig other point) {n : List Char} (hn : Fractional dig point n)
    {ts : List (List Char)} (h : Tokens dig other n ts) : 2 ≤ ts.length := by
  obtain ⟨sg, a, b, ex, _, ⟨hne, ha⟩, ⟨hne', hb⟩, _, rfl⟩ := hn
  have e : sg ++ a ++ point :: b ++ ex = (sg ++ a) ++ point :: (b ++ ex) := by simp
  rw [e] at h
  obtain ⟨ta, tb, h1, h2, rfl⟩ := tokens_split hd hp hx h
  obtain ⟨c, cs, rfl⟩ := List.exists_cons_of_ne_nil hne
  obtain ⟨c', cs', rfl⟩ := List.exists_cons_of_ne_nil hne'
  have h3 := tokens_pos h1 ⟨c, by simp, ha c (by simp)⟩
  have h4 := tokens_pos h2 ⟨c', by simp, hb c' (by simp)⟩
  rw [List.length_append]; omega

/-- Read with the other point, whatever the separators, numbers with digits on both sides of
the point are one more at least. -/
theorem fractional_more {dig : Char → Bool} (hd : DigitClass dig) {point other : Char}
    (hp : other = '.' ∨ other = ',') (hx : Plain dig other point) {nums gs : List (List Char)} {p b : List Char}
    (hl : gs.length + 1 = nums.length) (hn : ∀ n ∈ nums, Fractional dig point n) {ts : List (List Char)}
    (h : Tokens dig other (p ++ weave nums gs ++ b) ts) : nums.length + 1 ≤ ts.length := by
  induction nums generalizing gs p ts with
  | nil => simp at hl
  | cons n ns ih =>
    obtain ⟨sg, x, y, ex, _, ⟨hne, ha⟩, ⟨hne', hb⟩, _, hnn⟩ := hn n (by simp)
    obtain ⟨c, cs, rfl⟩ := List.exists_cons_of_ne_nil hne
    obtain ⟨c', cs', rfl⟩ := List.exists_cons_of_ne_nil hne'
    cases gs with
    | nil =>
      cases ns with
      | cons m ms => simp at hl
      | nil =>
        have e : p ++ weave [n] [] ++ b = (p ++ sg ++ c :: cs) ++ point :: (c' :: cs' ++ ex ++ b) := by
          simp [weave, hnn]
        rw [e] at h
        obtain ⟨ta, tb, h1, h2, rfl⟩ := tokens_split hd hp hx h
        have h3 := tokens_pos h1 ⟨c, by simp, ha c (by simp)⟩
        have h4 := tokens_pos h2 ⟨c', by simp, hb c' (by simp)⟩
        rw [List.length_append]; simp only [List.length_cons, List.length_nil]; omega
    | cons g gs =>
      have e : p ++ weave (n :: ns) (g :: gs) ++ b =
          (p ++ sg ++ c :: cs) ++ point :: ((c' :: cs' ++ ex ++ g) ++ weave ns gs ++ b) := by
        simp [weave, hnn]
      rw [e] at h
      obtain ⟨ta, tb, h1, h2, rfl⟩ := tokens_split hd hp hx h
      have h3 := tokens_pos h1 ⟨c, by simp, ha c (by simp)⟩
      have h4 := ih (by simpa using hl) (fun n hn' => hn n (by simp [hn'])) h2
      rw [List.length_append, List.length_cons]; omega

theorem fractional_isNumber {dig : Char → Bool} {point : Char} {n : List Char} (h : Fractional dig point n) :
    IsNumber dig point n := by
  obtain ⟨sg, a, b, ex, hsg, ha, hb, hex, rfl⟩ := h
  exact ⟨sg, a ++ point :: b, ex, hsg, .inr (.inl ⟨a, b, ha, hb.2, rfl⟩), hex, by simp⟩

end CP
