import Verif.Lemmas.Table
/-!
# Properties of preparse
-/

namespace CP

open Spec

theorem pointOf_cases (dig : Char → Bool) (last : List Char) : pointOf dig last = '.' ∨ pointOf dig last = ',' := by
  unfold pointOf; split <;> simp

theorem preparse_blank {dig ff : _} {lines : List (List Char)} (h : ∀ l ∈ lines, Blank l) :
    preparse dig ff lines = .error .indexError := by
  have : (lines.reverse.dropWhile fun l => decide (strip l = [])) = [] := by
    have h' : ∀ l ∈ lines.reverse, Blank l := by simpa using h
    generalize lines.reverse = ls at h'
    induction ls with
    | nil => rfl
    | cons l ls ih =>
      rw [List.dropWhile_cons_of_pos (by simp [strip_nil_iff, h' l (by simp)])]
      exact ih (fun m hm => h' m (by simp [hm]))
  unfold preparse
  rw [this]
  rfl

/-- What `preparse` gives, in terms of the last line that is not blank: whether there is a
result, and the parts of it. -/
theorem preparseAt_spec {dig : Char → Bool} (hd : DigitClass dig) (ff : List Char → Bool)
    {body : List (List Char)} {last : List Char} (lines : List (List Char)) :
    preparseAt dig ff lines body last = .ok none ∨
    ∃ r, preparseAt dig ff lines body last = .ok (some r) ∧
      ∃ n, (lineRes dig (pointOf dig last) last).numcnt = n ∧ 1 ≤ n ∧
      DataLine dig (pointOf dig last) n last ∧
      (n = 1 → ∀ m ∈ (numRx dig (pointOf dig last)).split (lines.getLast?.getD []), Blank m) ∧
      r.skiprows = startOf dig (pointOf dig last) (if n = 1 then 0 else 1) (body ++ [last]) ∧
      (if n = 1 then r.delimiter = none else ∃ sep, r.delimiter = some sep ∧ OneSep dig (pointOf dig last) last sep) ∧
      r.converters = (if pointOf dig last = ',' then some (List.range n) else none) ∧
      r.usecols = List.range n ∧
      FoundNames ff r.delimiter n (lines.take r.skiprows).reverse r.names := by
  have hp := pointOf_cases dig last
  unfold preparseAt
  dsimp only
  generalize hpt : pointOf dig last = pt at *
  by_cases hs : (lineRes dig pt last).septypcnt = if (lineRes dig pt last).numcnt = 1 then 0 else 1
  · rw [if_neg (fun h => h hs)]
    by_cases hsp : ((if (lineRes dig pt last).numcnt = 1 then 0 else 1) = 0 ∧
        (((numRx dig pt).split (lines.getLast?.getD [])).any fun m => decide (strip m ≠ [])) = true)
    · rw [if_pos hsp]; exact .inl rfl
    · rw [if_neg hsp]
      right
      have hn1 : 1 ≤ (lineRes dig pt last).numcnt := by
        apply Classical.byContradiction
        intro h
        have h0 : (lineRes dig pt last).numcnt = 0 := by omega
        have h1 : (lineRes dig pt last).nums = [] := List.length_eq_zero_iff.1 h0
        have h2 := lineRes_empty h1
        unfold LineRes.septypcnt at hs
        rw [h0, h2] at hs
        simp at hs
      have hdata : DataLine dig pt (lineRes dig pt last).numcnt last := by
        rw [← dataLine_iff hd hp]
        unfold stopsData
        rw [hs]
        simp
        intro _
        omega
      by_cases hn : (lineRes dig pt last).numcnt = 1
      · simp only [hn, if_true, Nat.zero_ne_one, if_false] at hsp hdata ⊢
        obtain ⟨names, hf1, hf2⟩ := findNames_spec (ff := ff) (d := none) (by simp) (Nat.le_refl 1)
          (lines.take (startOf dig pt 0 (body ++ [last]))).reverse
        rw [hf1]
        refine ⟨_, rfl, 1, rfl, Nat.le_refl 1, hdata, ?_, rfl, rfl, ?_, rfl, hf2⟩
        · intro _ m hm
          rw [← strip_nil_iff]
          apply Classical.byContradiction
          intro hne
          apply hsp
          refine ⟨trivial, ?_⟩
          rw [List.any_eq_true]
          exact ⟨m, hm, by simpa using hne⟩
        · simp
      · simp only [if_neg hn, if_true] at hs hsp hdata ⊢
        have hone := hs
        rw [oneSep_iff hd hp] at hone
        obtain ⟨sep, hsep⟩ := hone
        obtain ⟨h2, h3, h4, _⟩ := oneSep_seps hd hp hsep
        have h5 := List.getLast?_eq_some_getLast h2
        rw [h3 _ (List.getLast_mem h2)] at h5
        rw [h5]
        obtain ⟨names, hf1, hf2⟩ := findNames_spec (ff := ff) (d := some sep) (by simpa using h4) hn1
          (lines.take (startOf dig pt 1 (body ++ [last]))).reverse
        rw [hf1]
        refine ⟨_, rfl, _, rfl, hn1, hdata, fun h => absurd h hn, ?_, ?_, ?_, rfl, hf2⟩
        · rw [if_neg hn]
        · rw [if_neg hn]; exact ⟨sep, rfl, hsep⟩
        · have : (lineRes dig pt last).numcnt ≠ 0 := by omega
          simp [this]
  · rw [if_pos hs]; exact .inl rfl

/-- C43: what a result of `preparse` says.  The lines are those above the data, the data and
blank lines.  With the point inferred (that which gives the fewer numbers on the last line of
data, a dot if equal) the last line has `n` numbers, at least one; every line of the data has
one kind of separator (with one column a number and no separator), the line above has not. -/
theorem C43_preparse_coherent {dig : Char → Bool} (hd : DigitClass dig) {ff : List Char → Bool}
    {lines : List (List Char)} {r : Derived} (h : preparse dig ff lines = .ok (some r)) :
    ∃ above rows last blanks ds cs nums pt n,
      lines = above ++ (rows ++ [last]) ++ blanks ∧ ¬ Blank last ∧ (∀ l ∈ blanks, Blank l) ∧
      Tokens dig '.' last ds ∧ Tokens dig ',' last cs ∧
      pt = (if ds.length ≤ cs.length then '.' else ',') ∧
      Tokens dig pt last nums ∧ nums.length = n ∧ 1 ≤ n ∧
      r.usecols = List.range n ∧
      (if n = 1 then r.delimiter = none else ∃ sep, r.delimiter = some sep ∧ OneSep dig pt last sep) ∧
      r.converters = (if pt = ',' then some (List.range n) else none) ∧
      r.skiprows = above.length ∧
      (∀ l ∈ rows ++ [last], DataLine dig pt n l) ∧
      (∀ l, above.getLast? = some l → ¬ DataLine dig pt n l) ∧
      FoundNames ff r.delimiter n above.reverse r.names ∧
      (n = 1 → blanks = [] → ∃ a x b, last = a ++ x ++ b ∧ Blank a ∧ IsNumber dig pt x ∧ Blank b) := by
  rcases blank_decomp lines with hb | ⟨body, last, blanks, rfl, hl, hb⟩
  · rw [preparse_blank hb] at h; simp at h
  · rw [preparse_eq hd ff hl hb] at h
    rcases preparseAt_spec hd ff (body := body) (last := last) (body ++ [last] ++ blanks) with h0 |
      ⟨r', h0, n, hn, hn1, hdata, hsplit, hskip, hdel, hconv, huse, hnames⟩
    · rw [h0] at h; simp at h
    · rw [h0] at h
      simp only [Except.ok.injEq, Option.some.injEq] at h
      subst h
      have hp := pointOf_cases dig last
      obtain ⟨above, data, h1, h2, h3, h4⟩ := startOf_spec (dig := dig) (point := pointOf dig last)
        (exp := if n = 1 then 0 else 1) (ls := body ++ [last])
      have hne : data ≠ [] := by
        intro h0
        rw [h0, List.append_nil] at h1
        have h5 := h4 last (by rw [← h1]; simp)
        rw [(dataLine_iff hd hp).2 hdata] at h5
        simp at h5
      obtain ⟨rows, l, hrl⟩ : ∃ rows l, data = rows ++ [l] := by
        exact ⟨_, _, (List.dropLast_concat_getLast hne).symm⟩
      subst hrl
      have hlast : l = last ∧ body = above ++ rows := by
        rw [← List.append_assoc] at h1
        have := List.append_inj' h1 rfl
        simp at this
        exact ⟨this.2.symm, this.1⟩
      obtain ⟨rfl, hbody⟩ := hlast
      have hsk : r'.skiprows = above.length := by rw [hskip, h2]
      refine ⟨above, rows, l, blanks, _, _, _, pointOf dig l, n, by rw [h1], hl, hb,
        lineRes_nums hd (.inl rfl) l, lineRes_nums hd (.inr rfl) l, rfl, lineRes_nums hd hp l, hn, hn1, huse, hdel,
        hconv, hsk, ?_, ?_, ?_, ?_⟩
      · intro m hm; exact (dataLine_iff hd hp).1 (h3 m hm)
      · intro m hm hdm
        have := h4 m hm
        rw [(dataLine_iff hd hp).2 hdm] at this
        simp at this
      · rw [hsk, h1, List.append_assoc, List.take_left' rfl] at hnames
        exact hnames
      · intro hn' hbl
        subst hbl
        have hs := hsplit hn'
        rw [List.append_nil, List.getLast?_append] at hs
        simp only [List.getLast?_singleton, Option.some_or, Option.getD_some] at hs
        have hfa : ∃ x, (numRx dig (pointOf dig l)).findall l = [x] := by
          have : (lineRes dig (pointOf dig l) l).nums.length = 1 := by rw [← hn']; exact hn
          exact List.length_eq_one_iff.1 this
        obtain ⟨x, hx⟩ := hfa
        obtain ⟨a, b, hab, hline⟩ := split_one hd hp hx
        rw [hab] at hs
        refine ⟨a, x, b, hline, hs a (by simp), ?_, hs b (by simp)⟩
        apply tokens_numbers (lineRes_nums hd hp l)
        show x ∈ (numRx dig (pointOf dig l)).findall l
        rw [hx]; simp

/-- C44: `preparse` raises IndexError if there is nothing but blank lines, and does not raise
otherwise. -/
theorem C44_preparse_raises_partial {dig : Char → Bool} (hd : DigitClass dig) {ff : List Char → Bool}
    {lines : List (List Char)} {e : Exc} :
    preparse dig ff lines = .error e ↔ (∀ l ∈ lines, Blank l) ∧ e = .indexError := by
  constructor
  · intro h
    rcases blank_decomp lines with hb | ⟨body, last, blanks, rfl, hl, hb⟩
    · rw [preparse_blank hb] at h
      exact ⟨hb, by simpa using h.symm⟩
    · exfalso
      rw [preparse_eq hd ff hl hb] at h
      rcases preparseAt_spec hd ff (body := body) (last := last) (body ++ [last] ++ blanks) with h0 | ⟨r', h0, _⟩
      · rw [h0] at h; simp at h
      · rw [h0] at h; simp at h
  · rintro ⟨hb, rfl⟩; exact preparse_blank hb

/-- An empty file makes `preparse` raise. -/
theorem C44_counterexample : ∃ dig ff lines e, DigitClass dig ∧ preparse dig ff lines = .error e :=
  ⟨fun _ => false, fun _ => true, [[]], .indexError, ⟨fun _ _ => rfl, fun _ _ => rfl⟩, rfl⟩

/-! ### C45 -/

theorem startOf_eq {dig : Char → Bool} {point : Char} {exp : Nat} {a b : List (List Char)}
    (hb : ∀ l ∈ b, stopsData exp (lineRes dig point l) = false)
    (ha : ∀ l, a.getLast? = some l → stopsData exp (lineRes dig point l) = true) :
    startOf dig point exp (a ++ b) = a.length := by
  unfold startOf
  generalize hp : (fun l => !stopsData exp (lineRes dig point l)) = p
  have h1 : ∀ x y : List (List Char), (∀ l ∈ x, p l = true) → (∀ l, y.head? = some l → p l = false) →
      ((x ++ y).takeWhile p).length = x.length := by
    intro x y hx hy
    induction x with
    | nil =>
      cases y with
      | nil => rfl
      | cons z zs => simp [hy z rfl]
    | cons z zs ih =>
      rw [List.cons_append, List.takeWhile_cons_of_pos (hx z (by simp))]
      simp [ih (fun l hl => hx l (by simp [hl]))]
  rw [List.reverse_append, h1]
  · simp
  · intro l hl
    rw [List.mem_reverse] at hl
    rw [← hp]; simp [hb l hl]
  · intro l hl
    rw [List.head?_reverse] at hl
    rw [← hp]; simp [ha l hl]

theorem preparseAt_ne_none {dig : Char → Bool} (hd : DigitClass dig) (ff : List Char → Bool)
    {body lines : List (List Char)} {last : List Char}
    (hdata : DataLine dig (pointOf dig last) (lineRes dig (pointOf dig last) last).numcnt last)
    (hsplit : (lineRes dig (pointOf dig last) last).numcnt = 1 →
      ∀ m ∈ (numRx dig (pointOf dig last)).split (lines.getLast?.getD []), Blank m) :
    preparseAt dig ff lines body last ≠ .ok none := by
  have hp := pointOf_cases dig last
  unfold preparseAt
  dsimp only
  generalize hpt : pointOf dig last = pt at *
  have hs : (lineRes dig pt last).septypcnt = if (lineRes dig pt last).numcnt = 1 then 0 else 1 := by
    unfold DataLine at hdata
    split at hdata
    · rename_i h; rw [if_pos h]; exact ((noSep_iff hd hp).2 hdata).1
    · rename_i h; rw [if_neg h]; exact (oneSep_iff hd hp).2 hdata
  rw [if_neg (fun h => h hs)]
  rw [if_neg]
  · generalize findNames ff _ _ _ = z
    cases z <;> simp
  · rintro ⟨h1, h2⟩
    have hn : (lineRes dig pt last).numcnt = 1 := by
      apply Classical.byContradiction; intro h; rw [if_neg h] at h1; simp at h1
    rw [List.any_eq_true] at h2
    obtain ⟨m, hm, hne⟩ := h2
    have := strip_nil_iff.2 (hsplit hn m hm)
    simp [this] at hne

theorem fewerWith_point {dig : Char → Bool} (hd : DigitClass dig) {point : Char} {last : List Char}
    (h : FewerWith dig point last) : pointOf dig last = point := by
  have := h _ _ (lineRes_nums hd (.inl rfl) last) (lineRes_nums hd (.inr rfl) last)
  unfold pointOf LineRes.numcnt
  by_cases hp : point = '.'
  · rw [if_pos hp] at this; rw [if_pos this, hp]
  · rw [if_neg hp] at this; rw [if_neg (by omega), this.1]

theorem blank_split {dig : Char → Bool} (hd : DigitClass dig) {point : Char} (hp : point = '.' ∨ point = ',')
    {s : List Char} (h : Blank s) : ∀ m ∈ (numRx dig point).split s, Blank m := by
  have hplain : ∀ c ∈ s, Plain dig point c := fun c hc =>
    ⟨hd.2 c (h c hc), by
      intro hm
      have := h c hc
      simp at hm
      rcases hm with rfl | rfl | rfl | rfl <;> revert this <;> decide,
     by
      intro hm
      have := h c hc
      rcases hp with rfl | rfl <;> subst hm <;> revert this <;> decide⟩
  have ht := (tokens_iff hd hp).1 (tokens_none hplain)
  have hparts := scan_parts hd hp (s.length + 1) [] s
  unfold Rx.findall at ht
  unfold Rx.split
  dsimp only
  generalize (numRx dig point).scan (s.length + 1) [] s = sc at *
  obtain ⟨l, t⟩ := sc
  have hl : l = [] := by simpa using ht.symm
  subst hl
  have : s = t := by simpa using hparts
  subst this
  intro m hm
  simp at hm
  subst hm
  exact h

/-- The general form of C45: the data lines are such, and the line above is not; with one
column, there is whitespace only around the number on the last line. -/
theorem preparse_table {dig : Char → Bool} (hd : DigitClass dig) (ff : List Char → Bool) {point : Char}
    {head rows blanks : List (List Char)} {last : List Char} {nums : List (List Char)}
    (hb : ∀ l ∈ blanks, Blank l) (hf : FewerWith dig point last) (ht : Tokens dig point last nums)
    (hne : nums ≠ [])
    (hrows : ∀ l ∈ rows ++ [last], DataLine dig point nums.length l)
    (hhead : ∀ l, head.getLast? = some l → ¬ DataLine dig point nums.length l)
    (hone : nums.length = 1 → ∃ a x b, last = a ++ x ++ b ∧ Blank a ∧ IsNumber dig point x ∧ Blank b) :
    ∃ r, preparse dig ff (head ++ (rows ++ [last]) ++ blanks) = .ok (some r) ∧
      r.skiprows = head.length ∧ r.usecols = List.range nums.length ∧
      (if nums.length = 1 then r.delimiter = none
        else ∃ sep, r.delimiter = some sep ∧ OneSep dig point last sep) ∧
      r.converters = (if point = ',' then some (List.range nums.length) else none) ∧
      FoundNames ff r.delimiter nums.length head.reverse r.names := by
  have hpt := fewerWith_point hd hf
  have hp := pointOf_cases dig last
  have hnl : (lineRes dig point last).numcnt = nums.length := by
    rw [hpt] at hp
    rw [tokens_unique ht (lineRes_nums hd hp last)]; rfl
  have hl : ¬ Blank last := by
    intro hbl
    obtain ⟨n, ns, hn⟩ := List.exists_cons_of_ne_nil hne
    obtain ⟨c, hc, hcd⟩ := isNumber_digit (tokens_numbers ht n (by rw [hn]; simp))
    have h1 := tokens_digits ht
    have h2 : c ∈ nums.flatten.filter dig := by
      rw [List.mem_filter, hn]; exact ⟨by simp [hc], hcd⟩
    rw [← h1, List.mem_filter] at h2
    rw [hd.2 c (hbl c h2.1)] at hcd
    simp at hcd
  have hlines : head ++ (rows ++ [last]) ++ blanks = (head ++ rows) ++ [last] ++ blanks := by simp
  rw [hlines, preparse_eq hd ff hl hb]
  rw [← hpt] at hnl hrows hhead ht hone ⊢
  rcases preparseAt_spec hd ff (body := head ++ rows) (last := last) ((head ++ rows) ++ [last] ++ blanks) with h0 |
    ⟨r, h0, n, hn, hn1, _, _, hskip, hdel, hconv, huse, hnames⟩
  · exfalso
    refine preparseAt_ne_none hd ff ?_ ?_ h0
    · rw [hnl]; exact hrows last (by simp)
    · rw [hnl]
      intro h1
      by_cases hbe : blanks = []
      · subst hbe
        obtain ⟨a, x, b, hs, ha, hx, hbb⟩ := hone h1
        rw [List.append_nil, List.getLast?_append]
        simp only [List.getLast?_singleton, Option.some_or, Option.getD_some]
        have hfa : (numRx dig (pointOf dig last)).findall last = nums := ((tokens_iff hd hp).1 ht).symm
        obtain ⟨n, hn⟩ := List.length_eq_one_iff.1 h1
        rw [hn] at hfa
        obtain ⟨a', b', hsp, hs'⟩ := split_one hd hp hfa
        -- both ways to cut the line are the same
        have hxn : x = n := by
          have hpl : ∀ w : List Char, Blank w → ∀ c ∈ w, Plain dig (pointOf dig last) c := by
            intro w hw c hc
            refine ⟨hd.2 c (hw c hc), ?_, ?_⟩
            · intro hm
              have := hw c hc
              simp at hm
              rcases hm with rfl | rfl | rfl | rfl <;> revert this <;> decide
            · intro hm
              have := hw c hc
              rcases hp with h | h <;> rw [hm, h] at this <;> revert this <;> decide
          have h2 : Tokens dig (pointOf dig last) (a ++ weave [x] [] ++ b) [x] := by
            rw [List.append_assoc]
            exact tokens_plain (hpl a ha) (tokens_weave rfl (by simpa using hx) (by simp) (hpl b hbb))
          have h3 : a ++ weave [x] [] ++ b = last := by rw [hs]; simp [weave]
          rw [h3] at h2
          have := tokens_unique h2 ht
          rw [hn] at this
          simpa using this
        subst hxn
        have hda : ∀ c ∈ a, dig c = false := fun c hc => hd.2 c (ha c hc)
        have hda' : ∀ c ∈ a', dig c = false := by
          have h1 := tokens_digits ht
          rw [hn] at h1
          conv at h1 => lhs; rw [hs']
          rw [List.filter_append, List.filter_append] at h1
          simp at h1
          have h2 := congrArg List.length h1
          simp only [List.length_append] at h2
          have h3 : a'.filter dig = [] := List.length_eq_zero_iff.1 (by omega)
          intro c hc
          have := List.filter_eq_nil_iff.1 h3 c hc
          simpa using this
        have he : a ++ x ++ b = a' ++ x ++ b' := by rw [← hs, ← hs']
        obtain ⟨rfl, rfl⟩ := prefix_unique hda hda' (isNumber_digit hx) he
        rw [hsp]
        intro m hm
        simp at hm
        rcases hm with rfl | rfl
        · exact ha
        · exact hbb
      · have hlast : ((head ++ rows) ++ [last] ++ blanks).getLast? = some (blanks.getLast hbe) := by
          rw [List.getLast?_append, List.getLast?_eq_some_getLast hbe]; rfl
        rw [hlast]
        exact blank_split hd hp (hb _ (List.getLast_mem hbe))
  · have hnn : n = nums.length := by rw [← hn, hnl]
    subst hnn
    have hsk : r.skiprows = head.length := by
      rw [hskip, List.append_assoc]
      apply startOf_eq
      · intro l hl; exact (dataLine_iff hd hp).2 (hrows l hl)
      · intro l hl
        cases hst : stopsData (if nums.length = 1 then 0 else 1) (lineRes dig (pointOf dig last) l) with
        | true => rfl
        | false => exact absurd ((dataLine_iff hd hp).1 hst) (hhead l hl)
    refine ⟨r, h0, hsk, huse, hdel, hconv, ?_⟩
    rw [hsk] at hnames
    rw [List.append_assoc, List.append_assoc, List.take_left' rfl] at hnames
    exact hnames

/-- C45, several columns: every data line has `k` numbers with this point, and the same
separator; the line above the data has not one kind of separator; on the last line no fewer
numbers (with the dot) or more (with the comma) would be found if read with the other point. -/
theorem C45_columns_partial {dig : Char → Bool} (hd : DigitClass dig) (ff : List Char → Bool) {point : Char}
    {head rows blanks : List (List Char)} {last sep : List Char} {k : Nat}
    (hb : ∀ l ∈ blanks, Blank l) (hk : 2 ≤ k) (hf : FewerWith dig point last)
    (hrows : ∀ l ∈ rows ++ [last], ∃ nums, nums.length = k ∧ TableLine dig point sep nums l)
    (hhead : ∀ l, head.getLast? = some l → ∀ s, ¬ OneSep dig point l s) :
    ∃ r, preparse dig ff (head ++ (rows ++ [last]) ++ blanks) = .ok (some r) ∧
      r.skiprows = head.length ∧ r.usecols = List.range k ∧ r.delimiter = some sep ∧
      r.converters = (if point = ',' then some (List.range k) else none) ∧
      FoundNames ff (some sep) k head.reverse r.names := by
  obtain ⟨nums, hn, hl⟩ := hrows last (by simp)
  have ht := tableLine_tokens hl
  have h1 : ¬ nums.length = 1 := by omega
  obtain ⟨r, h2, h3, h4, h5, h6, h7⟩ := preparse_table hd ff (head := head) (rows := rows) hb hf ht
    (by intro h; rw [h] at hn; simp at hn; omega)
    (by
      intro l hl
      unfold DataLine
      rw [if_neg h1]
      obtain ⟨ns, hns, htl⟩ := hrows l hl
      exact ⟨sep, tableLine_oneSep htl (by omega)⟩)
    (by
      intro l hl
      unfold DataLine
      rw [if_neg h1]
      rintro ⟨s, hs⟩
      exact hhead l hl s hs)
    (fun h => absurd h h1)
  rw [if_neg h1] at h5
  obtain ⟨s, hs1, hs2⟩ := h5
  have := oneSep_unique hs2 (tableLine_oneSep hl (by omega))
  subst this
  rw [hn] at h4 h6 h7
  rw [hs1] at h7
  exact ⟨r, h2, h3, h4, hs1, h6, h7⟩

/-- C45, one column: a number on each line, on the last one with nothing but whitespace
around; no number on the line above. -/
theorem C45_one_column_partial {dig : Char → Bool} (hd : DigitClass dig) (ff : List Char → Bool) {point : Char}
    {head rows blanks : List (List Char)} {last : List Char}
    (hb : ∀ l ∈ blanks, Blank l) (hf : FewerWith dig point last)
    (hrows : ∀ l ∈ rows ++ [last], ∃ a x b, l = a ++ x ++ b ∧ Blank a ∧ IsNumber dig point x ∧ Blank b)
    (hhead : ∀ l, head.getLast? = some l → Tokens dig point l []) :
    ∃ r, preparse dig ff (head ++ (rows ++ [last]) ++ blanks) = .ok (some r) ∧
      r.skiprows = head.length ∧ r.usecols = [0] ∧ r.delimiter = none ∧
      r.converters = (if point = ',' then some [0] else none) ∧
      FoundNames ff none 1 head.reverse r.names := by
  have hp : point = '.' ∨ point = ',' := by rw [← fewerWith_point hd hf]; exact pointOf_cases dig last
  have hpl : ∀ w : List Char, Blank w → ∀ c ∈ w, Plain dig point c := by
    intro w hw c hc
    refine ⟨hd.2 c (hw c hc), ?_, ?_⟩
    · intro hm
      have := hw c hc
      simp at hm
      rcases hm with rfl | rfl | rfl | rfl <;> revert this <;> decide
    · intro hm
      have := hw c hc
      rcases hp with h | h <;> rw [hm, h] at this <;> revert this <;> decide
  have htok : ∀ l ∈ rows ++ [last], ∃ x, Tokens dig point l [x] := by
    intro l hl
    obtain ⟨a, x, b, rfl, ha, hx, hbb⟩ := hrows l hl
    refine ⟨x, ?_⟩
    have : Tokens dig point (a ++ (weave [x] [] ++ b)) [x] :=
      tokens_plain (hpl a ha) (tokens_weave rfl (by simpa using hx) (by simp) (hpl b hbb))
    simpa [weave] using this
  obtain ⟨x, hx⟩ := htok last (by simp)
  obtain ⟨r, h2, h3, h4, h5, h6, h7⟩ := preparse_table hd ff (head := head) (rows := rows) hb hf hx (by simp)
    (by
      intro l hl
      obtain ⟨y, hy⟩ := htok l hl
      exact ⟨[y], hy, by simp, .inl rfl⟩)
    (by
      rintro l hl ⟨ns, hns, hne, _⟩
      exact hne (tokens_unique hns (hhead l hl)))
    (fun _ => hrows last (by simp))
  exact ⟨r, h2, h3, h4, h5, h6, by rw [h5] at h7; exact h7⟩

theorem weave_mem {nums gs : List (List Char)} (hl : gs.length + 1 = nums.length) {g : List Char} (hg : g ∈ gs)
    {c : Char} (hc : c ∈ g) : c ∈ weave nums gs := by
  induction nums generalizing gs with
  | nil => simp at hl
  | cons n ns ih =>
    cases gs with
    | nil => simp at hg
    | cons g' gs =>
      simp only [weave, List.mem_append]
      rcases List.mem_cons.1 hg with rfl | hg
      · exact .inl (.inr hc)
      · exact .inr (ih (by simpa using hl) hg)

/-- The dot is inferred if there is no comma on the line. -/
theorem fewerWith_dot {dig : Char → Bool} (hd : DigitClass dig) {sep : List Char} {nums : List (List Char)}
    {line : List Char} (h : TableLine dig '.' sep nums line) (hno : ',' ∉ line) : FewerWith dig '.' line := by
  intro ds cs hds hcs
  rw [if_pos rfl, tokens_unique hds (tableLine_tokens h)]
  obtain ⟨a, gs, b, hs, hl, hn, ha, hb, hg⟩ := h
  rw [hs] at hno
  simp only [List.mem_append, not_or] at hno
  have hpl : ∀ w : List Char, (∀ c ∈ w, Plain dig '.' c) → ',' ∉ w → ∀ c ∈ w, Plain dig ',' c :=
    fun w hw hw' c hc => ⟨(hw c hc).1, (hw c hc).2.1, fun h => hw' (h ▸ hc)⟩
  rw [hs, List.append_assoc] at hcs
  have h1 := tokens_drop hd (.inr rfl) (hpl a ha hno.1.1) hcs
  have h2 := tokens_count hd (.inr rfl) (fun _ => 1) hl
    (fun n hn' ts hts => tokens_pos hts (isNumber_digit (hn n hn')))
    (fun g hg' => ⟨(hg g hg').1, hpl g (hg g hg').2.1 fun hm => hno.1.2 (weave_mem hl hg' hm)⟩)
    (hpl b hb hno.2) h1
  rw [sum_map_one] at h2
  exact h2

/-- The dot is inferred, whatever the separators, if all numbers have digits on both sides of
it. -/
theorem fewerWith_csv {dig : Char → Bool} (hd : DigitClass dig) {sep : List Char} {nums : List (List Char)}
    {line : List Char} (h : TableLine dig '.' sep nums line) (hn : ∀ n ∈ nums, Fractional dig '.' n) :
    FewerWith dig '.' line := by
  intro ds cs hds hcs
  rw [if_pos rfl, tokens_unique hds (tableLine_tokens h)]
  obtain ⟨a, gs, b, hs, hl, _⟩ := h
  rw [hs] at hcs
  have hx : Plain dig ',' '.' := ⟨hd.1 _ (by simp), by decide, by decide⟩
  have := fractional_more hd (.inr rfl) hx hl hn hcs
  omega

/-- The comma is inferred if there is no dot on the line and a number has digits on both
sides of the comma. -/
theorem fewerWith_comma {dig : Char → Bool} (hd : DigitClass dig) {sep : List Char} {nums : List (List Char)}
    {line : List Char} (h : TableLine dig ',' sep nums line) (hno : '.' ∉ line)
    (hfr : ∃ n ∈ nums, Fractional dig ',' n) : FewerWith dig ',' line := by
  classical
  intro ds cs hds hcs
  rw [if_neg (by decide), tokens_unique hcs (tableLine_tokens h)]
  obtain ⟨a, gs, b, hs, hl, hn, ha, hb, hg⟩ := h
  rw [hs] at hno
  simp only [List.mem_append, not_or] at hno
  have hpl : ∀ w : List Char, (∀ c ∈ w, Plain dig ',' c) → '.' ∉ w → ∀ c ∈ w, Plain dig '.' c :=
    fun w hw hw' c hc => ⟨(hw c hc).1, (hw c hc).2.1, fun h => hw' (h ▸ hc)⟩
  rw [hs, List.append_assoc] at hds
  have h1 := tokens_drop hd (.inl rfl) (hpl a ha hno.1.1) hds
  have hx : Plain dig '.' ',' := ⟨hd.1 _ (by simp), by decide, by decide⟩
  have h2 := tokens_count hd (.inl rfl) (fun n => if Fractional dig ',' n then 2 else 1) hl
    (by
      intro n hn' ts hts
      split
      · rename_i hfn; exact fractional_two hd (.inl rfl) hx hfn hts
      · exact tokens_pos hts (isNumber_digit (hn n hn')))
    (fun g hg' => ⟨(hg g hg').1, hpl g (hg g hg').2.1 fun hm => hno.1.2 (weave_mem hl hg' hm)⟩)
    (hpl b hb hno.2) h1
  have h3 : (nums.map fun _ => 1).sum < (nums.map fun n => if Fractional dig ',' n then 2 else 1).sum := by
    apply sum_map_lt
    · intro n _; split <;> omega
    · obtain ⟨n, hn', hfn⟩ := hfr
      exact ⟨n, hn', by rw [if_pos hfn]; omega⟩
  rw [sum_map_one] at h3
  exact ⟨rfl, by omega⟩

/-- C45 for the layouts in use: every data line has `k` numbers with the point and the
separator; the line above the data has fewer than two numbers; and on the last line
there is no comma, or every number has digits on both sides of the dot (as in "1.5,2.5"), or
the point is the comma, there is no dot and a number has digits on both sides of the comma. -/
theorem C45_table_partial {dig : Char → Bool} (hd : DigitClass dig) (ff : List Char → Bool) {point : Char}
    {head rows blanks : List (List Char)} {last sep : List Char} {k : Nat} {nums : List (List Char)}
    (hb : ∀ l ∈ blanks, Blank l) (hk : 2 ≤ k)
    (hrows : ∀ l ∈ rows ++ [last], ∃ nums, nums.length = k ∧ TableLine dig point sep nums l)
    (hhead : ∀ l, head.getLast? = some l → ∃ ts, Tokens dig point l ts ∧ ts.length < 2)
    (ht : Tokens dig point last nums)
    (hpt : (point = '.' ∧ ',' ∉ last) ∨ (point = '.' ∧ ∀ n ∈ nums, Fractional dig '.' n) ∨
      (point = ',' ∧ '.' ∉ last ∧ ∃ n ∈ nums, Fractional dig ',' n)) :
    ∃ r, preparse dig ff (head ++ (rows ++ [last]) ++ blanks) = .ok (some r) ∧
      r.skiprows = head.length ∧ r.usecols = List.range k ∧ r.delimiter = some sep ∧
      r.converters = (if point = ',' then some (List.range k) else none) ∧
      FoundNames ff (some sep) k head.reverse r.names := by
  obtain ⟨ns, hns, hl⟩ := hrows last (by simp)
  have := tokens_unique ht (tableLine_tokens hl)
  subst this
  refine C45_columns_partial hd ff hb hk ?_ hrows ?_
  · rcases hpt with ⟨rfl, h⟩ | ⟨rfl, h⟩ | ⟨rfl, h, h'⟩
    · exact fewerWith_dot hd hl h
    · exact fewerWith_csv hd hl h
    · exact fewerWith_comma hd hl h h'
  · intro l hl s
    obtain ⟨ts, h1, h2⟩ := hhead l hl
    exact few_not_oneSep h1 h2 s

/-- The decimal sign that a result shows is the one inferred. -/
theorem preparse_shows {dig : Char → Bool} (hd : DigitClass dig) {ff : List Char → Bool} {point : Char} (hp : point = '.' ∨ point = ',')
    {body blanks : List (List Char)} {last : List Char} (hl : ¬ Blank last) (hb : ∀ l ∈ blanks, Blank l) {r : Derived} {cols : List Nat}
    (h : preparse dig ff (body ++ [last] ++ blanks) = .ok (some r)) (hc : r.converters = if point = ',' then some cols else none) :
    FewerWith dig point last := by
  rw [preparse_eq hd ff hl hb] at h
  rcases preparseAt_spec hd ff (body := body) (last := last) (body ++ [last] ++ blanks) with h0 | ⟨r', h0, n, -, -, -, -, -, -, hconv, -, -⟩
  · rw [h0] at h; cases h
  · rw [h0] at h
    cases h
    rw [hc] at hconv
    have hpt : pointOf dig last = point := by
      rcases hp with rfl | rfl <;> rcases pointOf_cases dig last with e | e <;> rw [e] at hconv ⊢ <;> simp at hconv
    intro ds cs hds hcs
    rw [tokens_unique hds (lineRes_nums hd (.inl rfl) last), tokens_unique hcs (lineRes_nums hd (.inr rfl) last)]
    rw [← hpt]
    unfold pointOf LineRes.numcnt
    split
    · rw [if_pos rfl]
      assumption
    · rw [if_neg (by decide)]
      exact ⟨rfl, by omega⟩

theorem number_notBlank {dig : Char → Bool} (hd : DigitClass dig) {point : Char} {l n : List Char} {nums : List (List Char)} (ht : Tokens dig point l (n :: nums)) :
    ¬ Blank l := by
  intro hbl
  obtain ⟨c, hc, hcd⟩ := isNumber_digit (tokens_numbers ht n (by simp))
  have h1 := tokens_digits ht
  have h2 : c ∈ (n :: nums).flatten.filter dig := by
    rw [List.mem_filter]; exact ⟨by simp [hc], hcd⟩
  rw [← h1, List.mem_filter] at h2
  rw [hd.2 c (hbl c h2.1)] at hcd
  simp at hcd

/-- C45: the tables that are inferred: the separator and the decimal sign of a table with two or more columns are inferred exactly if its
last line has, read with the decimal sign of the table, fewer numbers than with the other one (with the dot, no more). -/
theorem C45_exact {dig : Char → Bool} (hd : DigitClass dig) (ff : List Char → Bool) {point : Char} (hp : point = '.' ∨ point = ',')
    {head rows blanks : List (List Char)} {last sep : List Char} {k : Nat}
    (hb : ∀ l ∈ blanks, Blank l) (hk : 2 ≤ k)
    (hrows : ∀ l ∈ rows ++ [last], ∃ nums, nums.length = k ∧ TableLine dig point sep nums l)
    (hhead : ∀ l, head.getLast? = some l → ∀ s, ¬ OneSep dig point l s) :
    (∃ r, preparse dig ff (head ++ (rows ++ [last]) ++ blanks) = .ok (some r) ∧
      r.skiprows = head.length ∧ r.usecols = List.range k ∧ r.delimiter = some sep ∧
      r.converters = (if point = ',' then some (List.range k) else none)) ↔ FewerWith dig point last := by
  constructor
  · rintro ⟨r, h, -, -, -, hc⟩
    obtain ⟨nums, hn, hl⟩ := hrows last (by simp)
    obtain ⟨n, ns, rfl⟩ : ∃ n ns, nums = n :: ns := by
      cases nums with
      | nil => simp at hn; omega
      | cons n ns => exact ⟨_, _, rfl⟩
    rw [show head ++ (rows ++ [last]) ++ blanks = (head ++ rows) ++ [last] ++ blanks by simp] at h
    exact preparse_shows hd hp (number_notBlank hd (tableLine_tokens hl)) hb h hc
  · intro hf
    obtain ⟨r, h1, h2, h3, h4, h5, -⟩ := C45_columns_partial hd ff hb hk hf hrows hhead
    exact ⟨r, h1, h2, h3, h4, h5⟩

/-- C45: so with one column. -/
theorem C45_one_column_exact {dig : Char → Bool} (hd : DigitClass dig) (ff : List Char → Bool) {point : Char} (hp : point = '.' ∨ point = ',')
    {head rows blanks : List (List Char)} {last : List Char} (hb : ∀ l ∈ blanks, Blank l)
    (hrows : ∀ l ∈ rows ++ [last], ∃ a x b, l = a ++ x ++ b ∧ Blank a ∧ IsNumber dig point x ∧ Blank b)
    (hhead : ∀ l, head.getLast? = some l → Tokens dig point l []) :
    (∃ r, preparse dig ff (head ++ (rows ++ [last]) ++ blanks) = .ok (some r) ∧
      r.skiprows = head.length ∧ r.usecols = [0] ∧ r.delimiter = none ∧
      r.converters = (if point = ',' then some [0] else none)) ↔ FewerWith dig point last := by
  constructor
  · rintro ⟨r, h, -, -, -, hc⟩
    obtain ⟨a, x, b, hx, -, hn, -⟩ := hrows last (by simp)
    have hnb : ¬ Blank last := by
      intro hbl
      obtain ⟨c, hc', hcd⟩ := isNumber_digit hn
      rw [hd.2 c (hbl c (by rw [hx]; simp [hc']))] at hcd
      simp at hcd
    rw [show head ++ (rows ++ [last]) ++ blanks = (head ++ rows) ++ [last] ++ blanks by simp] at h
    exact preparse_shows hd hp hnb hb h hc
  · intro hf
    obtain ⟨r, h1, h2, h3, h4, h5, -⟩ := C45_one_column_partial hd ff hb hf hrows hhead
    exact ⟨r, h1, h2, h3, h4, h5⟩

/-! ### examples -/

/-- The ASCII digits. -/
def asciiDig (c : Char) : Bool := '0'.toNat ≤ c.toNat && c.toNat ≤ '9'.toNat

theorem asciiDig_class : DigitClass asciiDig := by
  refine ⟨by decide, ?_⟩
  intro c hc
  unfold asciiDig
  unfold pySpace at hc
  have e1 : '0'.toNat = 48 := rfl
  have e2 : '9'.toNat = 57 := rfl
  rw [e1, e2]
  simp at hc ⊢
  omega

/-- `re.match(r'\w', s)` on ASCII. -/
def asciiWord (s : List Char) : Bool :=
  match s with
  | [] => false
  | c :: _ => c.isAlphanum || c = '_'

/-- Integers separated by commas are numbers with one separator, and `preparse` fails. -/
theorem C45_counterexample : ∃ dig ff line sep nums, DigitClass dig ∧ 2 ≤ nums.length ∧
    TableLine dig '.' sep nums line ∧ preparse dig ff [line] = .ok none := by
  refine ⟨asciiDig, asciiWord, "1,2,3".toList, ",".toList, ["1".toList, "2".toList, "3".toList], asciiDig_class,
    by decide, ⟨[], [",".toList, ",".toList], [], rfl, rfl, ?_, by simp, by simp, ?_⟩, rfl⟩
  · intro n hn
    simp at hn
    have hnum : ∀ a : Char, asciiDig a = true → IsNumber asciiDig '.' [a] := fun a ha =>
      ⟨[], [a], [], .inl rfl, .inl ⟨by simp, by simpa using ha⟩, .inl rfl, rfl⟩
    rcases hn with rfl | rfl | rfl <;> exact hnum _ rfl
  · intro g hg
    simp at hg
    subst hg
    refine ⟨by decide, by unfold Plain; decide, .inr ⟨by decide, ?_⟩⟩
    exact ⟨[], [], rfl, by simp, by simp, by decide, by decide⟩

/-- Two integers separated by a comma are taken for one column of numbers with a decimal
comma. -/
theorem C45_two_integers : preparse asciiDig asciiWord ["1,2".toList] =
    .ok (some { skiprows := 0, delimiter := none, converters := some [0], names := [], usecols := [0] }) := rfl

/-- A file with names and two columns (C43). -/
example : preparse asciiDig asciiWord ["run 7\n".toList, "t; u\n".toList, "1,5; 2\n".toList, "-2,5; 3e4\n".toList,
      "\n".toList] =
    .ok (some { skiprows := 2, delimiter := some [';'], converters := some [0, 1],
                names := [(0, ['t']), (1, ['u'])], usecols := [0, 1] }) := rfl

/-- The hypotheses of C45 can be met. -/
example : ∃ r, preparse asciiDig asciiWord (["t u".toList] ++ ([] ++ ["1.5,2.5".toList]) ++ []) = .ok (some r) ∧
    r.skiprows = 1 ∧ r.usecols = [0, 1] ∧ r.delimiter = some [','] ∧ r.converters = none := by
  have hfrac : ∀ a b : Char, asciiDig a = true → asciiDig b = true → Fractional asciiDig '.' [a, '.', b] := by
    intro a b ha hb
    exact ⟨[], [a], [b], [], .inl rfl, ⟨by simp, by simpa using ha⟩, ⟨by simp, by simpa using hb⟩, .inl rfl, rfl⟩
  have hline : TableLine asciiDig '.' [','] ["1.5".toList, "2.5".toList] "1.5,2.5".toList := by
    refine ⟨[], [[',']], [], rfl, rfl, ?_, by simp, by simp, ?_⟩
    · intro n hn
      simp at hn
      rcases hn with rfl | rfl
      · exact fractional_isNumber (hfrac '1' '5' rfl rfl)
      · exact fractional_isNumber (hfrac '2' '5' rfl rfl)
    · intro g hg
      simp at hg
      subst hg
      exact ⟨by decide, by unfold Plain; decide,
        .inr ⟨by decide, [], [], rfl, by simp, by simp, by decide, by decide⟩⟩
  obtain ⟨r, h1, h2, h3, h4, h5, _⟩ := C45_table_partial asciiDig_class asciiWord (point := '.')
    (head := ["t u".toList]) (rows := []) (blanks := []) (last := "1.5,2.5".toList) (sep := [',']) (k := 2)
    (nums := ["1.5".toList, "2.5".toList]) (by simp) (by decide)
    (by intro l hl; simp at hl; subst hl; exact ⟨_, rfl, hline⟩)
    (by
      intro l hl
      simp at hl
      subst hl
      exact ⟨_, findall_tokens asciiDig_class (.inl rfl) _, by decide⟩)
    (tableLine_tokens hline)
    (.inr (.inl ⟨rfl, by
      intro n hn
      simp at hn
      rcases hn with rfl | rfl
      · exact hfrac '1' '5' rfl rfl
      · exact hfrac '2' '5' rfl rfl⟩))
  exact ⟨r, h1, h2, h3, h4, h5⟩

/-- One column. -/
example : ∃ r, preparse asciiDig asciiWord (["u".toList] ++ ([" 7".toList] ++ [" 8 ".toList]) ++ ["\n".toList]) =
      .ok (some r) ∧
    r.skiprows = 1 ∧ r.usecols = [0] ∧ r.delimiter = none := by
  have hnum : ∀ a : Char, asciiDig a = true → IsNumber asciiDig '.' [a] := by
    intro a ha
    exact ⟨[], [a], [], .inl rfl, .inl ⟨by simp, by simpa using ha⟩, .inl rfl, rfl⟩
  obtain ⟨r, h1, h2, h3, h4, _⟩ := C45_one_column_partial asciiDig_class asciiWord (point := '.')
    (head := ["u".toList]) (rows := [" 7".toList]) (blanks := ["\n".toList]) (last := " 8 ".toList)
    (by unfold Blank; decide)
    (by
      intro ds cs hds hcs
      rw [(tokens_iff asciiDig_class (.inl rfl)).1 hds, (tokens_iff asciiDig_class (.inr rfl)).1 hcs]
      decide)
    (by
      intro l hl
      simp at hl
      rcases hl with rfl | rfl
      · exact ⟨[' '], ['7'], [], rfl, by unfold Blank; decide, hnum '7' rfl, by unfold Blank; decide⟩
      · exact ⟨[' '], ['8'], [' '], rfl, by unfold Blank; decide, hnum '8' rfl, by unfold Blank; decide⟩)
    (by
      intro l hl
      simp at hl
      subst hl
      rw [tokens_iff asciiDig_class (.inl rfl)]
      rfl)
  exact ⟨r, h1, h2, h3, h4⟩

end CP
