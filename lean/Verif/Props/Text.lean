import Verif.Lemmas.Text
import Verif.Lemmas.PyIter
/-!
# C37-C41: delimited text
-/

namespace CP
open CP.Spec

/-! ### from lines to fields -/

theorem white_iff (h : Hint) (c : Char) : White h c ↔ h.ws c = true := by
  cases h <;> simp [White, Hint.ws, asciiWhite, whites]

theorem whites_ws (h : Hint) {c : Char} (hc : c ∈ whites) : h.ws c = true := by
  rw [← white_iff]
  cases h with
  | text =>
    simp only [whites, List.mem_cons, List.not_mem_nil, or_false] at hc
    rcases hc with rfl | rfl | rfl | rfl | rfl | rfl <;> (show pySpace _ = true; decide)
  | bytes => exact hc
  | codec => exact hc

theorem splitWs_all {ws : Char → Bool} {w : List Char} (hw : ∀ c ∈ w, ws c = true) (t : List Char) :
    splitWs ws (w ++ t) = splitWs ws t := by
  induction w with
  | nil => rfl
  | cons x xs ih =>
    rw [List.cons_append, splitWs, if_pos (hw x (by simp)), ih (fun c hc => hw c (by simp [hc]))]

theorem splitWs_post {ws : Char → Bool} {b : List Char} (hb : ∀ c ∈ b, ws c = true) (t : List Char) :
    splitWs ws (t ++ b) = splitWs ws t := by
  induction t with
  | nil => have := splitWs_all hb []; simpa [splitWs] using this
  | cons x xs ih =>
    rw [List.cons_append, splitWs, splitWs, ih]
    have : ((xs ++ b).head?.map ws).getD true = (xs.head?.map ws).getD true := by
      cases xs with
      | nil =>
        cases b with
        | nil => rfl
        | cons y ys => simp [hb y (by simp)]
      | cons y ys => rfl
    rw [this]

theorem hasFields_split {h : Hint} {d : Option (List Char)} {line : List Char} {fs : List (List Char)}
    (hf : HasFields (White h) d line fs) :
    stripBy (· ∈ stripchars d) line ≠ [] ∧
    pySplit h.ws d (stripBy (· ∈ stripchars d) line) = .ok fs := by
  cases hf with
  | delim hd hne hnd hpre hpost hj h1 h2 =>
    rename_i d pre post
    have e : stripBy (· ∈ stripchars (some d)) (pre ++ joined d fs ++ post) = joined d fs := by
      apply stripBy_pad
      · intro c hc; simpa [mem_stripchars_some hd] using hpre c hc
      · intro c hc; simpa [mem_stripchars_some hd] using hpost c hc
      · intro c hc; simpa [mem_stripchars_some hd] using h1 c hc
      · intro c hc; simpa [mem_stripchars_some hd] using h2 c hc
    rw [e]
    refine ⟨hj, ?_⟩
    unfold pySplit
    cases d with
    | nil => exact absurd rfl hd
    | cons x xs => simp only; rw [splitStr_joined hd hne hnd]
  | white hne hw =>
    have hw' : splitWs h.ws line = fs := by
      apply splitWs_words
      have : White h = fun c => h.ws c = true := by funext c; exact propext (white_iff h c)
      rwa [this] at hw
    obtain ⟨a, b, hs, ha, hb, _, _⟩ := stripBy_spec (· ∈ stripchars none) line
    have hws : ∀ c, (decide (c ∈ stripchars none)) = true → h.ws c = true := by
      intro c hc
      exact whites_ws h ((mem_stripchars_none.1 (by simpa using hc)).1)
    have e : splitWs h.ws (stripBy (· ∈ stripchars none) line) = fs := by
      have h1 := congrArg (splitWs h.ws) hs
      rw [hw', List.append_assoc, splitWs_all (fun c hc => hws c (ha c hc)),
        splitWs_post (fun c hc => hws c (hb c hc))] at h1
      exact h1.symm
    refine ⟨?_, by unfold pySplit; simp only; rw [e]⟩
    intro h0
    rw [h0] at e
    exact hne (by rw [← e]; simp [splitWs])

theorem allPad_strip {d : Option (List Char)} (hd : d ≠ some []) {line : List Char} (h : AllPad d line) :
    stripBy (· ∈ stripchars d) line = [] := by
  apply stripBy_all
  intro c hc
  cases d with
  | none => simpa [mem_stripchars_none] using h c hc
  | some d => simpa [mem_stripchars_some (d := d) (by rintro rfl; exact hd rfl)] using h c hc

/-- A line of whitespace that is not all padding is split into no fields. -/
theorem empty_split {h : Hint} {line : List Char} (hp : ¬ AllPad none line) (hw : ∀ c ∈ line, White h c) :
    stripBy (· ∈ stripchars none) line ≠ [] ∧ pySplit h.ws none (stripBy (· ∈ stripchars none) line) = .ok [] := by
  obtain ⟨a, b, hs, ha, hb, _, _⟩ := stripBy_spec (· ∈ stripchars none) line
  constructor
  · intro h0
    apply hp
    intro c hc
    rw [h0, List.append_nil] at hs
    rw [hs] at hc
    have : c ∈ stripchars none := by
      rcases List.mem_append.1 hc with hc | hc
      · simpa using ha c hc
      · simpa using hb c hc
    exact mem_stripchars_none.1 this
  · have hall : ∀ c ∈ stripBy (· ∈ stripchars none) line, h.ws c = true := by
      intro c hc
      refine (white_iff h c).1 (hw c ?_)
      rw [hs]
      simp [hc]
    have := splitWs_all hall []
    rw [List.append_nil] at this
    unfold pySplit
    simp only [this]
    rfl

theorem hasFields_delim {ws : Char → Prop} {d : Option (List Char)} {line : List Char} {fs}
    (hf : HasFields ws d line fs) : d ≠ some [] := by
  cases hf with
  | delim hd => simpa using hd
  | white => simp

/-! ### the functions of the columns -/

theorem unifyFuncs_get {funcs : List Func} {j : Nat} {F : Func} (h : (unifyFuncs funcs)[j]? = some F) :
    ∃ G, funcs[j]? = some G ∧
      F = if funcs.any Func.isFloatit ∧ G.isMaybenan then Func.floatit else G := by
  unfold unifyFuncs at h
  split at h
  · rename_i ha
    rw [List.getElem?_map, Option.map_eq_some_iff] at h
    obtain ⟨G, hG, rfl⟩ := h
    exact ⟨G, hG, by simp [ha]⟩
  · rename_i ha
    exact ⟨F, h, by simp [ha]⟩

theorem unifyFuncs_length (funcs : List Func) : (unifyFuncs funcs).length = funcs.length := by
  unfold unifyFuncs; split <;> simp

theorem isFloatit_funcOf {fl : FloatS} {h : Hint} {st : Bool} {x : List Char} :
    (funcOf fl h st x).isFloatit = true ↔ IsCommaNum fl x := by
  unfold funcOf IsCommaNum IsNum
  cases h1 : fl x with
  | some v => simp [Func.isFloatit]
  | none =>
    have : commaDot x = pointed x := rfl
    rw [this]
    cases h2 : fl (pointed x) with
    | some v => simp [Func.isFloatit]
    | none => cases h <;> cases st <;> simp [Func.isFloatit, textFunc]

theorem textFunc_means {fl : FloatS} {h : Hint} {st : Bool} {s : List Char} {v : Val} :
    (textFunc h st).apply fl h s = .ok v ↔ TextMeans h st s v := by
  have hw : White h = fun c => h.ws c = true := by funext c; exact propext (white_iff h c)
  have key : ∀ t, (if st = true then Trimmed (White h) s t else t = s) ↔
      t = if st then stripBy h.ws s else s := by
    intro t
    cases st with
    | true => simp only [↓reduceIte]; rw [hw, trimmed_iff]
    | false => simp
  unfold TextMeans
  simp only [key, exists_eq_left]
  cases h with
  | text => cases st <;> simp [textFunc, Func.apply, TextValue, Hint.raw, eq_comm]
  | bytes => cases st <;> simp [textFunc, Func.apply, TextValue, Hint.raw, eq_comm]
  | codec dec =>
    cases st <;> simp only [textFunc, Func.apply, TextValue, Hint.decode, Bool.false_eq_true, if_false,
      if_true]
    · cases dec s <;> simp [eq_comm]
    · cases dec (stripBy (Hint.codec dec).ws s) <;> simp [eq_comm]

theorem floatE_ok {fl : FloatS} {s : List Char} {v : Val} : floatE fl s = .ok v ↔ fl s = some v := by
  unfold floatE; cases fl s <;> simp

theorem field_means {fl : FloatS} {h : Hint} {st : Bool} {first : List (List Char)} {x s : List Char}
    {v : Val} (hx : x ∈ first) :
    (if (first.map (funcOf fl h st)).any Func.isFloatit ∧ (funcOf fl h st x).isMaybenan then Func.floatit
      else funcOf fl h st x).apply fl h s = .ok v ↔ FieldMeans fl h st first x s v := by
  have hany : (first.map (funcOf fl h st)).any Func.isFloatit = true ↔ ∃ y ∈ first, IsCommaNum fl y := by
    simp [isFloatit_funcOf]
  by_cases hn : IsNum fl x
  · obtain ⟨w, hw⟩ := hn
    have hf : funcOf fl h st x = .maybenan := by simp [funcOf, hw]
    rw [hf]
    by_cases hc : ∃ y ∈ first, IsCommaNum fl y
    · rw [if_pos ⟨hany.2 hc, rfl⟩]
      simp only [Func.apply]
      by_cases hs : s = []
      · rw [if_neg (by simpa using hs)]
        constructor
        · intro h; simp only [Except.ok.injEq] at h; subst h; exact .missing (.inl ⟨w, hw⟩) hs
        · intro h
          cases h with
          | missing => rfl
          | point _ h => exact absurd hs h
          | comma _ h => exact absurd hs h
          | text h => exact absurd ⟨w, hw⟩ h
      · rw [if_pos hs, floatE_ok]
        constructor
        · intro h; exact .comma (.inl ⟨w, hw⟩) hs hc h
        · intro h
          cases h with
          | missing _ h => exact absurd h hs
          | point _ _ h => exact absurd hc h
          | comma _ _ _ h => exact h
          | text h => exact absurd ⟨w, hw⟩ h
    · rw [if_neg (by rintro ⟨h, _⟩; exact hc (hany.1 h))]
      simp only [Func.apply]
      by_cases hs : s = []
      · rw [if_neg (by simpa using hs)]
        constructor
        · intro h; simp only [Except.ok.injEq] at h; subst h; exact .missing (.inl ⟨w, hw⟩) hs
        · intro h
          cases h with
          | missing => rfl
          | point _ h => exact absurd hs h
          | comma _ h => exact absurd hs h
          | text h => exact absurd ⟨w, hw⟩ h
      · rw [if_pos hs, floatE_ok]
        constructor
        · intro h; exact .point (.inl ⟨w, hw⟩) hs hc h
        · intro h
          cases h with
          | missing _ h => exact absurd h hs
          | point _ _ _ h => exact h
          | comma _ _ h => exact absurd h hc
          | text h => exact absurd ⟨w, hw⟩ h
  · have hno : fl x = none := by
      cases hx : fl x with
      | none => rfl
      | some w => exact absurd ⟨w, hx⟩ hn
    by_cases hcn : IsCommaNum fl x
    · have hf : funcOf fl h st x = .floatit := by
        obtain ⟨w, hw⟩ := hcn.2
        have : commaDot x = pointed x := rfl
        simp [funcOf, hno, this, hw]
      rw [hf, if_neg (by simp [Func.isMaybenan])]
      have hc : ∃ y ∈ first, IsCommaNum fl y := ⟨x, hx, hcn⟩
      simp only [Func.apply]
      by_cases hs : s = []
      · rw [if_neg (by simpa using hs)]
        constructor
        · intro h; simp only [Except.ok.injEq] at h; subst h; exact .missing (.inr hcn) hs
        · intro h
          cases h with
          | missing => rfl
          | point _ h => exact absurd hs h
          | comma _ h => exact absurd hs h
          | text _ h => exact absurd hcn h
      · rw [if_pos hs, floatE_ok]
        constructor
        · intro h; exact .comma (.inr hcn) hs hc h
        · intro h
          cases h with
          | missing _ h => exact absurd h hs
          | point _ _ h => exact absurd hc h
          | comma _ _ _ h => exact h
          | text _ h => exact absurd hcn h
    · have hf : funcOf fl h st x = textFunc h st := by
        have h2 : fl (commaDot x) = none := by
          cases hx : fl (commaDot x) with
          | none => rfl
          | some w => exact absurd ⟨hn, w, hx⟩ hcn
        simp [funcOf, hno, h2]
      rw [hf, if_neg (by rintro ⟨_, h2⟩; cases h <;> cases st <;> simp [textFunc, Func.isMaybenan] at h2),
        textFunc_means]
      constructor
      · intro h; exact .text hn hcn h
      · intro h
        cases h with
        | missing h => exact h.elim (absurd · hn) (absurd · hcn)
        | point h => exact h.elim (absurd · hn) (absurd · hcn)
        | comma h => exact h.elim (absurd · hn) (absurd · hcn)
        | text _ _ h => exact h

/-- The caller's converters take their columns, the others are as they were. -/
theorem setConverters_spec {convs : List (Int × (List Char → Except Exc Val))} :
    ∀ {funcs : List Func}, (convs.map Prod.fst).Nodup →
      (∀ p ∈ convs, 0 ≤ p.1 ∧ p.1 < funcs.length) →
      ∃ funcs', setConverters funcs convs = .ok funcs' ∧ funcs'.length = funcs.length ∧
        ∀ (j : Nat) (F : Func), funcs'[j]? = some F →
          (∃ f, ((j : Int), f) ∈ convs ∧ F = .given f) ∨
          ((∀ f, ((j : Int), f) ∉ convs) ∧ funcs[j]? = some F) := by
  induction convs with
  | nil => intro funcs _ _; exact ⟨funcs, rfl, rfl, fun j F h => .inr ⟨by simp, h⟩⟩
  | cons p convs ih =>
    obtain ⟨k, f⟩ := p
    intro funcs hn hk
    rw [List.map_cons, List.nodup_cons] at hn
    obtain ⟨h0, h1⟩ := hk (k, f) (by simp)
    simp only at h0 h1
    have hs : setFunc funcs k (.given f) = .ok (funcs.set k.toNat (.given f)) := by
      unfold setFunc
      dsimp only
      rw [if_neg (show ¬ k < 0 by omega), if_neg (by omega)]
    obtain ⟨funcs', h2, h3, h4⟩ := ih (funcs := funcs.set k.toNat (.given f)) hn.2 (by
      intro p hp
      rw [List.length_set]
      exact hk p (by simp [hp]))
    refine ⟨funcs', ?_, by simpa using h3, ?_⟩
    · rw [setConverters, hs]; exact h2
    · intro j F hF
      rcases h4 j F hF with ⟨g, hg, rfl⟩ | ⟨hno, hget⟩
      · exact .inl ⟨g, by simp [hg], rfl⟩
      · by_cases hjk : (j : Int) = k
        · left
          refine ⟨f, by simp [hjk], ?_⟩
          have : k.toNat = j := by omega
          rw [this, List.getElem?_set_self (by omega)] at hget
          simpa using hget.symm
        · right
          refine ⟨?_, ?_⟩
          · intro g hg
            rcases List.mem_cons.1 hg with h | h
            · simp only [Prod.mk.injEq] at h; exact hjk h.1
            · exact hno g h
          · rwa [List.getElem?_set_ne (by omega)] at hget

/-- The converters are for columns of the first line, at most one for each. -/
def ConvertersFit (convs : List (Int × (List Char → Except Exc Val))) (n : Nat) : Prop :=
  (convs.map Prod.fst).Nodup ∧ ∀ p ∈ convs, 0 ≤ p.1 ∧ p.1 < (n : Int)

theorem funcs_means {fl : FloatS} {h : Hint} {st : Bool} {first : List (List Char)}
    {convs : List (Int × (List Char → Except Exc Val))} (hc : ConvertersFit convs first.length) :
    ∃ funcs, setConverters (unifyFuncs (first.map (funcOf fl h st))) convs = .ok funcs ∧
      funcs.length = first.length ∧
      ∀ (j : Nat) (F : Func), funcs[j]? = some F → ∀ s v,
        F.apply fl h s = .ok v ↔ CellMeans' fl h st convs first j s v := by
  obtain ⟨funcs, h1, h2, h3⟩ := setConverters_spec (funcs := unifyFuncs (first.map (funcOf fl h st)))
    hc.1 (by rw [unifyFuncs_length, List.length_map]; exact hc.2)
  refine ⟨funcs, h1, by rw [h2, unifyFuncs_length, List.length_map], ?_⟩
  intro j F hF s v
  unfold CellMeans'
  rcases h3 j F hF with ⟨f, hf, rfl⟩ | ⟨hno, hget⟩
  · simp only [Func.apply]
    constructor
    · intro h; exact .inl ⟨f, hf, h⟩
    · rintro (⟨g, hg, h⟩ | ⟨hno, _⟩)
      · have h1 := dget_of_mem (d := convs) hc.1 hf
        have h2 := dget_of_mem (d := convs) hc.1 hg
        rw [h1] at h2
        simp only [Option.some.injEq] at h2
        rw [h2]; exact h
      · exact absurd hf (hno f)
  · obtain ⟨G, hG, hFG⟩ := unifyFuncs_get hget
    rw [List.getElem?_map, Option.map_eq_some_iff] at hG
    obtain ⟨x, hx, rfl⟩ := hG
    rw [hFG, field_means (List.mem_of_getElem? hx)]
    constructor
    · intro h; exact .inr ⟨hno, x, hx, h⟩
    · rintro (⟨g, hg, _⟩ | ⟨_, x', hx', h⟩)
      · exact absurd hg (hno g)
      · rw [hx] at hx'
        simp only [Option.some.injEq] at hx'
        subst hx'; exact h

/-! ### rows -/

theorem pick_none {α : Type} (l : List α) : pick none l = l := by
  have : ∀ n, ((l.zipIdx n).filter fun p => keepCol none p.2).map Prod.fst = l := by
    intro n
    rw [List.filter_eq_self.2 (by simp [keepCol]), List.zipIdx_map_fst]
  exact this 0

theorem dataRows_rows {fl : FloatS} {h : Hint} {d : Option (List Char)} (hd : d ≠ some [])
    {usecols : Option (List Int)} {funcs : List Func} {ls : List (List Char)}
    {rs : List (List (List Char))} (hr : Rows (White h) d ls rs) :
    (∀ out, mapE (rowTuple fl h usecols funcs) rs = .ok out →
      dataRows fl h d usecols funcs ls = (out, none)) ∧
    (∀ e, mapE (rowTuple fl h usecols funcs) rs = .error e →
      (dataRows fl h d usecols funcs ls).2 = some e) := by
  induction hr with
  | nil => simp [mapE, dataRows]
  | blank hb _ ih =>
    rw [dataRows]
    dsimp only
    rw [if_pos (allPad_strip hd hb)]
    exact ih
  | empty h0 hp hw _ ih =>
    subst h0
    obtain ⟨h1, h2⟩ := empty_split hp hw
    rw [dataRows]
    dsimp only
    rw [if_neg h1, h2]
    dsimp only
    rw [mapE]
    cases hrow : rowTuple fl h usecols funcs _ with
    | error e => simp
    | ok row =>
      dsimp only
      rename_i rs _
      cases hrs : mapE (rowTuple fl h usecols funcs) rs with
      | error e => simp [ih.2 e hrs]
      | ok out => simp [ih.1 out hrs]
  | row hf _ ih =>
    obtain ⟨h1, h2⟩ := hasFields_split hf
    rw [dataRows]
    dsimp only
    rw [if_neg h1, h2]
    dsimp only
    rw [mapE]
    cases hrow : rowTuple fl h usecols funcs _ with
    | error e => simp
    | ok row =>
      dsimp only
      rename_i rs _
      cases hrs : mapE (rowTuple fl h usecols funcs) rs with
      | error e => simp [ih.2 e hrs]
      | ok out => simp [ih.1 out hrs]

/-- What `linetuples` gives for a stream at the first line of data. -/
theorem tuplesFrom_rows {fl : FloatS} {h : Hint} {d : Option (List Char)} {usecols : Option (List Int)}
    {convs : List (Int × (List Char → Except Exc Val))} {st : Bool} {hs : List (List Char)} {f : TFile}
    {first : List Char} {rest : List (List Char)} {fs : List (List Char)}
    {rs : List (List (List Char))} {funcs : List Func}
    (hl : LinesOf (f.chars.drop f.pos) (first :: rest)) (hf : HasFields (White h) d first fs)
    (hr : Rows (White h) d rest rs)
    (hfu : setConverters (unifyFuncs (fs.map (funcOf fl h st))) convs = .ok funcs) {names : List Val}
    (hn : mapE ((namesFunc h).apply fl h) (pick usecols (hs.take fs.length)) = .ok names) :
    (∀ out, mapE (rowTuple fl h usecols funcs) (fs :: rs) = .ok out →
      tuplesFrom fl h d usecols convs st hs f = .ok ⟨names, out, none⟩) ∧
    (∀ e, mapE (rowTuple fl h usecols funcs) (fs :: rs) = .error e →
      ∃ out, tuplesFrom fl h d usecols convs st hs f = .ok ⟨names, out, some e⟩ ∧
        (out = [] ↔ ∃ e', rowTuple fl h usecols funcs fs = .error e')) := by
  have hd := hasFields_delim hf
  have h1 := readline_linesOf hl
  have h2 := linesOf_tail hl
  rw [List.drop_drop] at h2
  unfold tuplesFrom
  rw [h1]
  dsimp only
  rw [(hasFields_split hf).2]
  dsimp only
  rw [hfu]
  dsimp only
  rw [hn]
  dsimp only
  rw [mapE]
  obtain ⟨k1, k2⟩ := dataRows_rows (fl := fl) (usecols := usecols) (funcs := funcs) hd hr
  cases hrow : rowTuple fl h usecols funcs fs with
  | error e => simp
  | ok row =>
    dsimp only
    rw [fileLines_linesOf h2]
    cases hrs : mapE (rowTuple fl h usecols funcs) rs with
    | error e => simp [k2 e hrs]
    | ok out => simp [k1 out hrs]

theorem row_means {fl : FloatS} {h : Hint} {funcs : List Func} {n : Nat} {M : Nat → List Char → Val → Prop}
    (hn : funcs.length = n)
    (hM : ∀ (j : Nat) (F : Func), funcs[j]? = some F → ∀ s v, F.apply fl h s = .ok v ↔ M j s v)
    {fs : List (List Char)} {row : List Val} :
    rowTuple fl h none funcs fs = .ok row ↔ row.length = min n fs.length ∧
      ∀ (j : Nat) s, j < n → fs[j]? = some s → ∃ v, row[j]? = some v ∧ M j s v := by
  unfold rowTuple
  rw [pick_none, mapE_ok_iff, List.length_zip, hn]
  apply and_congr_right
  intro _
  constructor
  · intro hh j s hj hs
    have hF : funcs[j]? = some (funcs[j]'(by omega)) := List.getElem?_eq_getElem _
    obtain ⟨v, h1, h2⟩ := hh j (funcs[j]'(by omega), s) (by rw [List.getElem?_zip_eq_some]; exact ⟨hF, hs⟩)
    exact ⟨v, h1, (hM j _ hF s v).1 h2⟩
  · rintro hh j ⟨F, s⟩ hz
    rw [List.getElem?_zip_eq_some] at hz
    obtain ⟨v, h1, h2⟩ := hh j s (by have := (List.getElem?_eq_some_iff.1 hz.1).1; omega) hz.2
    exact ⟨v, h1, (hM j F hz.1 s v).2 h2⟩

theorem colKeys_nodup (n : Nat) : (colKeys none n).Nodup := by
  unfold colKeys List.Nodup
  rw [List.pairwise_map]
  exact (List.nodup_range (n := n)).imp fun {a b} hab h0 => hab (Int.ofNat.inj h0)

theorem colKeys_get {n i : Nat} {k : Int} : (colKeys none n)[i]? = some k ↔ i < n ∧ k = i := by
  unfold colKeys
  rw [List.getElem?_map, Option.map_eq_some_iff]
  constructor
  · rintro ⟨a, ha, rfl⟩
    rw [List.getElem?_eq_some_iff] at ha
    obtain ⟨h1, h2⟩ := ha
    simp at h1 h2
    subst h2
    exact ⟨h1, rfl⟩
  · rintro ⟨h1, rfl⟩
    exact ⟨i, List.getElem?_range h1, rfl⟩

theorem dget_plain {columns : List (List Val)} {k : Int} {col : List Val} :
    dget (dictOf ((colKeys none columns.length).zip columns)) k = some col ↔
      ∃ j : Nat, k = j ∧ columns[j]? = some col := by
  rw [dget_dictOf_zip (colKeys_nodup _)]
  constructor
  · rintro ⟨i, h1, h2⟩; exact ⟨i, (colKeys_get.1 h1).2, h2⟩
  · rintro ⟨j, rfl, h⟩
    exact ⟨j, colKeys_get.2 ⟨(List.getElem?_eq_some_iff.1 h).1, rfl⟩, h⟩

/-- C41: the first line of data decides what the fields of all lines mean: number with
point, number with comma, or text.  The read fails exactly if some field does not have such
a meaning; else the columns that all lines have are read, and each value is the meaning of
its field. -/
theorem C41_column_types (fl : FloatS) (h : Hint) (f : TFile) (a : TextArgs)
    (skipped rest : List (List Char)) (first : List Char) (fs : List (List Char))
    (rs : List (List (List Char)))
    (hl : LinesOf (f.chars.drop f.pos) (skipped ++ first :: rest))
    (ha : a.names = [] ∧ a.hasnames = false ∧ a.usecols = none ∧ a.debug = false)
    (hsk : a.skiprows = skipped.length)
    (hf : HasFields (White h) a.delimiter first fs) (hr : Rows (White h) a.delimiter rest rs)
    (hc : ConvertersFit a.converters fs.length) :
    let Means := CellMeans' fl h a.stripstrings a.converters fs
    ((∃ r, textpack fl h f a = .ok r) ↔
      ∀ r ∈ fs :: rs, ∀ (j : Nat) s, j < fs.length → r[j]? = some s → ∃ v, Means j s v) ∧
    ∀ data names, textpack fl h f a = .ok (data, names) → names = [] ∧
      (∀ k, (∃ col, dget data k = some col) ↔ ∃ j : Nat, k = j ∧ ∀ r ∈ fs :: rs, j < r.length) ∧
      ∀ (j : Nat) col, dget data (j : Int) = some col →
        col.length = (fs :: rs).length ∧
        ∀ (i : Nat) r s, (fs :: rs)[i]? = some r → r[j]? = some s →
          ∃ v, col[i]? = some v ∧ Means j s v := by
  intro Means
  obtain ⟨ha1, ha2, ha3, ha4⟩ := ha
  have hnorm : a.normal = a := by simp [TextArgs.normal, ha1, ha2]
  obtain ⟨p, hskip, hl'⟩ := skip_linesOf hl
  obtain ⟨funcs, hfu, hlen, hM⟩ := funcs_means (fl := fl) (h := h) (st := a.stripstrings) hc
  obtain ⟨t1, t2⟩ := tuplesFrom_rows (hs := []) (f := { f with pos := p }) (usecols := none) hl' hf hr hfu
    (names := []) (by simp [pick, mapE])
  have hstep : textpack fl h f a =
      match tuplesFrom fl h a.delimiter none a.converters a.stripstrings [] { f with pos := p } with
      | .error e => .error e
      | .ok l => match plainData none l with
        | .error e => .error e
        | .ok data => .ok (data, []) := by
    unfold textpack
    rw [hnorm]
    dsimp only
    rw [hsk, Int.toNat_natCast, hskip]
    unfold linetuples
    simp only [ha1, ha2, ha3, ha4, Bool.false_eq_true, if_false]
    rfl
  have hrowM := fun r row => row_means (fs := r) (row := row) hlen hM
  cases hm : mapE (rowTuple fl h none funcs) (fs :: rs) with
  | error e =>
    obtain ⟨out, ho, _⟩ := t2 e hm
    have herr : textpack fl h f a = .error e := by rw [hstep, ho]; rfl
    rw [herr]
    refine ⟨?_, by simp⟩
    simp only [reduceCtorEq, exists_false, false_iff]
    intro hall
    have : ∃ out, mapE (rowTuple fl h none funcs) (fs :: rs) = .ok out := by
      apply mapE_total
      intro r hr
      unfold rowTuple
      apply mapE_total
      rintro ⟨F, s⟩ hFs
      rw [pick_none] at hFs
      obtain ⟨j, hj⟩ := List.mem_iff_getElem?.1 hFs
      rw [List.getElem?_zip_eq_some] at hj
      obtain ⟨v, hv⟩ := hall r hr j s (by have := (List.getElem?_eq_some_iff.1 hj.1).1; omega) hj.2
      exact ⟨v, (hM j F hj.1 s v).2 hv⟩
    rw [hm] at this
    simp at this
  | ok out =>
    have hok : textpack fl h f a =
        .ok (dictOf ((colKeys none (zipStar out).length).zip (zipStar out)), []) := by
      rw [hstep, t1 out hm]; rfl
    rw [mapE_ok_iff] at hm
    obtain ⟨hol, hrow⟩ := hm
    have hlenrow : ∀ m ∈ out, ∃ r ∈ fs :: rs, m.length = min fs.length r.length := by
      intro m hm
      obtain ⟨i, hi⟩ := List.mem_iff_getElem?.1 hm
      have hlt := (List.getElem?_eq_some_iff.1 hi).1
      rw [hol] at hlt
      obtain ⟨m', h1, h2⟩ := hrow i _ (List.getElem?_eq_getElem hlt)
      rw [hi] at h1
      simp only [Option.some.injEq] at h1
      subst h1
      exact ⟨_, List.getElem_mem hlt, ((hrowM _ _).1 h2).1⟩
    rw [hok]
    refine ⟨⟨fun _ => ?_, fun _ => ⟨_, rfl⟩⟩, ?_⟩
    · intro r hr j s hj hs
      obtain ⟨i, hi⟩ := List.mem_iff_getElem?.1 hr
      obtain ⟨row, h1, h2⟩ := hrow i r hi
      obtain ⟨v, _, hv⟩ := ((hrowM _ _).1 h2).2 j s hj hs
      exact ⟨v, hv⟩
    · intro data names he
      simp only [Except.ok.injEq, Prod.mk.injEq] at he
      obtain ⟨rfl, rfl⟩ := he
      refine ⟨rfl, ?_, ?_⟩
      · intro k
        simp only [dget_plain]
        constructor
        · rintro ⟨col, j, rfl, hcol⟩
          refine ⟨j, rfl, ?_⟩
          rw [zipStar_get] at hcol
          intro r hr
          obtain ⟨i, hi⟩ := List.mem_iff_getElem?.1 hr
          obtain ⟨row, h1, h2⟩ := hrow i r hi
          have h3 := hcol.2.1 row (List.mem_of_getElem? h1)
          have := ((hrowM _ _).1 h2).1
          omega
        · rintro ⟨j, rfl, hall⟩
          have hex : j < (zipStar out).length := by
            cases out with
            | nil => simp at hol
            | cons o os =>
              unfold zipStar
              simp only [List.length_map, List.length_range]
              rw [lt_minLength]
              intro m hm
              obtain ⟨r, hr, hrl⟩ := hlenrow m hm
              have h1 := hall r hr
              have h2 := hall fs (by simp)
              omega
          exact ⟨(zipStar out)[j], j, rfl, List.getElem?_eq_getElem hex⟩
      · intro j col hcol
        rw [dget_plain] at hcol
        obtain ⟨j', hj', hcol⟩ := hcol
        have : j' = j := by omega
        subst this
        rw [zipStar_get] at hcol
        obtain ⟨_, h2, h3, h4⟩ := hcol
        refine ⟨by rw [h3, hol], ?_⟩
        intro i r s hr hs
        obtain ⟨row, h5, h6⟩ := hrow i r hr
        have hjr := h2 row (List.mem_of_getElem? h5)
        have h7 := (hrowM _ _).1 h6
        obtain ⟨v, hv, hmv⟩ := h7.2 j' s (by omega) hs
        exact ⟨v, by rw [h4, h5]; exact hv, hmv⟩

/-- C37: a rectangular table is read: each column under its number, the values in the order
of the rows; the lines of padding between are ignored.  (Not all blank lines are, see
`C37_tab_line_counterexample`; this is missing.) -/
theorem C37_table_read_partial (fl : FloatS) (h : Hint) (f : TFile) (a : TextArgs)
    (skipped rest : List (List Char)) (first : List Char) (fs : List (List Char))
    (rs : List (List (List Char)))
    (hl : LinesOf (f.chars.drop f.pos) (skipped ++ first :: rest))
    (ha : a.names = [] ∧ a.hasnames = false ∧ a.usecols = none ∧ a.debug = false)
    (hsk : a.skiprows = skipped.length)
    (hf : HasFields (White h) a.delimiter first fs) (hr : Rows (White h) a.delimiter rest rs)
    (hc : ConvertersFit a.converters fs.length)
    (hrect : ∀ r ∈ rs, r.length = fs.length)
    (hv : ∀ r ∈ fs :: rs, ∀ (j : Nat) s, r[j]? = some s →
      ∃ v, CellMeans' fl h a.stripstrings a.converters fs j s v) :
    ∃ data, textpack fl h f a = .ok (data, []) ∧
      (∀ k, (∃ col, dget data k = some col) ↔ 0 ≤ k ∧ k < fs.length) ∧
      ∀ (j : Nat) col, dget data (j : Int) = some col →
        col.length = (fs :: rs).length ∧
        ∀ (i : Nat) r s, (fs :: rs)[i]? = some r → r[j]? = some s →
          ∃ v, col[i]? = some v ∧ CellMeans' fl h a.stripstrings a.converters fs j s v := by
  obtain ⟨h1, h2⟩ := C41_column_types fl h f a skipped rest first fs rs hl ha hsk hf hr hc
  obtain ⟨⟨data, names⟩, hok⟩ := h1.2 (fun r hr j s _ hs => hv r hr j s hs)
  obtain ⟨rfl, h3, h4⟩ := h2 data names hok
  refine ⟨data, hok, ?_, h4⟩
  intro k
  rw [h3]
  constructor
  · rintro ⟨j, rfl, hj⟩
    have := hj fs (by simp)
    omega
  · rintro ⟨k0, k1⟩
    refine ⟨k.toNat, by omega, ?_⟩
    intro r hr
    rcases List.mem_cons.1 hr with rfl | hr
    · omega
    · rw [hrect r hr]; omega

/-! ### a float parser and a text for the examples -/

/-- Digits, at most one point: enough for the examples. -/
def exFloat : FloatS := fun s =>
  if s = [] ∨ ¬ s.all (fun c => c.isDigit || c = '.') ∨ s.count '.' > 1 ∨ ¬ s.any (·.isDigit) then none
  else
    let whole := s.takeWhile (· ≠ '.')
    let frac := (s.dropWhile (· ≠ '.')).drop 1
    some (.flt ((((whole ++ frac).foldl (fun n c => n * 10 + (c.toNat - 48)) 0 : Nat) : Rat) / ((10 ^ frac.length : Nat) : Rat)))

/-- A header line, two rows with a blank line between. -/
def exText : List Char := "# head\n1;2,5;a b\n \t\n3;;x\n".toList

example : textpack exFloat .text ⟨exText, 0⟩ { delimiter := some [';'], skiprows := 1 } =
    .ok ([(0, [.flt 1, .flt 3]), (1, [.flt (5 / 2), .nan]), (2, [.str "a b".toList, .str ['x']])], []) := by
  decide +kernel

/-- The hypotheses of C37 and C41 hold of the example. -/
example : LinesOf exText (["# head\n".toList] ++ "1;2,5;a b\n".toList :: [" \t\n".toList, "3;;x\n".toList]) ∧
    HasFields (White .text) (some [';']) "1;2,5;a b\n".toList [['1'], "2,5".toList, "a b".toList] ∧
    Rows (White .text) (some [';']) [" \t\n".toList, "3;;x\n".toList] [[['3'], [], ['x']]] := by
  have nd : ∀ f : List Char, ';' ∉ f → NoDelim [';'] f := by
    intro f hf u v huv
    cases hv : v.reverse with
    | nil => simpa using hv
    | cons y ys =>
      exfalso
      have e : v = ys.reverse ++ [y] := by
        have := congrArg List.reverse hv
        simpa using this
      subst e
      have h2 : f ++ [';'] = (u ++ [';'] ++ ys.reverse) ++ [y] := by rw [huv]; simp
      have h3 := List.append_inj_left' h2 rfl
      exact hf (by rw [h3]; simp)
  have pad : ∀ c ∈ ([' ', '\t', '\n'] : List Char), Pad (some [';']) c := by
    intro c hc
    refine ⟨by simp [whites] at hc ⊢; grind, ?_⟩
    rintro ⟨u, v, h⟩
    have : ';' ∈ whites := by rw [← h]; simp
    simp [whites] at this
  have np : ∀ c, c ∉ whites → ¬ Pad (some [';']) c := fun c hc h => hc h.1
  refine ⟨?_, ?_, ?_⟩
  · exact .cons (l := "# head".toList) (by decide) (.cons (l := "1;2,5;a b".toList) (by decide)
      (.cons (l := " \t".toList) (by decide) (.cons (l := "3;;x".toList) (by decide) .nil)))
  · refine .delim (d := [';']) (pre := []) (post := ['\n']) (by decide) (fs := [['1'], "2,5".toList, "a b".toList]) (by decide) ?_ (by simp [AllPad]) ?_
      (by decide) ?_ ?_
    · intro f hf
      simp only [List.mem_cons, List.not_mem_nil, or_false] at hf
      rcases hf with rfl | rfl | rfl <;> exact nd _ (by decide)
    · intro c hc; exact pad c (by simp at hc ⊢; grind)
    · intro c hc
      have : c = '1' := by simpa [joined] using hc.symm
      subst this; exact np _ (by decide)
    · intro c hc
      have : c = 'b' := by simpa [joined] using hc.symm
      subst this; exact np _ (by decide)
  · refine .blank (fun c hc => pad c (by simpa using hc)) (.row ?_ .nil)
    refine .delim (d := [';']) (pre := []) (post := ['\n']) (by decide) (fs := [['3'], [], ['x']]) (by decide) ?_ (by simp [AllPad]) ?_
      (by decide) ?_ ?_
    · intro f hf
      simp only [List.mem_cons, List.not_mem_nil, or_false] at hf
      rcases hf with rfl | rfl | rfl <;> exact nd _ (by decide)
    · intro c hc; exact pad c (by simp at hc ⊢; grind)
    · intro c hc
      have : c = '3' := by simpa [joined] using hc.symm
      subst this; exact np _ (by decide)
    · intro c hc
      have : c = 'x' := by simpa [joined] using hc.symm
      subst this; exact np _ (by decide)

/-- Without a delimiter, a line with nothing but a tab is not ignored: it is a row without
fields, and all data is lost. -/
theorem C37_tab_line_counterexample :
    textpack exFloat .text ⟨"1 2\n3 4\n".toList, 0⟩ {} =
      .ok ([(0, [.flt 1, .flt 3]), (1, [.flt 2, .flt 4])], []) ∧
    textpack exFloat .text ⟨"1 2\n\t\n3 4\n".toList, 0⟩ {} = .ok ([], []) := by
  constructor <;> decide +kernel

/-! ## C38: selected columns -/

/-- Strictly increasing column numbers, none negative. -/
def Ascending (cols : List Int) : Prop := cols.Pairwise (· < ·) ∧ ∀ c ∈ cols, 0 ≤ c

theorem pickFrom_get {α : Type} {cols : List Int} (hp : cols.Pairwise (· < ·)) {n : Nat}
    (hge : ∀ c ∈ cols, (n : Int) ≤ c) (l : List α) (i : Nat) :
    (((l.zipIdx n).filter fun p => keepCol (some cols) p.2).map Prod.fst)[i]? =
      (cols[i]?).bind fun c => l[c.toNat - n]? := by
  induction l generalizing n cols i with
  | nil => simp
  | cons x xs ih =>
    rw [List.zipIdx_cons]
    by_cases hm : (n : Int) ∈ cols
    · cases cols with
      | nil => simp at hm
      | cons c cs =>
        rw [List.pairwise_cons] at hp
        have hc : c = n := by
          rcases List.mem_cons.1 hm with h | h
          · exact h.symm
          · have h1 := hp.1 _ h
            have h2 := hge c (by simp)
            omega
        subst hc
        rw [List.filter_cons_of_pos (by simp [keepCol])]
        have hcs : ∀ c ∈ cs, ((n + 1 : Nat) : Int) ≤ c := by
          intro c hc; have := hp.1 c hc; omega
        have hfil : ((xs.zipIdx (n + 1)).filter fun p => keepCol (some ((n : Int) :: cs)) p.2) =
            (xs.zipIdx (n + 1)).filter fun p => keepCol (some cs) p.2 := by
          apply List.filter_congr
          rintro ⟨y, m⟩ hy
          have := List.le_snd_of_mem_zipIdx hy
          simp only [keepCol, List.mem_cons, decide_eq_decide]
          constructor
          · rintro (h | h)
            · simp only at this; omega
            · exact h
          · exact .inr
        rw [hfil, List.map_cons]
        cases i with
        | zero => simp
        | succ i =>
          rw [List.getElem?_cons_succ, List.getElem?_cons_succ, ih hp.2 hcs]
          cases hi : cs[i]? with
          | none => rfl
          | some c =>
            have := hcs c (List.mem_of_getElem? hi)
            simp only [Option.bind_some]
            rw [show c.toNat - n = (c.toNat - (n + 1)) + 1 by omega, List.getElem?_cons_succ]
    · rw [List.filter_cons_of_neg (by simp [keepCol, hm])]
      have hcs : ∀ c ∈ cols, ((n + 1 : Nat) : Int) ≤ c := by
        intro c hc
        have := hge c hc
        have : c ≠ n := by rintro rfl; exact hm hc
        omega
      rw [ih hp hcs]
      cases hi : cols[i]? with
      | none => rfl
      | some c =>
        have := hcs c (List.mem_of_getElem? hi)
        simp only [Option.bind_some]
        rw [show c.toNat - n = (c.toNat - (n + 1)) + 1 by omega, List.getElem?_cons_succ]

theorem pick_get {α : Type} {cols : List Int} (h : Ascending cols) (l : List α) (i : Nat) :
    (pick (some cols) l)[i]? = (cols[i]?).bind fun c => l[c.toNat]? := by
  have := pickFrom_get h.1 (n := 0) (by simpa using h.2) l i
  simpa [pick] using this

theorem mapE_pickFrom {α β : Type} {f : α → Except Exc β} {u : Option (List Int)} {l : List α} {r : List β}
    (h : mapE f l = .ok r) (n : Nat) :
    mapE f (((l.zipIdx n).filter fun p => keepCol u p.2).map Prod.fst) =
      .ok (((r.zipIdx n).filter fun p => keepCol u p.2).map Prod.fst) := by
  induction l generalizing r n with
  | nil => simp [mapE] at h; subst h; rfl
  | cons x xs ih =>
    rw [mapE] at h
    cases hx : f x with
    | error e => rw [hx] at h; simp at h
    | ok y =>
      rw [hx] at h
      cases hxs : mapE f xs with
      | error e => rw [hxs] at h; simp at h
      | ok ys =>
        rw [hxs] at h
        simp only [Except.ok.injEq] at h
        subst h
        rw [List.zipIdx_cons, List.zipIdx_cons]
        by_cases hk : keepCol u n = true
        · rw [List.filter_cons_of_pos (by exact hk), List.filter_cons_of_pos (by exact hk),
            List.map_cons, List.map_cons, mapE, hx, ih hxs]
        · rw [List.filter_cons_of_neg (by exact hk), List.filter_cons_of_neg (by exact hk), ih hxs]

theorem mapE_pick {α β : Type} {f : α → Except Exc β} {u : Option (List Int)} {l : List α} {r : List β}
    (h : mapE f l = .ok r) : mapE f (pick u l) = .ok (pick u r) := mapE_pickFrom h 0

theorem rowTuple_pick {fl : FloatS} {h : Hint} {u : Option (List Int)} {funcs : List Func}
    {vals : List (List Char)} {row : List Val} (hr : rowTuple fl h none funcs vals = .ok row) :
    rowTuple fl h u funcs vals = .ok (pick u row) := by
  unfold rowTuple at *
  rw [pick_none] at hr
  exact mapE_pick hr

theorem dataRows_pick {fl : FloatS} {h : Hint} {d : Option (List Char)} {u : Option (List Int)}
    {funcs : List Func} {ls : List (List Char)} {out : List (List Val)}
    (hr : dataRows fl h d none funcs ls = (out, none)) :
    dataRows fl h d u funcs ls = (out.map (pick u), none) := by
  induction ls generalizing out with
  | nil => simp [dataRows] at hr ⊢; exact hr
  | cons l ls ih =>
    rw [dataRows] at hr ⊢
    dsimp only at hr ⊢
    split
    · rename_i hs; rw [if_pos hs] at hr; exact ih hr
    · rename_i hs
      rw [if_neg hs] at hr
      cases hp : pySplit h.ws d (stripBy (fun x => decide (x ∈ stripchars d)) l) with
      | error e => rw [hp] at hr; simp at hr
      | ok vals =>
        rw [hp] at hr
        dsimp only at hr ⊢
        cases hrow : rowTuple fl h none funcs vals with
        | error e => rw [hrow] at hr; simp at hr
        | ok row =>
          rw [hrow] at hr
          simp only [Prod.mk.injEq] at hr
          obtain ⟨h1, h2⟩ := hr
          subst h1
          rw [rowTuple_pick hrow]
          dsimp only
          rw [ih (out := (dataRows fl h d none funcs ls).1) (Prod.ext rfl h2)]
          rfl

theorem tuplesFrom_pick {fl : FloatS} {h : Hint} {d : Option (List Char)} {u : Option (List Int)}
    {convs : List (Int × (List Char → Except Exc Val))} {st : Bool} {hs : List (List Char)} {f : TFile}
    {names : List Val} {out : List (List Val)}
    (hr : tuplesFrom fl h d none convs st hs f = .ok ⟨names, out, none⟩) :
    tuplesFrom fl h d u convs st hs f = .ok ⟨pick u names, out.map (pick u), none⟩ ∧ out ≠ [] := by
  unfold tuplesFrom at hr ⊢
  dsimp only at hr ⊢
  split at hr
  · simp at hr
  · rename_i vals hv
    split at hr
    · simp at hr
    · rename_i funcs hfu
      split at hr
      · simp at hr
      · rename_i ns hns
        rw [pick_none] at hns
        split at hr
        · simp at hr
        · rename_i row hrow
          simp only [Except.ok.injEq, Lines.mk.injEq] at hr
          obtain ⟨rfl, rfl, h3⟩ := hr
          refine ⟨?_, by simp⟩
          rw [mapE_pick hns]
          dsimp only
          rw [rowTuple_pick hrow]
          dsimp only
          rw [dataRows_pick (Prod.ext rfl h3)]
          rfl

theorem linetuples_pick {fl : FloatS} {h : Hint} {d : Option (List Char)} {u : Option (List Int)}
    {convs : List (Int × (List Char → Except Exc Val))} {st hasnames : Bool} {f : TFile}
    {names : List Val} {out : List (List Val)}
    (hr : linetuples fl h d none convs st hasnames f = .ok ⟨names, out, none⟩) :
    linetuples fl h d u convs st hasnames f = .ok ⟨pick u names, out.map (pick u), none⟩ ∧ out ≠ [] := by
  unfold linetuples at hr ⊢
  cases hasnames with
  | false => exact tuplesFrom_pick hr
  | true =>
    dsimp only at hr ⊢
    rw [if_pos rfl] at hr ⊢
    cases hh : headerFields h d f.readline.1 with
    | error e => rw [hh] at hr; simp at hr
    | ok hs => rw [hh] at hr; exact tuplesFrom_pick hr

theorem ascending_nodup {cols : List Int} (h : Ascending cols) : cols.Nodup :=
  h.1.imp fun h => by omega

/-- The dict of the picked elements is the dict of all of them, for the columns asked for. -/
theorem dget_picked {α : Type} {cols : List Int} (h : Ascending cols) (l : List α) (k : Int) :
    dget (dictOf ((colKeys (some cols) (pick (some cols) l).length).zip (pick (some cols) l))) k =
      if k ∈ cols then dget (dictOf ((colKeys none l.length).zip l)) k else none := by
  have e1 : ∀ x, dget (dictOf ((colKeys (some cols) (pick (some cols) l).length).zip (pick (some cols) l))) k =
      some x ↔ k ∈ cols ∧ l[k.toNat]? = some x := by
    intro x
    rw [dget_dictOf_zip (by exact ascending_nodup h)]
    constructor
    · rintro ⟨i, h1, h2⟩
      rw [pick_get h] at h2
      have h1' : cols[i]? = some k := h1
      rw [h1'] at h2
      exact ⟨List.mem_of_getElem? h1', h2⟩
    · rintro ⟨h1, h2⟩
      obtain ⟨i, hi⟩ := List.mem_iff_getElem?.1 h1
      exact ⟨i, hi, by rw [pick_get h, hi]; exact h2⟩
  have e2 : ∀ x, 0 ≤ k → (dget (dictOf ((colKeys none l.length).zip l)) k = some x ↔
      l[k.toNat]? = some x) := by
    intro x hk
    rw [dget_dictOf_zip (colKeys_nodup _)]
    constructor
    · rintro ⟨i, h1, h2⟩
      have := (colKeys_get.1 h1).2
      rwa [show k.toNat = i by omega]
    · intro h2
      exact ⟨k.toNat, colKeys_get.2 ⟨(List.getElem?_eq_some_iff.1 h2).1, by omega⟩, h2⟩
  apply Option.ext
  intro x
  rw [e1]
  split
  · rename_i hk
    rw [e2 x (h.2 k hk)]
    simp [hk]
  · rename_i hk; simp [hk]

/-- The columns of the picked rows are the picked columns. -/
theorem zipStar_pick {cols : List Int} (h : Ascending cols) {out : List (List Val)} (hne : out ≠ []) :
    zipStar (out.map (pick (some cols))) = pick (some cols) (zipStar out) := by
  apply List.ext_getElem?
  intro i
  apply Option.ext
  intro col
  rw [zipStar_get, pick_get h]
  have hlt : ∀ m : List Val, i < (pick (some cols) m).length ↔ ∃ c, cols[i]? = some c ∧ c.toNat < m.length := by
    intro m
    constructor
    · intro hi
      have h1 := pick_get h m i
      rw [List.getElem?_eq_getElem hi] at h1
      cases hc : cols[i]? with
      | none => rw [hc] at h1; simp at h1
      | some c =>
        rw [hc, Option.bind_some] at h1
        exact ⟨c, rfl, (List.getElem?_eq_some_iff.1 h1.symm).1⟩
    · rintro ⟨c, hc, hl⟩
      have h1 := pick_get h m i
      rw [hc, Option.bind_some, List.getElem?_eq_getElem hl] at h1
      exact (List.getElem?_eq_some_iff.1 h1).1
  cases hc : cols[i]? with
  | none =>
    simp only [Option.bind_none, reduceCtorEq, iff_false]
    rintro ⟨_, h2, _⟩
    obtain ⟨m, ms, rfl⟩ := List.exists_cons_of_ne_nil hne
    have := h2 (pick (some cols) m) (by simp)
    rw [hlt, hc] at this
    simp at this
  | some c =>
    rw [Option.bind_some, zipStar_get]
    have hg : ∀ r : Nat, ((out.map (pick (some cols)))[r]?).bind (·[i]?) = (out[r]?).bind (·[c.toNat]?) := by
      intro r
      rw [List.getElem?_map]
      cases out[r]? with
      | none => rfl
      | some m => simp only [Option.map_some, Option.bind_some]; rw [pick_get h, hc]; rfl
    simp only [hg, List.length_map, ne_eq, List.map_eq_nil_iff, hne, not_false_eq_true, true_and]
    apply and_congr_left
    intro _
    constructor
    · intro h2 m hm
      have := h2 (pick (some cols) m) (List.mem_map.2 ⟨m, hm, rfl⟩)
      rw [hlt, hc] at this
      simpa using this
    · intro h2 m hm
      obtain ⟨m', hm', rfl⟩ := List.mem_map.1 hm
      rw [hlt, hc]
      exact ⟨c, rfl, h2 m' hm'⟩

/-- C38, for strictly increasing column numbers (the full statement, for all sequences, is
false, see `C38_counterexample`): a read of some columns gives what the read of all has under
those keys; the names as well. -/
theorem C38_usecols_partial (fl : FloatS) (h : Hint) (f : TFile) (a : TextArgs) (cols : List Int)
    (hasc : Ascending cols) (ha : a.names = [] ∧ a.usecols = none ∧ a.debug = false)
    (data : List (Int × List Val)) (names : List (Int × Val))
    (hp : textpack fl h f a = .ok (data, names)) :
    ∃ data' names', textpack fl h f { a with usecols := some cols } = .ok (data', names') ∧
      (∀ k, dget data' k = if k ∈ cols then dget data k else none) ∧
      (∀ k, dget names' k = if k ∈ cols then dget names k else none) := by
  obtain ⟨ha1, ha2, ha3⟩ := ha
  have hn2 : ({ a with usecols := some cols } : TextArgs).normal = { a.normal with usecols := some cols } := by
    unfold TextArgs.normal
    simp only [ha1, ne_eq, not_true_eq_false, if_false]
    split <;> simp [ha1]
  have hn1 : a.normal.usecols = none ∧ a.normal.debug = false ∧ a.normal.names = [] := by
    unfold TextArgs.normal
    simp only [ha1, ne_eq, not_true_eq_false, if_false]
    split <;> simp [ha1, ha2, ha3]
  unfold textpack at hp ⊢
  rw [hn2]
  generalize a.normal = b at hp hn1 ⊢
  obtain ⟨hb1, hb2, hb3⟩ := hn1
  dsimp only at hp ⊢
  simp only [hb1, hb2, hb3, Bool.false_eq_true, if_false] at hp ⊢
  split at hp
  · simp at hp
  · rename_i l hl
    obtain ⟨ns, out, exc⟩ := l
    cases exc with
    | some e => simp [plainData] at hp
    | none =>
      obtain ⟨h1, h2⟩ := linetuples_pick (u := some cols) hl
      rw [h1]
      simp only [plainData] at hp ⊢
      simp only [Except.ok.injEq, Prod.mk.injEq] at hp
      obtain ⟨rfl, rfl⟩ := hp
      refine ⟨_, _, rfl, ?_, ?_⟩
      · intro k
        rw [zipStar_pick hasc h2, dget_picked hasc]
      · intro k
        cases hh : b.hasnames with
        | true => simp only [if_true]; rw [dget_picked hasc]
        | false => simp [dget]

theorem C38_counterexample :
    textpack exFloat .text ⟨"1;2\n3;4\n".toList, 0⟩ { delimiter := some [';'] } =
      .ok ([(0, [.flt 1, .flt 3]), (1, [.flt 2, .flt 4])], []) ∧
    textpack exFloat .text ⟨"1;2\n3;4\n".toList, 0⟩ { delimiter := some [';'], usecols := some [1, 0] } =
      .ok ([(1, [.flt 1, .flt 3]), (0, [.flt 2, .flt 4])], []) := by
  constructor <;> decide +kernel

example : textpack exFloat .text ⟨exText, 0⟩
    { delimiter := some [';'], skiprows := 1, usecols := some [0, 2, 7], stripstrings := true } =
    .ok ([(0, [.flt 1, .flt 3]), (2, [.str "a b".toList, .str ['x']])], []) := by
  decide +kernel

end CP
