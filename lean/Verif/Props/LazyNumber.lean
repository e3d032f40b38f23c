import Verif.Spec.LazyNumber
import Verif.Props.Lazy
import Verif.Props.TextNumber
/-!
# C89: lazy_textpack gives numbers
-/

namespace CP
open Spec

/-! ### The values of a converter -/

theorem floatText_numeric {s : List Char} {v : Val} (h : floatText s = some v) : Numeric v := by
  unfold floatText at h
  dsimp only at h
  split at h
  · exact .inr (.inl (Option.some.inj h).symm)
  split at h
  · exact .inr (.inr ⟨_, (Option.some.inj h).symm⟩)
  split at h
  · simp at h
  · obtain ⟨q, -, hq⟩ := Option.map_eq_some_iff.1 h
    subst hq
    generalize (if (takeSign s).1 = true then -q else q) = r
    unfold f64Val
    split
    · exact .inr (.inr ⟨_, rfl⟩)
    · exact .inl ⟨_, rfl⟩

theorem float_numeric {h : Hint} {dec : Char → Option Nat} {s : List Char} {v : Val} (hv : h.float dec s = some v) : Numeric v := by
  cases h <;> exact floatText_numeric hv

theorem floatit_numeric {h : Hint} {dec : Char → Option Nat} {s : List Char} {v : Val}
    (hv : Func.floatit.apply (h.float dec) h s = .ok v) : Numeric v := by
  simp only [Func.apply] at hv
  split at hv
  · exact float_numeric (floatE_ok.1 hv)
  · cases hv; exact .inr (.inl rfl)

theorem maybenan_numeric {h : Hint} {dec : Char → Option Nat} {s : List Char} {v : Val}
    (hv : Func.maybenan.apply (h.float dec) h s = .ok v) : Numeric v := by
  simp only [Func.apply] at hv
  split at hv
  · exact float_numeric (floatE_ok.1 hv)
  · cases hv; exact .inr (.inl rfl)

theorem text_textual {fl : FloatS} {h : Hint} {st : Bool} {s : List Char} {v : Val}
    (hv : (textFunc h st).apply fl h s = .ok v) : Textual v := by
  obtain ⟨t, -, hv⟩ := textFunc_means.1 hv
  cases h with
  | text => exact .inl ⟨_, hv⟩
  | bytes => exact .inr ⟨_, hv⟩
  | codec d => obtain ⟨u, -, hv⟩ := hv; exact .inl ⟨_, hv⟩

theorem textual_not_numeric {v : Val} (h : Textual v) : ¬ Numeric v := by
  rcases h with ⟨s, rfl⟩ | ⟨s, rfl⟩ <;> rintro (⟨q, h⟩ | h | ⟨n, h⟩) <;> cases h

/-! ### The channels of a stream -/

theorem dataRows_mem {fl : FloatS} {h : Hint} {d : Option (List Char)} {u : Option (List Int)} {funcs : List Func}
    {ls : List (List Char)} {out : List (List Val)} (hr : dataRows fl h d u funcs ls = (out, none)) :
    ∀ row ∈ out, ∃ vals, rowTuple fl h u funcs vals = .ok row := by
  induction ls generalizing out with
  | nil =>
    simp only [dataRows, Prod.mk.injEq] at hr
    rw [← hr.1]; simp
  | cons l ls ih =>
    unfold dataRows at hr
    dsimp only at hr
    split at hr
    · exact ih hr
    · split at hr
      · simp at hr
      · split at hr
        · simp at hr
        · rename_i vals _ _ row hrow
          simp only [Prod.mk.injEq] at hr
          obtain ⟨rfl, h2⟩ := hr
          intro r hr'
          rcases List.mem_cons.1 hr' with rfl | hr'
          · exact ⟨vals, hrow⟩
          · exact ih (Prod.ext rfl h2) r hr'

theorem range_get {n i : Nat} {k : Int} : ((List.range n).map Int.ofNat)[i]? = some k ↔ i < n ∧ k = i := by
  rw [List.getElem?_map, Option.map_eq_some_iff]
  constructor
  · rintro ⟨j, h1, rfl⟩
    obtain ⟨h2, h3⟩ := List.getElem?_eq_some_iff.1 h1
    rw [List.getElem_range] at h3
    subst h3
    exact ⟨by simpa using h2, rfl⟩
  · rintro ⟨h1, rfl⟩; exact ⟨i, by rw [List.getElem?_range h1], rfl⟩

theorem rowTuple_get {fl : FloatS} {h : Hint} {n : Nat} {funcs : List Func} {vals : List (List Char)} {row : List Val}
    (hr : rowTuple fl h (some ((List.range n).map Int.ofNat)) funcs vals = .ok row) {j : Nat} {v : Val} (hv : row[j]? = some v) :
    j < n ∧ ∃ F s, funcs[j]? = some F ∧ vals[j]? = some s ∧ F.apply fl h s = .ok v := by
  unfold rowTuple at hr
  obtain ⟨h1, h2⟩ := mapE_ok_iff.1 hr
  have hj : j < row.length := (List.getElem?_eq_some_iff.1 hv).1
  rw [h1] at hj
  obtain ⟨⟨F, s⟩, hp⟩ : ∃ p, (pick (some ((List.range n).map Int.ofNat)) (funcs.zip vals))[j]? = some p :=
    ⟨_, List.getElem?_eq_getElem hj⟩
  obtain ⟨w, h3, h4⟩ := h2 j _ hp
  rw [hv] at h3
  cases h3
  rw [pick_get (ascending_range n), Option.bind_eq_some_iff] at hp
  obtain ⟨c, h5, h6⟩ := hp
  obtain ⟨h7, rfl⟩ := range_get.1 h5
  rw [Int.toNat_natCast, List.getElem?_zip_eq_some] at h6
  exact ⟨h7, F, s, h6.1, h6.2, h4⟩

theorem sortInts_range {l : List Int} {n : Nat} (h : l = (List.range n).map Int.ofNat) : sortInts l = l := by
  refine (sortInts_perm l).eq_of_pairwise (le := fun a b => a ≤ b) (fun a b _ _ => by omega) (sortInts_sorted l) ?_
  rw [h]
  exact (ascending_range n).1.imp fun h => by omega

/-- The channels of a stream read with the first `n` columns: each is made by the function for its column. -/
theorem textpack_channels {fl : FloatS} {h : Hint} {f : TFile} {a : TextArgs} {n : Nat} {data : List (Int × List Val)}
    {names : List (Int × Val)} (hok : textpack fl h f a = .ok (data, names)) (h1 : a.debug = false) (h2 : a.hasnames = false)
    (h3 : a.usecols = some ((List.range n).map Int.ofNat)) (h4 : a.names = [] ∨ dkeys a.names = (List.range n).map Int.ofNat) :
    ∃ firstvals funcs,
      pySplit h.ws a.delimiter (stripBy (· ∈ stripchars a.delimiter) (f.skip a.skiprows.toNat).readline.1) = .ok firstvals ∧
      setConverters (unifyFuncs (firstvals.map (funcOf fl h a.stripstrings))) a.converters = .ok funcs ∧
      ∀ k col, dget data k = some col → col ≠ [] ∧ ∃ j : Nat, k = j ∧ j < n ∧
        ∃ F, funcs[j]? = some F ∧ ∀ v ∈ col, ∃ s, F.apply fl h s = .ok v := by
  have hn : a.normal = a := by
    unfold TextArgs.normal
    split
    · rename_i hne
      have hk := h4.resolve_left hne
      rw [sortInts_range hk, hk]
      cases a; simp_all
    · simp [h2]
  unfold textpack at hok
  rw [hn] at hok
  dsimp only at hok
  unfold linetuples at hok
  simp only [h1, h2, Bool.false_eq_true, if_false] at hok
  unfold tuplesFrom at hok
  dsimp only at hok
  cases hs : pySplit h.ws a.delimiter (stripBy (· ∈ stripchars a.delimiter) (f.skip a.skiprows.toNat).readline.1) with
  | error e => simp [hs] at hok
  | ok firstvals =>
    simp only [hs] at hok
    cases hc : setConverters (unifyFuncs (firstvals.map (funcOf fl h a.stripstrings))) a.converters with
    | error e => simp [hc] at hok
    | ok funcs =>
      refine ⟨firstvals, funcs, rfl, hc, ?_⟩
      simp only [hc, List.take_nil] at hok
      have hp : pick a.usecols ([] : List (List Char)) = [] := by simp [pick]
      rw [hp] at hok
      simp only [mapE] at hok
      cases hr : rowTuple fl h a.usecols funcs firstvals with
      | error e => simp [hr, plainData] at hok
      | ok row =>
        simp only [hr] at hok
        generalize hd : dataRows fl h a.delimiter a.usecols funcs
          ((fileLines ((f.skip a.skiprows.toNat).readline.2.chars.drop (f.skip a.skiprows.toNat).readline.2.pos))) = out at hok
        obtain ⟨out, exc⟩ := out
        cases exc with
        | some e => simp [plainData] at hok
        | none =>
          simp only [plainData] at hok
          cases hok
          intro k col hcol
          rw [h3] at hcol hr hd
          simp only [colKeys] at hcol
          rw [dget_dictOf_zip (ascending_nodup (ascending_range n))] at hcol
          obtain ⟨i, hi1, hi2⟩ := hcol
          obtain ⟨hin, rfl⟩ := range_get.1 hi1
          obtain ⟨-, hz1, hz2, hz3⟩ := (zipStar_get _).1 hi2
          have hrows : ∀ r ∈ row :: out, ∃ vals, rowTuple fl h (some ((List.range n).map Int.ofNat)) funcs vals = .ok r := by
            intro r hr'
            rcases List.mem_cons.1 hr' with rfl | hr'
            · exact ⟨_, hr⟩
            · exact dataRows_mem hd r hr'
          have hne : col ≠ [] := by
            intro h0; rw [h0] at hz2; simp at hz2
          have hF : ∃ F, funcs[i]? = some F := by
            have hl := hz1 row (List.mem_cons_self ..)
            obtain ⟨-, F, -, h5, -⟩ := rowTuple_get hr (List.getElem?_eq_getElem hl)
            exact ⟨F, h5⟩
          obtain ⟨F, hF⟩ := hF
          refine ⟨hne, i, rfl, hin, F, hF, fun v hv => ?_⟩
          obtain ⟨m, hm⟩ := List.mem_iff_getElem?.1 hv
          rw [hz3, Option.bind_eq_some_iff] at hm
          obtain ⟨r, hm1, hm2⟩ := hm
          obtain ⟨vals, hvals⟩ := hrows r (List.mem_of_getElem? hm1)
          obtain ⟨-, G, s, h5, -, h6⟩ := rowTuple_get hvals hm2
          rw [hF] at h5
          cases h5
          exact ⟨s, h6⟩

theorem setConverters_same {g : List Char → Except Exc Val} {keys : List Nat} {funcs funcs' : List Func}
    (h : setConverters funcs (keys.map fun c => (Int.ofNat c, g)) = .ok funcs') :
    funcs'.length = funcs.length ∧ (∀ (j : Nat) F, funcs'[j]? = some F → j ∈ keys ∨ funcs[j]? = some (.given g) → F = .given g) := by
  induction keys generalizing funcs with
  | nil =>
    simp only [List.map_nil, setConverters] at h
    cases h
    refine ⟨rfl, fun j F h1 h2 => ?_⟩
    rcases h2 with h2 | h2
    · simp at h2
    · rw [h1] at h2; exact Option.some.inj h2
  | cons c keys ih =>
    simp only [List.map_cons, setConverters] at h
    unfold setFunc at h
    have hc : ¬ (Int.ofNat c < 0) := by simp
    simp only [if_neg hc] at h
    split at h
    · simp at h
    · rename_i funcs₁ hf
      split at hf
      · simp at hf
      · rename_i hb
        cases hf
        obtain ⟨h1, h2⟩ := ih h
        refine ⟨by rw [h1, List.length_set], fun j F hF hj => h2 j F hF ?_⟩
        by_cases hjc : j = c
        · right
          subst hjc
          have : j < funcs.length := by
            simp only [Int.ofNat_eq_natCast] at hb; omega
          simp [this]
        · rcases hj with hj | hj
          · rcases List.mem_cons.1 hj with hj | hj
            · exact absurd hj hjc
            · exact .inl hj
          · right
            have : c ≠ j := fun h => hjc h.symm
            simpa [List.getElem?_set, this] using hj

/-! ### What `lazy_textpack` reads -/

theorem lookedAt_lines {codec : Option Codec} {f : TFile} {n : Nat} {lines lines' : List (List Char)} (h : LookedAt codec f n lines)
    (h' : lazyLines codec n f = .ok lines') : lines' = lines := by
  obtain ⟨ls, h1, h2, h3⟩ := h
  have hread := readLines_linesOf n h1
  have hget : ∀ i, i < n → (f.readLines n)[i]? = some (ls[i]?.getD []) := by
    intro i hi
    rw [hread, List.getElem?_append]
    by_cases h4 : i < ls.length
    · rw [if_pos (by simp; omega), List.getElem?_take, if_pos hi, List.getElem?_eq_getElem h4]; simp
    · rw [if_neg (by simp; omega), List.getElem?_replicate, if_pos (by simp; omega), List.getElem?_eq_none (by omega)]; rfl
  have hlen : (f.readLines n).length = n := by rw [hread]; simp; omega
  unfold lazyLines at h'
  cases codec with
  | none =>
    cases h'
    apply List.ext_getElem?
    intro i
    by_cases hi : i < n
    · have h4 : lines[i]? = some lines[i] := List.getElem?_eq_getElem (by omega)
      rw [hget i hi, h4, h3 i _ h4]
    · rw [List.getElem?_eq_none (by omega), List.getElem?_eq_none (by omega)]
  | some c =>
    obtain ⟨h4, h5⟩ := mapE_ok_iff.1 h'
    apply List.ext_getElem?
    intro i
    by_cases hi : i < n
    · have h6 : lines[i]? = some lines[i] := List.getElem?_eq_getElem (by omega)
      obtain ⟨b, h7, h8⟩ := h5 i _ (hget i hi)
      have h9 := h3 i _ h6
      dsimp only at h9
      rw [h9] at h8
      cases h8
      rw [h7, h6]
    · rw [List.getElem?_eq_none (by omega), List.getElem?_eq_none (by omega)]

theorem sent_delimiter {codec : Option Codec} {d d' d'' : Option (List Char)} (h : Sent codec d d')
    (h' : encodeDelimiter codec d = .ok d'') : d'' = d' := by
  unfold encodeDelimiter at h'
  unfold Sent at h
  split at h'
  · rename_i c s
    obtain ⟨t, h1, rfl⟩ := h
    rw [h1] at h'
    cases h'; rfl
  · rename_i hno
    cases h'
    split at h
    · rename_i c s; exact absurd rfl (hno c s rfl)
    · exact h.symm

/-- A stream that is read has been understood by `preparse`. -/
theorem lazy_channels {fl : FloatS} {dig : Char → Bool} (hd : DigitClass dig) {ff : List Char → Bool} {codec : Option Codec}
    {f : TFile} {n : Nat} {data : List (Int × List Val)} {names : List (Int × Val)}
    (hok : lazyTextpack fl dig ff codec f n {} = .ok (data, names)) {lines : List (List Char)} (hl : LookedAt codec f n lines)
    {d : Derived} (hp : preparse dig ff lines = .ok (some d)) :
    ∃ delim firstvals funcs m, encodeDelimiter codec d.delimiter = .ok delim ∧ d.usecols = List.range m ∧
      (d.converters = none ∨ d.converters = some (List.range m)) ∧
      pySplit (lazyHint codec {}).ws delim (stripBy (· ∈ stripchars delim) (({ f with pos := 0 } : TFile).skip d.skiprows).readline.1) = .ok firstvals ∧
      setConverters (unifyFuncs (firstvals.map (funcOf fl (lazyHint codec {}) false)))
        ((d.converters.getD []).map fun c => (Int.ofNat c, Func.floatit.apply fl (lazyHint codec {}))) = .ok funcs ∧
      ∀ k col, dget data k = some col → col ≠ [] ∧ ∃ j : Nat, k = j ∧ j < m ∧
        ∃ F, funcs[j]? = some F ∧ ∀ v ∈ col, ∃ s, F.apply fl (lazyHint codec {}) s = .ok v := by
  obtain ⟨above, rows, last, blanks, ds, cs, nums, pt, m, -, -, -, -, -, -, -, -, -, huse, -, hconv, -, -, -, hnames, -⟩ :=
    C43_preparse_coherent hd hp
  unfold lazyTextpack at hok
  cases hlines : lazyLines codec n f with
  | error e => simp [hlines] at hok
  | ok lines' =>
    have := lookedAt_lines hl hlines
    subst this
    simp only [hlines, hp] at hok
    cases hde : encodeDelimiter codec d.delimiter with
    | error e => simp [derivedArgs, hde] at hok
    | ok delim =>
      simp only [derivedArgs, hde, lazyArgs, limitNames, updateArgs, Option.getD_none, Option.isNone_some, Bool.false_eq_true,
        false_and, if_false, Option.getD_some] at hok
      obtain ⟨firstvals, funcs, h1, h2, h3⟩ := textpack_channels (n := m) hok rfl rfl (by dsimp only; rw [huse]) (by
        rcases hnames with ⟨_, h6⟩ | ⟨_, _, _, fs, _, _, ⟨_, h7, _⟩, h6⟩
        · left; dsimp only; rw [h6]; rfl
        · right; dsimp only; rw [h6, numbered_keys, h7])
      refine ⟨delim, firstvals, funcs, m, rfl, huse, ?_, h1, h2, h3⟩
      rw [hconv]
      split
      · exact .inr rfl
      · exact .inl rfl

/-! ### C89 -/

/-- What `lazy_textpack` says of itself: "Works with numerical data files ... Converters derived is either float or one
that converts numbers with decimal comma to a float."  With `all` for every stream that it reads; else for those with
a decimal comma inferred, and those whose first line of data has numbers in all its fields. -/
def NumbersOnly (all : Bool) : Prop :=
  ∀ (dec : Char → Option Nat), Decimals dec → ∀ (dig : Char → Bool), DigitClass dig → ∀ (ff : List Char → Bool)
    (codec : Option Codec) (h : Hint) (f : TFile) (n : Nat) (data : List (Int × List Val)) (names : List (Int × Val)),
    StreamOf codec h → lazyTextpack (h.float dec) dig ff codec f n {} = .ok (data, names) →
    (all = false → ∃ lines d, LookedAt codec f n lines ∧ preparse dig ff lines = .ok (some d) ∧
      (d.converters.isSome = true ∨ ∃ delim above first rest fs, Sent codec d.delimiter delim ∧
        LinesOf f.chars (above ++ first :: rest) ∧ d.skiprows = above.length ∧ HasFields (White h) delim first fs ∧
        ∀ x ∈ fs, ∃ v, EitherNumber h dec x v)) →
    ∀ k col, dget data k = some col → ∀ v ∈ col, Numeric v

theorem lazyHint_stream {codec : Option Codec} {h : Hint} (hs : StreamOf codec h) : lazyHint codec {} = h := by
  unfold StreamOf at hs
  subst hs
  cases codec <;> rfl

/-- A decimal comma inferred: the channels are numbers, whatever is in the stream, or it is not read. -/
theorem C89_comma {dec : Char → Option Nat} {dig : Char → Bool} (hdig : DigitClass dig) {ff : List Char → Bool}
    {codec : Option Codec} {h : Hint} {f : TFile} {n : Nat} {data : List (Int × List Val)} {names : List (Int × Val)}
    (hs : StreamOf codec h) (hok : lazyTextpack (h.float dec) dig ff codec f n {} = .ok (data, names))
    {lines : List (List Char)} (hl : LookedAt codec f n lines) {d : Derived} (hp : preparse dig ff lines = .ok (some d))
    (hc : d.converters.isSome = true) {k : Int} {col : List Val} (hcol : dget data k = some col) : ∀ v ∈ col, Numeric v := by
  obtain ⟨delim, firstvals, funcs, m, -, -, h1, -, h3, h4⟩ := lazy_channels hdig hok hl hp
  obtain ⟨-, j, -, hj, F, hF, hv⟩ := h4 k col hcol
  have h1 : d.converters = some (List.range m) := by
    rcases h1 with h1 | h1
    · rw [h1] at hc; simp at hc
    · exact h1
  rw [h1] at h3
  have := (setConverters_same h3).2 j F hF (.inl (by simpa using hj))
  subst this
  intro v hv'
  obtain ⟨s, hs'⟩ := hv v hv'
  rw [lazyHint_stream hs] at hs'
  exact floatit_numeric hs'

/-- What the channels are made of: without a decimal comma inferred, each of numbers only or of text only, as the first
line of data has it. -/
theorem C89_exact {dec : Char → Option Nat} (hdec : Decimals dec) {dig : Char → Bool} (hdig : DigitClass dig) {ff : List Char → Bool}
    {codec : Option Codec} {h : Hint} {f : TFile} {n : Nat} {data : List (Int × List Val)} {names : List (Int × Val)}
    (hs : StreamOf codec h) (hok : lazyTextpack (h.float dec) dig ff codec f n {} = .ok (data, names))
    {lines : List (List Char)} (hl : LookedAt codec f n lines) {d : Derived} (hp : preparse dig ff lines = .ok (some d))
    {delim : Option (List Char)} {above rest : List (List Char)} {first : List Char} {fs : List (List Char)}
    (hsent : Sent codec d.delimiter delim) (hlines : LinesOf f.chars (above ++ first :: rest)) (hsk : d.skiprows = above.length)
    (hf : HasFields (White h) delim first fs) {k : Int} {col : List Val} (hcol : dget data k = some col) :
    col ≠ [] ∧ ∃ j : Nat, k = j ∧ j ∈ d.usecols ∧ j < fs.length ∧
      ((d.converters.isSome = true ∨ NumberColumn h dec fs j) → ∀ v ∈ col, Numeric v) ∧
      (¬ (d.converters.isSome = true ∨ NumberColumn h dec fs j) → ∀ v ∈ col, Textual v) := by
  have hcomma := fun hc => C89_comma hdig hs hok hl hp hc hcol
  obtain ⟨delim', firstvals, funcs, m, hde, huse, h1, h2, h3, h4⟩ := lazy_channels hdig hok hl hp
  obtain ⟨hne, j, hkj, hj, F, hF, hv⟩ := h4 k col hcol
  have := sent_delimiter hsent hde
  subst this
  rw [lazyHint_stream hs] at h2 h3 hv
  have hfv : firstvals = fs := by
    obtain ⟨p, hskip, hl'⟩ := skip_linesOf (f := { f with pos := 0 }) (ss := above) (ls := first :: rest) (by simpa using hlines)
    rw [hsk, hskip, readline_linesOf hl'] at h2
    dsimp only at h2
    rw [(hasFields_split hf).2] at h2
    cases h2; rfl
  subst hfv
  have hlt : j < firstvals.length := by
    have h5 : j < funcs.length := (List.getElem?_eq_some_iff.1 hF).1
    rcases h1 with h1 | h1
    · rw [h1] at h3
      simp only [Option.getD_none, List.map_nil, setConverters] at h3
      cases h3
      simpa [unifyFuncs_length] using h5
    · rw [h1] at h3
      rw [(setConverters_same h3).1] at h5
      simpa [unifyFuncs_length] using h5
  refine ⟨hne, j, hkj, by rw [huse]; simpa using hj, hlt, ?_⟩
  by_cases hc : d.converters.isSome = true
  · exact ⟨fun _ => hcomma hc, fun h0 => absurd (.inl hc) h0⟩
  have h1 : d.converters = none := by simpa using hc
  rw [h1] at h3
  simp only [Option.getD_none, List.map_nil, setConverters] at h3
  cases h3
  obtain ⟨G, hG, hFG⟩ := unifyFuncs_get hF
  rw [List.getElem?_map, Option.map_eq_some_iff] at hG
  obtain ⟨x, hx, rfl⟩ := hG
  have hcol' : NumberColumn h dec firstvals j ↔ (IsNum (h.float dec) x ∨ IsCommaNum (h.float dec) x) := by
    rw [either_cases hdec]
    unfold NumberColumn
    constructor
    · rintro ⟨x', v, h5, h6⟩
      rw [hx] at h5; cases h5; exact ⟨v, h6⟩
    · rintro ⟨v, h6⟩; exact ⟨x, v, hx, h6⟩
  have hfun : (funcOf (h.float dec) h false x = .maybenan ∧ IsNum (h.float dec) x) ∨
      (funcOf (h.float dec) h false x = .floatit ∧ IsCommaNum (h.float dec) x) ∨
      (funcOf (h.float dec) h false x = textFunc h false ∧ ¬ IsNum (h.float dec) x ∧ ¬ IsCommaNum (h.float dec) x) := by
    unfold funcOf IsCommaNum IsNum
    cases hx1 : h.float dec x with
    | some v => exact .inl ⟨rfl, v, rfl⟩
    | none =>
      rw [show commaDot x = pointed x from rfl]
      cases hx2 : h.float dec (pointed x) with
      | some v => exact .inr (.inl ⟨rfl, by simp, v, rfl⟩)
      | none => exact .inr (.inr ⟨rfl, by simp, by simp⟩)
  have hnum : (IsNum (h.float dec) x ∨ IsCommaNum (h.float dec) x) → F = .maybenan ∨ F = .floatit := by
    intro h0
    rcases hfun with ⟨h5, -⟩ | ⟨h5, -⟩ | ⟨-, h5, h6⟩
    · rw [hFG, h5]; split
      · exact .inr rfl
      · exact .inl rfl
    · rw [hFG, h5]; split <;> exact .inr rfl
    · exact h0.elim (fun h => absurd h h5) fun h => absurd h h6
  refine ⟨fun h0 => ?_, fun h0 => ?_⟩
  · rcases hnum (hcol'.1 (h0.resolve_left hc)) with rfl | rfl
    · intro v hv'
      obtain ⟨s, h5⟩ := hv v hv'
      exact maybenan_numeric h5
    · intro v hv'
      obtain ⟨s, h5⟩ := hv v hv'
      exact floatit_numeric h5
  · have h5 : ¬ (IsNum (h.float dec) x ∨ IsCommaNum (h.float dec) x) := fun h6 => h0 (.inr (hcol'.2 h6))
    rcases hfun with ⟨-, h6⟩ | ⟨-, h6⟩ | ⟨h6, -, -⟩
    · exact absurd (.inl h6) h5
    · exact absurd (.inr h6) h5
    · have hF' : F = textFunc h false := by
        rw [hFG, h6]
        have : (textFunc h false).isMaybenan = false := by cases h <;> rfl
        simp [this]
      intro v hv'
      obtain ⟨s, h7⟩ := hv v hv'
      rw [hF'] at h7
      exact text_textual h7

/-- C89 if a decimal comma is inferred or the first line of data has numbers in all its fields.  Missing: other streams,
for which `C89_exact` tells the channels of text. -/
theorem C89_numbers_partial : NumbersOnly false := by
  intro dec hdec dig hdig ff codec h f n data names hs hok hcond k col hcol
  obtain ⟨lines, d, hl, hp, hc | ⟨delim, above, first, rest, fs, h1, h2, h3, h4, h5⟩⟩ := hcond rfl
  · exact C89_comma hdig hs hok hl hp hc hcol
  · obtain ⟨-, j, -, -, hj, h6, -⟩ := C89_exact hdec hdig hs hok hl hp h1 h2 h3 h4 hcol
    obtain ⟨v, hv⟩ := h5 _ (List.getElem_mem hj)
    exact h6 (.inr ⟨_, v, List.getElem?_eq_getElem hj, hv⟩)

/-! ### Examples and counterexamples -/

/-- C89 is false as it stands: a short text with one number in its last line is taken for one column of data, as the text
around the number is looked for in the last of the lines given, which is blank; so are two words that end in a digit,
with the letter between for the delimiter.  If there are no more lines than those looked at, the first one is refused. -/
theorem C89_counterexample : ¬ NumbersOnly true ∧
    lazyTextpack ((Hint.text).float asciiDec) asciiDig asciiWord none ⟨"hello 1 world\n".toList, 0⟩ 25 {} =
      .ok ([(0, [.str "hello".toList])], []) ∧
    lazyTextpack ((Hint.text).float asciiDec) asciiDig asciiWord none ⟨"hello 1 world\n".toList, 0⟩ 1 {} = .error .valueError ∧
    lazyTextpack ((Hint.text).float asciiDec) asciiDig asciiWord none ⟨"a1 b2\n".toList, 0⟩ 25 {} =
      .ok ([(0, [.str "a1 ".toList]), (1, [.flt 2])], []) := by
  have he : lazyTextpack ((Hint.text).float asciiDec) asciiDig asciiWord none ⟨"hello 1 world\n".toList, 0⟩ 25 {} =
      .ok ([(0, [.str "hello".toList])], []) := by decide +kernel
  refine ⟨fun hall => ?_, he, by decide +kernel, by decide +kernel⟩
  have := hall asciiDec asciiDec_decimals asciiDig asciiDig_class asciiWord none .text _ 25 _ _ rfl he (by simp) 0
    [.str "hello".toList] rfl (.str "hello".toList) (by simp)
  exact textual_not_numeric (.inl ⟨_, rfl⟩) this

/-- The hypotheses of `C89_exact` and of the partial theorem can be met. -/
example : ∃ lines d, LookedAt none ⟨"7\n".toList, 0⟩ 2 lines ∧ preparse asciiDig asciiWord lines = .ok (some d) ∧
    Sent none d.delimiter none ∧ LinesOf "7\n".toList ([] ++ "7\n".toList :: []) ∧ d.skiprows = ([] : List (List Char)).length ∧
    HasFields (White .text) none "7\n".toList [['7']] ∧ (∀ x ∈ [['7']], ∃ v, EitherNumber .text asciiDec x v) ∧
    lazyTextpack ((Hint.text).float asciiDec) asciiDig asciiWord none ⟨"7\n".toList, 0⟩ 2 {} = .ok ([(0, [.flt 7])], []) := by
  refine ⟨["7\n".toList, []], { skiprows := 0, delimiter := none, converters := none, names := [], usecols := [0] },
    ⟨["7\n".toList], .cons (l := ['7']) (by decide) .nil, rfl, ?_⟩, by decide +kernel, rfl, .cons (l := ['7']) (by decide) .nil, rfl,
    one_word (w := ['7']) (by decide) (by decide), ?_, by decide +kernel⟩
  · intro i l hl
    match i with
    | 0 => cases hl; rfl
    | 1 => cases hl; rfl
    | i + 2 => simp at hl
  · intro x hx
    simp only [List.mem_singleton] at hx
    subst hx
    exact ⟨.flt 7, either_text (by decide +kernel)⟩

/-- Nor do words help if a decimal comma is inferred: there it is refused (`C89_comma`). -/
example : lazyTextpack ((Hint.text).float asciiDec) asciiDig asciiWord none ⟨"hello 1,5 world\n".toList, 0⟩ 25 {} = .error .valueError ∧
    lazyTextpack ((Hint.text).float asciiDec) asciiDig asciiWord none ⟨"1,5\n".toList, 0⟩ 25 {} = .ok ([(0, [.flt (3 / 2)])], []) := by
  constructor <;> decide +kernel

end CP
