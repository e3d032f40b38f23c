import Verif.Model.Lazy
import Verif.Lemmas.Lazy
import Verif.Props.Preparse
import Verif.Props.TextNames
/-!
# Properties of lazy_textpack
-/

namespace CP

open Spec

/-! ### C46 -/

theorem chosen_getD {α : Type} (o : Option α) (d : α) : Chosen o d (o.getD d) := by
  cases o <;> simp [Chosen]

/-- What `textpack` is called with, given the inferred arguments (the defaults if there are
none) and those of the caller. -/
structure Received (inferred : TextArgs) (kw : LazyKw) (a : TextArgs) : Prop where
  delimiter : Chosen kw.delimiter inferred.delimiter a.delimiter
  skiprows : Chosen kw.skiprows inferred.skiprows a.skiprows
  usecols : Chosen kw.usecols inferred.usecols a.usecols
  hasnames : Chosen kw.hasnames inferred.hasnames a.hasnames
  converters : Chosen kw.converters inferred.converters a.converters
  stripstrings : Chosen kw.stripstrings inferred.stripstrings a.stripstrings
  debug : Chosen kw.debug inferred.debug a.debug
  given_names : ∀ ns, kw.names = some ns → a.names = ns
  inferred_names : kw.names = none → ∀ p, p ∈ a.names ↔ p ∈ inferred.names ∧
    ∀ cols, kw.usecols = some (some cols) → p.1 ∈ cols

theorem lazyArgs_spec (inferred : Option TextArgs) (kw : LazyKw) :
    (lazyArgs inferred kw = .error .valueError ∧ inferred = none ∧ kw.isEmpty = true) ∨
    (lazyArgs inferred kw = .error .typeError ∧ kw.usecols = some none ∧ kw.names = none ∧
      ∃ i, inferred = some i ∧ i.names ≠ []) ∨
    ∃ a, lazyArgs inferred kw = .ok a ∧ Received (inferred.getD {}) kw a ∧ (inferred = none → kw.isEmpty = false) := by
  have hup : Received (inferred.getD {}) { kw with usecols := kw.usecols } (updateArgs (inferred.getD {}) kw) ∨
      kw.names = none := by
    cases hn : kw.names with
    | none => exact .inr rfl
    | some ns =>
      left
      constructor <;> first
        | exact chosen_getD _ _
        | (intro ns' h; simp [updateArgs, hn] at h ⊢; exact h)
        | (intro h; rw [hn] at h; simp at h)
  unfold lazyArgs
  cases hl : limitNames (updateArgs (inferred.getD {}) kw) kw with
  | error e =>
    right; left
    unfold limitNames at hl
    split at hl
    · rename_i h1 h2
      split at hl
      · simp at hl
      · rename_i hne
        simp at hl
        subst hl
        refine ⟨rfl, h1, h2, ?_⟩
        cases inferred with
        | none => simp [updateArgs, h2] at hne
        | some i => simp [updateArgs, h2] at hne; exact ⟨i, rfl, hne⟩
    · simp at hl
    · simp at hl
  | ok a =>
    have hrec : Received (inferred.getD {}) kw a := by
      unfold limitNames at hl
      split at hl
      · rename_i h1 h2
        split at hl
        · rename_i hnil
          simp at hl
          subst hl
          constructor <;> first
            | exact chosen_getD _ _
            | (intro ns' h; rw [h2] at h; simp at h)
            | (intro _ p; simp [h1, updateArgs, h2])
        · simp at hl
      · rename_i cols h1 h2
        simp at hl
        subst hl
        constructor <;> first
          | exact chosen_getD _ _
          | (intro ns' h; rw [h2] at h; simp at h)
          | (intro _ p; simp [h1, updateArgs, h2])
      · rename_i h1 h2
        simp at hl
        subst hl
        rcases hup with hup | hn
        · exact hup
        · have hu : kw.usecols = none := by
            cases hk : kw.usecols with
            | none => rfl
            | some u =>
              cases u with
              | none => exact absurd hn (h1 hk)
              | some cols => exact absurd hn (h2 cols hk)
          constructor <;> first
            | exact chosen_getD _ _
            | (intro ns' h; rw [hn] at h; simp at h)
            | (intro _ p; simp [hu, updateArgs, hn])
    dsimp only
    by_cases hv : inferred.isNone = true ∧ kw.isEmpty = true
    · rw [if_pos hv]
      exact .inl ⟨rfl, by simpa using hv.1, hv.2⟩
    · rw [if_neg hv]
      refine .inr (.inr ⟨a, rfl, hrec, ?_⟩)
      intro hi
      cases hk : kw.isEmpty with
      | false => rfl
      | true => exact absurd ⟨by simp [hi], hk⟩ hv

/-- C46: `lazy_textpack` is `textpack`, from the start of the stream, with the arguments
of the caller where they are given, and the inferred ones otherwise; inferred names are those
of the columns wanted.  It raises ValueError if nothing is inferred and nothing given.
(Missing: `usecols` given as None, with names inferred and not given, raises TypeError, see
`C46_usecols_none`.) -/
theorem C46_keywords_partial (fl : FloatS) (dig : Char → Bool) (ff : List Char → Bool) (codec : Option Codec) (f : TFile)
    (n : Nat) (kw : LazyKw) {lines : List (List Char)} (hlines : lazyLines codec n f = .ok lines)
    {d : Option Derived} (hd : preparse dig ff lines = .ok d) {inferred : Option TextArgs}
    (hi : (d = none ∧ inferred = none) ∨
      ∃ r i, d = some r ∧ derivedArgs fl codec (lazyHint codec kw) r = .ok i ∧ inferred = some i)
    (hu : ¬ (kw.usecols = some none ∧ kw.names = none ∧ ∃ i, inferred = some i ∧ i.names ≠ [])) :
    (inferred = none ∧ kw.isEmpty = true ∧ lazyTextpack fl dig ff codec f n kw = .error .valueError) ∨
    ∃ a, Received (inferred.getD {}) kw a ∧ (inferred = none → kw.isEmpty = false) ∧
      lazyTextpack fl dig ff codec f n kw = textpack fl (lazyHint codec kw) { f with pos := 0 } a := by
  have key : lazyTextpack fl dig ff codec f n kw =
      match lazyArgs inferred kw with
      | .error e => .error e
      | .ok a => textpack fl (lazyHint codec kw) { f with pos := 0 } a := by
    unfold lazyTextpack
    rw [hlines]
    dsimp only
    rw [hd]
    rcases hi with ⟨rfl, rfl⟩ | ⟨r, i, rfl, h1, rfl⟩
    · rfl
    · dsimp only; rw [h1]; rfl
  rw [key]
  rcases lazyArgs_spec inferred kw with ⟨h1, h2, h3⟩ | ⟨_, h2⟩ | ⟨a, h1, h2, h3⟩
  · left; rw [h1]; exact ⟨h2, h3, rfl⟩
  · exact absurd h2 hu
  · right; rw [h1]; exact ⟨a, h2, h3, rfl⟩

/-- C46 in the remaining case: TypeError. -/
theorem C46_usecols_none (fl : FloatS) (dig : Char → Bool) (ff : List Char → Bool) (codec : Option Codec)
    (f : TFile) (n : Nat) (kw : LazyKw) {lines : List (List Char)} (hlines : lazyLines codec n f = .ok lines)
    {r : Derived} (hd : preparse dig ff lines = .ok (some r)) {i : TextArgs}
    (hi : derivedArgs fl codec (lazyHint codec kw) r = .ok i)
    (h1 : kw.usecols = some none) (h2 : kw.names = none) (h3 : i.names ≠ []) :
    lazyTextpack fl dig ff codec f n kw = .error .typeError := by
  have : lazyArgs (some i) kw = .error .typeError := by
    unfold lazyArgs limitNames
    rw [h1, h2]
    simp [updateArgs, h2, h3]
  unfold lazyTextpack
  rw [hlines]
  dsimp only
  rw [hd]
  dsimp only
  rw [hi]
  dsimp only
  rw [this]

/-- C46: `usecols=None`, the default of `textpack`, is not taken when names are inferred. -/
theorem C46_counterexample :
    lazyTextpack exFloat asciiDig asciiWord none ⟨"a b\n1 2\n".toList, 0⟩ 3 { usecols := some none } = .error .typeError ∧
    lazyTextpack exFloat asciiDig asciiWord none ⟨"a b\n1 2\n".toList, 0⟩ 3 {} =
      .ok ([(0, [.flt 1]), (1, [.flt 2])], [(0, .str ['a']), (1, .str ['b'])]) := by
  constructor <;> decide +kernel

/-- A stream is read from its start, not from where it is. -/
theorem lazy_position : lazyTextpack exFloat asciiDig asciiWord none ⟨"9 9\n1 2\n".toList, 4⟩ 3 {} =
    .ok ([(0, [.flt 9, .flt 1]), (1, [.flt 9, .flt 2])], []) := by
  decide +kernel

/-- With columns selected the names are those of these columns; a delimiter given is taken. -/
example : lazyTextpack exFloat asciiDig asciiWord none ⟨"a;b;c\n1;2;3\n".toList, 0⟩ 3
    { usecols := some (some [2, 0]), stripstrings := some true } =
    .ok ([(0, [.flt 1]), (2, [.flt 3])], [(0, .str ['a']), (2, .str ['c'])]) := by
  decide +kernel

/-- The hypotheses of C46 can be met: something is inferred, nothing is. -/
example : ∃ d i, lazyLines none 3 ⟨"a b\n1 2\n".toList, 0⟩ = .ok ["a b\n".toList, "1 2\n".toList, []] ∧
    preparse asciiDig asciiWord ["a b\n".toList, "1 2\n".toList, []] = .ok (some d) ∧
    derivedArgs exFloat none .text d = .ok i :=
  ⟨_, _, rfl, rfl, rfl⟩

example : lazyTextpack exFloat asciiDig asciiWord none ⟨"a\n".toList, 0⟩ 3 {} = .error .valueError ∧
    lazyTextpack exFloat asciiDig asciiWord none ⟨"a\n".toList, 0⟩ 3 { hasnames := some false } =
      .ok ([(0, [.str ['a']])], []) := by
  constructor <;> decide +kernel

/-! ### C57 -/

theorem mem_range_int {k : Nat} {key : Int} : key ∈ (List.range k).map Int.ofNat ↔ 0 ≤ key ∧ key < k := by
  simp only [List.mem_map, List.mem_range]
  constructor
  · rintro ⟨j, hj, rfl⟩; simp; omega
  · rintro ⟨h1, h2⟩; exact ⟨key.toNat, by omega, by simp; omega⟩

theorem ascending_range (k : Nat) : Ascending ((List.range k).map Int.ofNat) := by
  refine ⟨?_, fun c hc => (mem_range_int.1 hc).1⟩
  rw [List.pairwise_map]
  exact List.pairwise_lt_range.imp (fun h => by simpa using h)

theorem dget_all_none {ν : Type} {d : List (Int × ν)} (h : ∀ k, dget d k = none) : d = [] := by
  cases d with
  | nil => rfl
  | cons p ps =>
    have := h p.1
    simp [dget] at this

theorem textpack_table {fl : FloatS} {dig : Char → Bool} (hd : DigitClass dig) {val : List Char → Val}
    (hfl : FloatReads fl dig val) {point : Char} (hp : point = '.' ∨ point = ',') (h : Hint) {f : TFile}
    {head rest : List (List Char)} {first : List Char} {sep : Option (List Char)} {k : Nat}
    {rows : List (List (List Char))} (hk : sep ≠ none → 2 ≤ k)
    (hl : LinesOf (f.chars.drop f.pos) (head ++ first :: rest))
    (ht : TableRows dig point sep k (first :: rest) rows) (hfirst : ¬ Blank first) {a : TextArgs}
    (ha : a.delimiter = sep ∧ a.skiprows = head.length ∧ a.usecols = some ((List.range k).map Int.ofNat) ∧
      a.hasnames = false ∧ a.debug = false)
    (hc : a.converters = if point = ',' then (List.range k).map fun c => (Int.ofNat c, Func.floatit.apply fl h) else [])
    (hn : a.names = [] ∨ dkeys a.names = (List.range k).map Int.ofNat) :
    ∃ data, textpack fl h f a = .ok (data, a.names) ∧ TableData val k rows data := by
  obtain ⟨ha1, ha2, ha3, ha4, ha5⟩ := ha
  obtain ⟨fss, hrows, hlen, hmatch⟩ := tableRows_rows hd hp h hk ht
  obtain ⟨fs, rs, hfss, hf, hr⟩ : ∃ fs rs, fss = fs :: rs ∧ HasFields (White h) sep first fs ∧
      Rows (White h) sep rest rs := by
    cases hrows with
    | blank hb _ => exact absurd (fun c hc => whites_space (hb c hc).1) hfirst
    | empty _ _ hw _ =>
      refine absurd (fun c hcm => ?_) hfirst
      cases h with
      | text => exact hw c hcm
      | bytes => exact whites_space (hw c hcm)
      | codec => exact whites_space (hw c hcm)
    | row h1 h2 => exact ⟨_, _, rfl, h1, h2⟩
  subst hfss
  have hm : ∀ r ∈ fs :: rs, r.length = k ∧ ∀ (j : Nat) s, r[j]? = some s → ∃ n, IsNumber dig point n ∧ FieldOf s n := by
    intro r hr'
    obtain ⟨i, hi⟩ := List.mem_iff_getElem?.1 hr'
    obtain ⟨nums, _, ⟨h2, h3⟩, h4, h5⟩ := hmatch i r hi
    refine ⟨by omega, ?_⟩
    intro j s hs
    have hj : j < nums.length := by rw [← h2]; exact (List.getElem?_eq_some_iff.1 hs).1
    exact ⟨nums[j], h5 _ (List.getElem_mem hj), h3 j s _ hs (List.getElem?_eq_getElem hj)⟩
  have hfk : fs.length = k := (hm fs (by simp)).1
  -- the value of a field
  have cell : ∀ (j : Nat) s n, j < k → IsNumber dig point n → FieldOf s n → ∀ v,
      CellMeans' fl h a.stripstrings a.converters fs j s v ↔ v = val (pointed n) := by
    intro j s n hj hn' hs v
    obtain ⟨hs1, hs2, hs3⟩ := fieldOf_value hd hfl hp hn' hs
    rcases hp with rfl | rfl
    · have hc' : a.converters = [] := by rw [hc, if_neg (by decide)]
      have hnum : ∀ y ∈ fs, IsNum fl y := by
        intro y hy
        obtain ⟨i, hi⟩ := List.mem_iff_getElem?.1 hy
        obtain ⟨m, hm1, hm2⟩ := (hm fs (by simp)).2 i y hi
        exact ⟨_, (fieldOf_value hd hfl (.inl rfl) hm1 hm2).2.2 rfl⟩
      have hx : fs[j]? = some fs[j] := List.getElem?_eq_getElem (by omega)
      have hxn := hnum fs[j] (List.getElem_mem (by omega))
      have hnc : ¬ ∃ y ∈ fs, IsCommaNum fl y := by
        rintro ⟨y, hy, h1, _⟩; exact h1 (hnum y hy)
      constructor
      · rintro (⟨g, hg, _⟩ | ⟨_, x, hx', hfm⟩)
        · rw [hc'] at hg; simp at hg
        · rw [hx] at hx'
          have : fs[j] = x := by simpa using hx'
          subst this
          cases hfm with
          | missing _ h => exact absurd h hs1
          | point _ _ _ h => rw [hs3 rfl] at h; simpa using h.symm
          | comma _ _ h _ => exact absurd h hnc
          | text h _ _ => exact absurd hxn h
      · rintro rfl
        exact .inr ⟨by rw [hc']; simp, _, hx, .point (.inl hxn) hs1 hnc (hs3 rfl)⟩
    · rw [if_pos rfl] at hc
      have happ : Func.floatit.apply fl h s = .ok (val (pointed n)) := by
        simp only [Func.apply, if_pos hs1, floatE]
        rw [show commaDot s = pointed s from rfl, hs2]
      constructor
      · rintro (⟨g, hg, hgs⟩ | ⟨hno, _⟩)
        · rw [hc] at hg
          simp only [List.mem_map, List.mem_range, Prod.mk.injEq] at hg
          obtain ⟨_, _, _, rfl⟩ := hg
          rw [happ] at hgs
          simpa using hgs.symm
        · exfalso
          refine hno (Func.floatit.apply fl h) ?_
          rw [hc]
          exact List.mem_map.2 ⟨j, by simpa using hj, rfl⟩
      · rintro rfl
        refine .inl ⟨Func.floatit.apply fl h, ?_, happ⟩
        rw [hc]
        exact List.mem_map.2 ⟨j, by simpa using hj, rfl⟩
  have hfit : ConvertersFit a.converters fs.length := by
    rw [hc, hfk]
    split
    · constructor
      · rw [List.map_map]
        have : ((fun p : Int × (List Char → Except Exc Val) => p.1) ∘ fun c : Nat => (Int.ofNat c, Func.floatit.apply fl h)) =
            Int.ofNat := rfl
        rw [show (Prod.fst ∘ fun c : Nat => (Int.ofNat c, Func.floatit.apply fl h)) = Int.ofNat from rfl]
        exact (ascending_range k).1.imp (fun h => by omega)
      · intro p hp
        simp only [List.mem_map, List.mem_range] at hp
        obtain ⟨c, hc, rfl⟩ := hp
        simp; omega
    · simp [ConvertersFit]
  obtain ⟨data0, g1, g2, g3⟩ := C37_table_read_partial fl h f
    { a with names := [], usecols := none, hasnames := false } head rest first fs rs hl ⟨rfl, rfl, rfl, ha5⟩ ha2
    (by dsimp only; rw [ha1]; exact hf) (by dsimp only; rw [ha1]; exact hr) hfit
    (fun r hr' => by rw [(hm r (by simp [hr'])).1, hfk])
    (by
      intro r hr' j s hs
      obtain ⟨n, hn1, hn2⟩ := (hm r hr').2 j s hs
      have hj : j < k := by rw [← (hm r hr').1]; exact (List.getElem?_eq_some_iff.1 hs).1
      exact ⟨_, (cell j s n hj hn1 hn2 _).2 rfl⟩)
  have hdata0 : TableData val k rows data0 := by
    rw [hfk] at g2
    refine ⟨g2, ?_⟩
    intro j col hcol
    obtain ⟨h1, h2⟩ := g3 j col hcol
    refine ⟨by rw [h1, hlen], ?_⟩
    intro i row n hrow hn'
    have hi : i < (fs :: rs).length := by rw [hlen]; exact (List.getElem?_eq_some_iff.1 hrow).1
    have hi' : (fs :: rs)[i]? = some (fs :: rs)[i] := List.getElem?_eq_getElem hi
    obtain ⟨nums, hnums, ⟨h3, h4⟩, h5, h6⟩ := hmatch i _ hi'
    rw [hrow] at hnums
    have : row = nums := by simpa using hnums
    subst this
    have hj : j < row.length := (List.getElem?_eq_some_iff.1 hn').1
    have hj' : ((fs :: rs)[i])[j]? = some ((fs :: rs)[i])[j] := List.getElem?_eq_getElem (by omega)
    obtain ⟨v, hv1, hv2⟩ := h2 i _ _ hi' hj'
    rw [(cell j _ n (by omega) (h6 n (List.mem_of_getElem? hn')) (h4 j _ n hj' hn') v).1 hv2] at hv1
    exact hv1
  have transfer : ∀ data : List (Int × List Val),
      (∀ key, dget data key = if key ∈ (List.range k).map Int.ofNat then dget data0 key else none) →
      TableData val k rows data := by
    intro data hdata
    have : ∀ key, dget data key = dget data0 key := by
      intro key
      rw [hdata]
      split
      · rfl
      · rename_i hno
        rw [mem_range_int] at hno
        cases hg : dget data0 key with
        | none => rfl
        | some col => exact absurd ((hdata0.1 key).1 ⟨col, hg⟩) hno
    exact ⟨fun key => by rw [this]; exact hdata0.1 key, fun j col hcol => hdata0.2 j col (by rw [← this]; exact hcol)⟩
  by_cases hne : a.names = []
  · obtain ⟨data, names, h1, h2, h3⟩ := C38_usecols_partial fl h f
      { a with names := [], usecols := none, hasnames := false } _ (ascending_range k)
      ⟨rfl, rfl, ha5⟩ _ _ g1
    have hnil : names = [] := dget_all_none fun key => by rw [h3]; split <;> rfl
    subst hnil
    refine ⟨data, ?_, transfer data h2⟩
    rw [hne, ← h1]
    congr 1
    cases a
    simp_all
  · have hkeys : dkeys a.names = (List.range k).map Int.ofNat := by
      rcases hn with hn | hn
      · exact absurd hn hne
      · exact hn
    obtain ⟨data, h1, h2⟩ := C56_given_names fl h f a hne
      (by rw [hkeys]; exact (ascending_range k).1.imp (fun h => by omega))
      (fun key hkey => by rw [hkeys] at hkey; exact (mem_range_int.1 hkey).1) ha5 data0 [] g1
    exact ⟨data, h1, transfer data (by rw [← hkeys]; exact h2)⟩

theorem numbered_keys (fs : List (List Char)) :
    dkeys ((numbered fs).map fun p => (p.1, Val.str p.2)) = (List.range fs.length).map Int.ofNat := by
  unfold dkeys numbered
  rw [List.map_map, List.map_map]
  have : ((Prod.fst ∘ fun p : Int × List Char => (p.1, Val.str p.2)) ∘ fun p : List Char × Nat => ((p.2 : Int), p.1)) =
      Int.ofNat ∘ Prod.snd := rfl
  rw [this, ← List.map_map]
  congr 1
  rw [List.zipIdx_map_snd]
  exact List.range_eq_range'.symm

/-- The arguments inferred from a table. -/
def tableArgs (fl : FloatS) (codec : Option Codec) (names : List (Int × List Char)) (sep : Option (List Char))
    (skip k : Nat) (point : Char) : TextArgs where
  names := names.map fun p => (p.1, .str p.2)
  delimiter := sep
  skiprows := skip
  usecols := some ((List.range k).map Int.ofNat)
  converters :=
    if point = ',' then (List.range k).map fun c => (Int.ofNat c, Func.floatit.apply fl (lazyHint codec {})) else []

/-- C57: `lazy_textpack` of a file with a table of numbers.  The lines are those of `head`,
then the table, which begins with lines that are not blank, the last of them `last`, all
within the lines that are looked at; then other lines of the table, of which those looked
at are blank.  The channels are the columns of numbers, the names those found above.
The stream is text, or bytes that are decoded to the same characters. -/
theorem C57_lazy_table {fl : FloatS} {dig : Char → Bool} (hd : DigitClass dig) (ff : List Char → Bool)
    {val : List Char → Val} (hfl : FloatReads fl dig val) {point : Char} {codec : Option Codec} {f : TFile} (n : Nat)
    {head pre more : List (List Char)} {last : List Char} {sep : Option (List Char)} {k : Nat}
    {rows : List (List (List Char))} (hpos : f.pos = 0)
    (hl : LinesOf f.chars (head ++ (pre ++ [last]) ++ more))
    (hn : (head ++ (pre ++ [last])).length ≤ n)
    (hmore : ∀ l ∈ more.take (n - (head ++ (pre ++ [last])).length), Blank l)
    (ht : TableRows dig point sep k (pre ++ [last] ++ more) rows) (hb : ∀ l ∈ pre ++ [last], ¬ Blank l)
    (hk : if sep = none then k = 1 else 2 ≤ k)
    (hhead : ∀ l, head.getLast? = some l → if sep = none then Tokens dig point l [] else ∀ s, ¬ OneSep dig point l s)
    (hf : FewerWith dig point last)
    (hcodec : ∀ c, codec = some c → (∀ l ∈ [] :: (head ++ (pre ++ [last]) ++ more), c.decode l = .ok l) ∧
      ∀ s, sep = some s → c.encode s = .ok s) :
    ∃ data found, lazyTextpack fl dig ff codec f n {} = .ok (data, found.map fun p => (p.1, Val.str p.2)) ∧
      FoundNames ff sep k head.reverse found ∧ TableData val k rows data := by
  have hp : point = '.' ∨ point = ',' := by rw [← fewerWith_point hd hf]; exact pointOf_cases dig last
  -- the lines looked at
  have hread : f.readLines n = head ++ (pre ++ [last]) ++
      (more.take (n - (head ++ (pre ++ [last])).length) ++
        List.replicate (n - (head ++ (pre ++ [last]) ++ more).length) []) := by
    rw [readLines_linesOf n (by rw [hpos]; exact hl), List.take_append, List.take_of_length_le hn]
    simp
  generalize hbl : more.take (n - (head ++ (pre ++ [last])).length) ++
        List.replicate (n - (head ++ (pre ++ [last]) ++ more).length) [] = blanks at hread
  have hblanks : ∀ l ∈ blanks, Blank l := by
    intro l hl'
    rw [← hbl] at hl'
    rcases List.mem_append.1 hl' with h | h
    · exact hmore l h
    · rw [List.eq_of_mem_replicate h]; simp [Blank]
  have hlines : lazyLines codec n f = .ok (head ++ (pre ++ [last]) ++ blanks) := by
    unfold lazyLines
    cases codec with
    | none => rw [hread]
    | some c =>
      dsimp only
      rw [hread]
      have hid : ∀ ls : List (List Char), (∀ l ∈ ls, c.decode l = .ok l) → mapE c.decode ls = .ok ls := by
        intro ls hls
        induction ls with
        | nil => rfl
        | cons l ls ih => simp [mapE, hls l (by simp), ih (fun m hm => hls m (by simp [hm]))]
      apply hid
      intro l hl'
      refine (hcodec c rfl).1 l ?_
      rcases List.mem_append.1 hl' with h | h
      · exact List.mem_cons_of_mem _ (List.mem_append_left _ h)
      · rw [← hbl] at h
        rcases List.mem_append.1 h with h | h
        · exact List.mem_cons_of_mem _ (List.mem_append_right _ (List.mem_of_mem_take h))
        · rw [List.eq_of_mem_replicate h]; simp
  -- what is inferred
  have hrow : ∀ l ∈ pre ++ [last], ∃ nums, nums.length = k ∧ RowLine dig point sep nums l := fun l hl' =>
    tableRows_line ht (List.mem_append_left _ hl') (hb l hl')
  obtain ⟨r, h1, h2, h3, h4, h5, h6⟩ : ∃ r, preparse dig ff (head ++ (pre ++ [last]) ++ blanks) = .ok (some r) ∧
      r.skiprows = head.length ∧ r.usecols = List.range k ∧ r.delimiter = sep ∧
      r.converters = (if point = ',' then some (List.range k) else none) ∧
      FoundNames ff sep k head.reverse r.names := by
    cases sep with
    | some sep =>
      rw [if_neg (by simp)] at hk
      exact C45_columns_partial hd ff hblanks hk hf
        (fun l hl' => by
          obtain ⟨nums, h1, h2⟩ := hrow l hl'
          exact ⟨nums, h1, rowLine_tableLine hd hp h2⟩)
        (fun l hl' => by simpa using hhead l hl')
    | none =>
      rw [if_pos rfl] at hk
      subst hk
      exact C45_one_column_partial hd ff hblanks hf
        (fun l hl' => by
          obtain ⟨nums, _, a, x, b, h2, _, h4, h5, h6⟩ := hrow l hl'
          exact ⟨a, x, b, h2, fun c hc => whites_space (h4 c hc), h5, fun c hc => whites_space (h6 c hc)⟩)
        (fun l hl' => by simpa using hhead l hl')
  have hargs : derivedArgs fl codec (lazyHint codec {}) r = .ok (tableArgs fl codec r.names sep head.length k point) := by
    unfold derivedArgs
    have hdel : encodeDelimiter codec r.delimiter = .ok sep := by
      rw [h4]
      unfold encodeDelimiter
      cases codec with
      | none => rfl
      | some c => cases sep with
        | none => rfl
        | some s => simp [(hcodec c rfl).2 s rfl]
    rw [hdel]
    dsimp only
    rw [h2, h3, h5]
    unfold tableArgs
    congr 2
    split <;> rfl
  obtain ⟨first, rest, hfr⟩ : ∃ first rest, pre ++ [last] ++ more = first :: rest :=
    List.exists_cons_of_ne_nil (by simp)
  have hfirst : ¬ Blank first := by
    apply hb
    cases pre with
    | nil => simp at hfr; simp [hfr.1]
    | cons x xs => simp at hfr; simp [hfr.1]
  rw [hfr] at ht
  rw [List.append_assoc, hfr] at hl
  obtain ⟨data, g1, g2⟩ := textpack_table hd hfl hp (lazyHint codec {}) (f := { f with pos := 0 }) (head := head)
    (a := tableArgs fl codec r.names sep head.length k point)
    (fun hs => by rw [if_neg hs] at hk; exact hk) (by simpa using hl) ht hfirst ⟨rfl, rfl, rfl, rfl, rfl⟩ rfl
    (by
      rcases h6 with ⟨_, h6⟩ | ⟨_, _, _, fs, _, _, ⟨_, h7, _⟩, h6⟩
      · left; rw [tableArgs, h6]; rfl
      · right
        rw [tableArgs]
        dsimp only
        rw [h6, numbered_keys, h7])
  refine ⟨data, r.names, ?_, h6, g2⟩
  refine Eq.trans ?_ g1
  unfold lazyTextpack
  rw [hlines]
  dsimp only
  rw [h1]
  dsimp only
  rw [hargs]
  rfl

/-- A `float` that keeps the text, to show the hypotheses of C57 can be met. -/
def keepFloat : FloatS := fun s => some (.str (stripBy (· ∈ whites) s))

theorem keepFloat_reads : FloatReads keepFloat asciiDig Val.str := by
  intro a n b ha hn hb
  unfold keepFloat
  have hno : ∀ c ∈ n, c ∉ whites := fun c hc hw => by
    have := number_not_pad asciiDig_class (.inl rfl) hn hc
    rw [whites_space hw] at this
    simp at this
  rw [stripBy_pad]
  · intro c hc; simpa using ha c hc
  · intro c hc; simpa using hb c hc
  · intro c hc; simpa using hno c (List.mem_of_mem_head? (by rw [hc]; rfl))
  · intro c hc; simpa using hno c (List.mem_of_getLast? hc)

/-- The hypotheses of C57 can be met: a line of names, two lines of data, with a blank line
between them. -/
example : ∃ data found,
    lazyTextpack keepFloat asciiDig asciiWord none ⟨"t; u\n1,5; 2\n\n3,5;4\n".toList, 0⟩ 3 {} =
      .ok (data, found.map fun p => (p.1, Val.str p.2)) ∧
    FoundNames asciiWord (some [';']) 2 ["t; u\n".toList].reverse found ∧
    TableData Val.str 2 [["1,5".toList, ['2']], ["3,5".toList, ['4']]] data := by
  have hfrac : ∀ a b : Char, asciiDig a = true → asciiDig b = true → Fractional asciiDig ',' [a, ',', b] := by
    intro a b ha hb
    exact ⟨[], [a], [b], [], .inl rfl, ⟨by simp, by simpa using ha⟩, ⟨by simp, by simpa using hb⟩, .inl rfl, rfl⟩
  have hnum : ∀ a : Char, asciiDig a = true → IsNumber asciiDig ',' [a] := by
    intro a ha
    exact ⟨[], [a], [], .inl rfl, .inl ⟨by simp, by simpa using ha⟩, .inl rfl, rfl⟩
  have hpad : AllPad (some [';']) ['\n'] := by
    intro c hc
    simp at hc
    subst hc
    exact ⟨by decide, fun _ => by decide⟩
  have row : ∀ (x y z : Char) (g : List Char), asciiDig x = true → asciiDig y = true → asciiDig z = true →
      (g = [';'] ∨ g = [';', ' ']) →
      RowLine asciiDig ',' (some [';']) [[x, ',', y], [z]] ([x, ',', y] ++ g ++ [z] ++ ['\n']) := by
    intro x y z g hx hy hz hg
    refine ⟨[], [g], ['\n'], by simp [weave], rfl, ?_, by simp [AllPad], hpad, ?_⟩
    · intro n hn
      simp at hn
      rcases hn with rfl | rfl
      · exact fractional_isNumber (hfrac x y hx hy)
      · exact hnum z hz
    · intro g' hg'
      simp at hg'
      subst hg'
      rcases hg with rfl | rfl
      · exact ⟨by decide, by unfold Plain; decide, .inr ⟨by decide, [], [], rfl, by simp, by simp, by decide, by decide⟩⟩
      · exact ⟨by decide, by unfold Plain; decide,
          .inr ⟨by decide, [], [' '], rfl, by simp, by decide, by decide, by decide⟩⟩
  have r1 := row '1' '5' '2' "; ".toList rfl rfl rfl (.inr rfl)
  have r2 := row '3' '5' '4' ";".toList rfl rfl rfl (.inl rfl)
  refine C57_lazy_table asciiDig_class asciiWord keepFloat_reads (point := ',') 3 (head := ["t; u\n".toList]) (pre := [])
    (last := "1,5; 2\n".toList) (more := ["\n".toList, "3,5;4\n".toList]) rfl ?_ (by decide) ?_ ?_ ?_ (by decide) ?_ ?_
    (by simp)
  · exact .cons (l := "t; u".toList) (by decide) (.cons (l := "1,5; 2".toList) (by decide)
      (.cons (l := []) (by decide) (.cons (l := "3,5;4".toList) (by decide) .nil)))
  · unfold Blank; decide
  · exact .row rfl r1 (.blank hpad (.row rfl r2 .nil))
  · intro l hl hb
    simp at hl
    subst hl
    exact absurd (hb '1' (by decide)) (by decide)
  · intro l hl
    simp at hl
    subst hl
    rw [if_neg (by decide)]
    exact few_not_oneSep (findall_tokens asciiDig_class (.inr rfl) _) (by decide)
  · exact fewerWith_comma asciiDig_class (rowLine_tableLine asciiDig_class (.inr rfl) r1) (by decide)
      ⟨_, List.mem_cons_self, hfrac '1' '5' rfl rfl⟩

end CP
