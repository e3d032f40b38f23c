import Verif.Props.NpArray
import Verif.Props.LazyNumber
import Verif.Lemmas.World
/-!
# C93: the packs of text files hold the values read
-/

namespace CP
open Spec

/-! ### Columns of one kind -/

theorem compatible_numbers {vs : List Val} (h : ∀ v ∈ vs, Numeric v) : Compatible vs := by
  refine .inr (.inr (.inr ⟨fun v hv => ?_, fun _ i hi => ?_⟩))
  · rcases h v hv with ⟨q, rfl⟩ | rfl | ⟨n, rfl⟩
    · exact .flt _
    · exact .nan
    · exact .inf _
  · rcases h _ hi with ⟨q, h⟩ | h | ⟨n, h⟩ <;> cases h

theorem compatible_strs {vs : List Val} (h : ∀ v ∈ vs, ∃ s, v = .str s) (hn : ∀ v ∈ vs, ¬ EndsNul v) : Compatible vs := by
  refine .inr (.inl fun v hv => ?_)
  obtain ⟨s, rfl⟩ := h v hv
  exact ⟨s, rfl, hn _ hv⟩

theorem compatible_bytes {vs : List Val} (h : ∀ v ∈ vs, ∃ s, v = .bytes s) (hn : ∀ v ∈ vs, ¬ EndsNul v) : Compatible vs := by
  refine .inr (.inr (.inl fun v hv => ?_))
  obtain ⟨s, rfl⟩ := h v hv
  exact ⟨s, rfl, hn _ hv⟩

/-! ### The columns of a text file -/

/-- Numbers only, or text only. -/
def OneKind (vs : List Val) : Prop :=
  (∀ v ∈ vs, Numeric v) ∨ (∀ v ∈ vs, ∃ s, v = .str s) ∨ (∀ v ∈ vs, ∃ s, v = .bytes s)

theorem oneKind_compatible {vs : List Val} (h : OneKind vs) (hn : ∀ v ∈ vs, ¬ EndsNul v) : Compatible vs := by
  rcases h with h | h | h
  · exact compatible_numbers h
  · exact compatible_strs h hn
  · exact compatible_bytes h hn

theorem pickFrom_zip {α β : Type} {u : Option (List Int)} (fs : List α) (vs : List β) (n j : Nat) {p : α × β}
    (h : ((((fs.zip vs).zipIdx n).filter fun p => keepCol u p.2).map Prod.fst)[j]? = some p) :
    (((fs.zipIdx n).filter fun p => keepCol u p.2).map Prod.fst)[j]? = some p.1 := by
  induction fs generalizing vs n j with
  | nil => simp at h
  | cons f fs ih =>
    cases vs with
    | nil => simp at h
    | cons v vs =>
      simp only [List.zip_cons_cons, List.zipIdx_cons, List.filter_cons] at h ⊢
      by_cases hk : keepCol u n = true
      · simp only [hk, if_true, List.map_cons] at h ⊢
        cases j with
        | zero => simp only [List.getElem?_cons_zero, Option.some.injEq] at h ⊢; rw [← h]
        | succ j => simp only [List.getElem?_cons_succ] at h ⊢; exact ih vs _ j h
      · simp only [hk, Bool.false_eq_true, if_false] at h ⊢
        exact ih vs _ j h

theorem rowTuple_func {fl : FloatS} {h : Hint} {u : Option (List Int)} {funcs : List Func} {vals : List (List Char)} {row : List Val}
    (hr : rowTuple fl h u funcs vals = .ok row) {j : Nat} {v : Val} (hv : row[j]? = some v) :
    ∃ F s, (pick u funcs)[j]? = some F ∧ F.apply fl h s = .ok v := by
  unfold rowTuple at hr
  obtain ⟨h1, h2⟩ := mapE_ok_iff.1 hr
  have hj : j < row.length := (List.getElem?_eq_some_iff.1 hv).1
  rw [h1] at hj
  obtain ⟨p, hp⟩ : ∃ p, (pick u (funcs.zip vals))[j]? = some p := ⟨_, List.getElem?_eq_getElem hj⟩
  obtain ⟨w, h3, h4⟩ := h2 j _ hp
  rw [hv] at h3
  cases h3
  exact ⟨p.1, p.2, pickFrom_zip _ _ 0 j hp, h4⟩

/-- A function for fields of numbers, or of text. -/
def KindFunc (h : Hint) (F : Func) : Prop := F = .maybenan ∨ F = .floatit ∨ ∃ st, F = textFunc h st

theorem kindFunc_oneKind {dec : Char → Option Nat} {h : Hint} {F : Func} (hF : KindFunc h F) {vs : List Val}
    (hv : ∀ v ∈ vs, ∃ s, F.apply (h.float dec) h s = .ok v) : OneKind vs := by
  rcases hF with rfl | rfl | ⟨st, rfl⟩
  · exact .inl fun v hm => by obtain ⟨s, hs⟩ := hv v hm; exact maybenan_numeric hs
  · exact .inl fun v hm => by obtain ⟨s, hs⟩ := hv v hm; exact floatit_numeric hs
  · have : ∀ v ∈ vs, ∃ s, TextMeans h st s v := fun v hm => by obtain ⟨s, hs⟩ := hv v hm; exact ⟨s, textFunc_means.1 hs⟩
    cases h with
    | text => exact .inr (.inl fun v hm => by obtain ⟨s, t, -, h⟩ := this v hm; exact ⟨_, h⟩)
    | bytes => exact .inr (.inr fun v hm => by obtain ⟨s, t, -, h⟩ := this v hm; exact ⟨_, h⟩)
    | codec d => exact .inr (.inl fun v hm => by obtain ⟨s, t, -, u, -, h⟩ := this v hm; exact ⟨_, h⟩)

theorem unify_kind {fl : FloatS} {h : Hint} {st : Bool} {first : List (List Char)} {F : Func}
    (hF : F ∈ unifyFuncs (first.map (funcOf fl h st))) : KindFunc h F := by
  have hof : ∀ G ∈ first.map (funcOf fl h st), KindFunc h G := by
    intro G hG
    obtain ⟨s, -, rfl⟩ := List.mem_map.1 hG
    unfold funcOf
    split
    · exact .inl rfl
    · split
      · exact .inr (.inl rfl)
      · exact .inr (.inr ⟨_, rfl⟩)
  unfold unifyFuncs at hF
  split at hF
  · obtain ⟨G, hG, rfl⟩ := List.mem_map.1 hF
    split
    · exact .inr (.inl rfl)
    · exact hof G hG
  · exact hof F hF

theorem mem_pick {α : Type} {u : Option (List Int)} {l : List α} {x : α} (h : x ∈ pick u l) : x ∈ l := by
  unfold pick at h
  obtain ⟨p, hp, rfl⟩ := List.mem_map.1 h
  exact List.fst_mem_of_mem_zipIdx (List.mem_filter.1 hp).1

/-- The columns of lines that were read without an exception. -/
theorem tuplesFrom_columns {dec : Char → Option Nat} {h : Hint} {d : Option (List Char)} {u : Option (List Int)} {st : Bool}
    {fieldnames : List (List Char)} {f : TFile} {l : Lines} (hl : tuplesFrom (h.float dec) h d u [] st fieldnames f = .ok l)
    (he : l.exc = none) : ∀ col ∈ zipStar l.rows, OneKind col := by
  unfold tuplesFrom at hl
  dsimp only at hl
  split at hl
  · cases hl
  rename_i firstvals hs
  simp only [setConverters] at hl
  split at hl
  · cases hl
  split at hl
  · cases hl; cases he
  rename_i row hrow
  cases hl
  dsimp only at he ⊢
  generalize hd : dataRows (h.float dec) h d u (unifyFuncs (firstvals.map (funcOf (h.float dec) h st)))
    (fileLines (f.readline.2.chars.drop f.readline.2.pos)) = out at he ⊢
  obtain ⟨out, exc⟩ := out
  cases he
  intro col hcol
  obtain ⟨j, hj⟩ := List.getElem?_of_mem hcol
  obtain ⟨-, hz1, hz2, hz3⟩ := (zipStar_get _).1 hj
  have hrows : ∀ r ∈ row :: out, ∃ vals, rowTuple (h.float dec) h u (unifyFuncs (firstvals.map (funcOf (h.float dec) h st))) vals = .ok r := by
    intro r hr'
    rcases List.mem_cons.1 hr' with rfl | hr'
    · exact ⟨_, hrow⟩
    · exact dataRows_mem hd r hr'
  obtain ⟨F, -, hF, -⟩ := rowTuple_func hrow (List.getElem?_eq_getElem (hz1 row (List.mem_cons_self ..)))
  refine kindFunc_oneKind (unify_kind (mem_pick (List.mem_of_getElem? hF))) (dec := dec) fun v hv => ?_
  obtain ⟨m, hm⟩ := List.mem_iff_getElem?.1 hv
  rw [hz3, Option.bind_eq_some_iff] at hm
  obtain ⟨r, hm1, hm2⟩ := hm
  obtain ⟨vals, hvals⟩ := hrows r (List.mem_of_getElem? hm1)
  obtain ⟨G, s, h5, h6⟩ := rowTuple_func hvals hm2
  rw [hF] at h5
  cases h5
  exact ⟨s, h6⟩

/-- The channels of `textpack` are of one kind each, whatever the file, unless there are converters. -/
theorem C93_kinds {dec : Char → Option Nat} {h : Hint} {f : TFile} {a : TextArgs} {data : List (Int × List Val)}
    {names : List (Int × Val)} (hok : textpack (h.float dec) h f a = .ok (data, names)) (hc : a.converters = []) (hd : a.debug = false) :
    ∀ x ∈ data, OneKind x.2 := by
  have n1 : a.normal.converters = [] := by
    unfold TextArgs.normal; split
    · exact hc
    · split <;> exact hc
  have n2 : a.normal.debug = false := by
    unfold TextArgs.normal; split
    · exact hd
    · split <;> exact hd
  unfold textpack at hok
  dsimp only at hok
  rw [n1, n2] at hok
  split at hok
  · cases hok
  rename_i l hl
  simp only [Bool.false_eq_true, if_false] at hok
  split at hok
  · cases hok
  rename_i data' hdata
  cases hok
  unfold plainData at hdata
  split at hdata
  · cases hdata
  rename_i hexc
  cases hdata
  have hcols : ∀ col ∈ zipStar l.rows, OneKind col := by
    unfold linetuples at hl
    split at hl
    · dsimp only at hl
      split at hl
      · cases hl
      · exact tuplesFrom_columns hl hexc
    · exact tuplesFrom_columns hl hexc
  intro x hx
  obtain ⟨q, hq, e⟩ := mem_dictOf hx
  rw [← e]
  exact hcols _ (List.of_mem_zip hq).2

/-- C93 as a user would have it: the channels of the pack that `textpack` returns, no converters given, are the values that were read from
the file.  With `all` of every file that is read, else of those without text that ends with a NUL. -/
def TextPackHolds (all : Bool) : Prop :=
  ∀ (ft : Rat → List Char) (dec : Char → Option Nat) (h : Hint) (f : TFile) (a : TextArgs) (data : List (Int × List Val))
    (names : List (Int × Val)), textpack (h.float dec) h f a = .ok (data, names) → a.converters = [] → a.debug = false →
    (all = false → ∀ x ∈ data, ∀ v ∈ x.2, ¬ EndsNul v) →
    ∃ p, packOfLists ft data names = .ok p ∧ p.names = names ∧ ChannelsHold data p.data

/-- C93, the part that holds: without NULs at the end of text.  (Missing: such text, which loses them: C93_counterexample.) -/
theorem C93_text_partial : TextPackHolds false := by
  intro ft dec h f a data names hok hc hd hn
  exact C92_values_partial ft data names fun _ x hx => oneKind_compatible (C93_kinds hok hc hd x hx) (hn rfl x hx)

/-- C93 as stated is false: a NUL at the end of text is lost. -/
theorem C93_counterexample : ¬ TextPackHolds true := by
  intro hall
  have he : textpack ((Hint.text).float asciiDec) .text ⟨"a\x00,1\n".toList, 0⟩ { delimiter := some [','] } =
      .ok ([(0, [.str "a\x00".toList]), (1, [.flt 1])], []) := by decide +kernel
  obtain ⟨p, hp, -, -, h1⟩ := hall (fun _ => []) asciiDec .text _ _ _ _ he rfl rfl (by simp)
  obtain ⟨a, ha, h2⟩ := h1 0 0 _ rfl
  have hp' : packOfLists (fun _ => []) [(0, [.str "a\x00".toList]), (1, [.flt 1])] [] =
      .ok (Pack.init [(0, ⟨.U, [.str ['a']]⟩), (1, ⟨.f, [.flt 1]⟩)] []) := by decide +kernel
  rw [hp'] at hp
  cases hp
  rw [(init_data _ _).1] at ha
  cases ha
  cases h2 with
  | cons h3 h4 => exact absurd (same_str h3) (by decide)

/-- C93_text_partial: numbers and text. -/
example : ∃ data names, textpack ((Hint.text).float asciiDec) .text ⟨"a,1\nb,2\n".toList, 0⟩ { delimiter := some [','] } = .ok (data, names) ∧
    data = [(0, [.str ['a'], .str ['b']]), (1, [.flt 1, .flt 2])] ∧ ∀ x ∈ data, ∀ v ∈ x.2, ¬ EndsNul v := by
  refine ⟨[(0, [.str ['a'], .str ['b']]), (1, [.flt 1, .flt 2])], [], by decide +kernel, rfl, ?_⟩
  intro x hx v hv
  simp only [List.mem_cons, List.not_mem_nil, or_false] at hx
  rcases hx with rfl | rfl <;> simp only [List.mem_cons, List.not_mem_nil, or_false] at hv <;> rcases hv with rfl | rfl <;> simp [EndsNul]

end CP
