import Verif.Props.Exact
import Verif.Props.RecordKeys
/-!
# C39: exactly which names are those of their columns, with usecols
-/

namespace CP
open CP.Spec

/-- C39 exactly, for column numbers in any order (none given twice): the name under the i-th number
given is that of the i-th of these columns by position in the file.  So, if no number is negative, the
names are those of their columns if and only if, without usecols, the two columns have the same name for each i. -/
theorem C39_exact (fl : FloatS) (h : Hint) (f : TFile) (a : TextArgs)
    (skipped rest : List (List Char)) (header first : List Char) (hs fs : List (List Char))
    (cols asc : List Int) (hnd : cols.Nodup) (hasc : AscendingOf cols asc)
    (hl : LinesOf (f.chars.drop f.pos) (skipped ++ header :: first :: rest))
    (ha : a.names = [] ∧ a.hasnames = true ∧ a.usecols = none ∧ a.debug = false)
    (hsk : a.skiprows = skipped.length + 1)
    (hh : HasFields (White h) a.delimiter header hs)
    (hf : HasFields (White h) a.delimiter first fs)
    (data0 : List (Int × List Val)) (names0 : List (Int × Val))
    (hp0 : textpack fl h f a = .ok (data0, names0)) :
    ∃ data names, textpack fl h f { a with usecols := some cols } = .ok (data, names) ∧
      (∀ k v, dget names k = some v ↔ ∃ (i j : Nat) (s : List Char), cols[i]? = some k ∧ asc[i]? = some (j : Int) ∧
        j < fs.length ∧ hs[j]? = some s ∧ TextMeans h true s v) ∧
      ((∀ c ∈ cols, 0 ≤ c) → ((∀ k v, dget names k = some v ↔ k ∈ cols ∧
          ∃ (j : Nat) (s : List Char), k = j ∧ j < fs.length ∧ hs[j]? = some s ∧ TextMeans h true s v) ↔
        ∀ (i : Nat) k c, cols[i]? = some k → asc[i]? = some c → dget names0 k = dget names0 c)) := by
  obtain ⟨ha1, ha2, ha3, ha4⟩ := ha
  obtain ⟨data, names, hp, -, hn⟩ := C38_exact fl h f a cols asc hnd hasc ⟨ha1, ha3, ha4⟩ _ _ hp0
  obtain ⟨-, c2⟩ := C39_names_partial fl h f a skipped rest header first hs fs hl ⟨ha1, ha2, ha3⟩ hsk hh hf
  obtain ⟨-, hnames⟩ := c2 _ _ hp0
  have hiff : ∀ k v, (k ∈ cols ∧ ∃ (j : Nat) (s : List Char), k = j ∧ j < fs.length ∧ hs[j]? = some s ∧ TextMeans h true s v) ↔
      k ∈ cols ∧ dget names0 k = some v := by
    intro k v
    rw [hnames]
  have hlen : (∀ c ∈ cols, 0 ≤ c) → asc.length = cols.length := by
    intro hpos
    have hp : asc.Perm cols := by
      rw [List.perm_ext_iff_of_nodup (hasc.1.1.imp (by intro a b h; omega)) hnd]
      intro c
      rw [hasc.2]
      exact ⟨fun h => h.1, fun h => ⟨h, hpos c h⟩⟩
    exact hp.length_eq
  refine ⟨data, names, hp, ?_, ?_⟩
  · intro k v
    rw [hn]
    constructor
    · rintro ⟨i, c, h1, h2, h3⟩
      obtain ⟨j, s, rfl, h4⟩ := (hnames _ _).1 h3
      exact ⟨i, j, s, h1, h2, h4⟩
    · rintro ⟨i, j, s, h1, h2, h4⟩
      exact ⟨i, j, h1, h2, (hnames _ _).2 ⟨j, s, rfl, h4⟩⟩
  · intro hpos
    simp only [hiff]
    constructor
    · intro hall i k c hk hc
      apply Option.ext
      intro v
      have h1 : dget names k = some v ↔ dget names0 c = some v := by
        rw [hn]
        constructor
        · rintro ⟨i', c', h1, h2, h3⟩
          have : i' = i := nodup_index hnd h1 hk
          subst this
          rw [hc] at h2
          cases h2
          exact h3
        · exact fun h3 => ⟨i, c, hk, hc, h3⟩
      rw [← h1, hall]
      exact ⟨fun h => ⟨List.mem_of_getElem? hk, h⟩, fun h => h.2⟩
    · intro hall k v
      rw [hn]
      constructor
      · rintro ⟨i, c, h1, h2, h3⟩
        exact ⟨List.mem_of_getElem? h1, by rw [hall i k c h1 h2]; exact h3⟩
      · rintro ⟨hk, h3⟩
        obtain ⟨i, hi⟩ := List.mem_iff_getElem?.1 hk
        have hia : i < asc.length := by rw [hlen hpos]; exact (List.getElem?_eq_some_iff.1 hi).1
        exact ⟨i, _, hi, List.getElem?_eq_getElem hia, by rw [← hall i k _ hi (List.getElem?_eq_getElem hia)]; exact h3⟩

/-! ## Examples -/

/-- Two columns of the same name, given in the wrong order: the names are right. -/
example : textpack exFloat .text ⟨"a;b\n1;2\n".toList, 0⟩ { delimiter := some [';'], skiprows := 1, hasnames := true } =
      .ok ([(0, [.flt 1]), (1, [.flt 2])], [(0, .str ['a']), (1, .str ['b'])]) ∧
    textpack exFloat .text ⟨"a;a\n1;2\n".toList, 0⟩
      { delimiter := some [';'], skiprows := 1, hasnames := true, usecols := some [1, 0] } =
      .ok ([(1, [.flt 1]), (0, [.flt 2])], [(1, .str ['a']), (0, .str ['a'])]) := by
  decide +kernel

example : AscendingOf [1, 0] [0, 1] ∧ ([1, 0] : List Int).Nodup := by
  refine ⟨⟨by unfold Ascending; decide, fun c => ?_⟩, by decide⟩
  simp only [List.mem_cons, List.not_mem_nil, or_false]
  omega

end CP
