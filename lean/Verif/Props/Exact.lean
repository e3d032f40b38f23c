import Verif.Props.Pack
import Verif.Props.TextNames
/-!
# C11, C13, C38, C40: what happens beyond the limits of the partial theorems

These say for all inputs what the program does where a property as stated is false.
-/

namespace CP

open Spec

/-- C11 for all packs: after `mask_reset` the mask is as long as the lowest channel, and
True exactly at the elements that are not NaN and, when mindur is set, in a run of such
elements that is long enough. -/
theorem C11_exact (p : Pack) (k : Int) (a : Arr) (ha : dget p.data k = some a)
    (hmin : ∀ k' ∈ dkeys p.data, k ≤ k') :
    p.maskReset.mask.isBool = true ∧ p.maskReset.mask.bits.length = a.els.length ∧
    ∀ i, p.maskReset.mask.bits[i]? = some true ↔
      match p.mindur with
      | none => ∃ v, a.els[i]? = some v ∧ v ≠ .nan
      | some d => InRunWith (fun n => d ≤ (n : Int)) (a.els.map fun v => decide (v ≠ .nan)) i := by
  have hself : a.els.map selfEq = a.els.map fun v => decide (v ≠ .nan) := by
    apply List.map_congr_left
    intro v _
    cases v <;> simp [selfEq]
  rcases maskReset_eq p with ⟨hd, _⟩ | ⟨k', a', ha', hmin', h⟩
  · rw [hd] at ha; simp [dget] at ha
  · have hk : k ∈ dkeys p.data := dget_isSome.1 (by rw [ha]; rfl)
    have hk' : k' ∈ dkeys p.data := dget_isSome.1 (by rw [ha']; rfl)
    have : k = k' := by have := hmin k' hk'; have := hmin' k hk; omega
    subst this
    rw [ha] at ha'
    have := Option.some.inj ha'
    subst this
    rw [h, setMask_mask, hself]
    cases p.mindur with
    | none =>
      refine ⟨rfl, by simp, fun i => ?_⟩
      rw [List.getElem?_map, Option.map_eq_some_iff]
      simp
    | some d =>
      refine ⟨rfl, by simp [durationFold_length], fun i => ?_⟩
      dsimp only
      rw [durationFold_true]
      have : keeps d true = fun n : Nat => d ≤ (n : Int) := by funext n; simp [keeps]
      rw [this]

example : (Pack.init [(0, ⟨.f, [.flt 1, .nan, .flt 2]⟩)] []).maskReset.mask.bits =
    [true, false, true] := by decide +kernel

/-- The data a pack has after `append_pack`, if names are left out of it. -/
def dataAppended (E : NpEnv) (p o : Pack) : Pack × Option Exc :=
  { p with names := [] }.appendPack E { o with names := [] }

/-- C13 for all packs: `append_pack` raises ValueError exactly if the data keys do not
align, and then nothing has changed, or the names do not while the data could be appended,
and then the data (but nothing else) is that of a pack that took the append. -/
theorem C13_exact (E : NpEnv) (p o : Pack) :
    ((p.appendPack E o).2 = some .valueError ↔
      ¬ Aligned (dkeys p.data) (dkeys o.data) ∨
      (¬ Aligned (dkeys p.names) (dkeys o.names) ∧ (dataAppended E p o).2 = none)) ∧
    (¬ Aligned (dkeys p.data) (dkeys o.data) → p.appendPack E o = (p, some .valueError)) ∧
    (¬ Aligned (dkeys p.names) (dkeys o.names) → (dataAppended E p o).2 = none →
      p.appendPack E o =
        ({ p with data := (dataAppended E p o).1.data }, some .valueError)) := by
  have dk : ∀ {ν : Type} (d : List (Int × ν)), dkeys d = [] ↔ d = [] := by
    intro ν d; simp [dkeys]
  have al : ∀ {ν : Type} (d o : List (Int × ν)), ¬ Aligned (dkeys d) (dkeys o) ↔
      d ≠ [] ∧ o ≠ [] ∧ sameKeys (dkeys d) (dkeys o) = false := by
    intro ν d o
    unfold Aligned
    rw [dk, dk, ← sameKeys_iff]
    simp
  have hdata : dataAppended E p o = match appendData E p.data o.data with
      | (d, some e) => ({ p with data := d, names := [] }, some e)
      | (d, none) => (Pack.maskReset { p with
          data := d, names := [], filenames := p.filenames ++ o.filenames }, none) := by
    unfold dataAppended Pack.appendPack
    dsimp only
    cases appendData E p.data o.data with
    | mk d e => cases e <;> simp [appendNames]
  have hD : ¬ Aligned (dkeys p.data) (dkeys o.data) →
      p.appendPack E o = (p, some .valueError) := by
    intro hd
    obtain ⟨d1, d2, d3⟩ := (al _ _).1 hd
    have hda : appendData E p.data o.data = (p.data, some .valueError) := by
      unfold appendData
      rw [if_neg d1, if_neg d2, d3]
      rfl
    unfold Pack.appendPack
    rw [hda]
  have hN : ¬ Aligned (dkeys p.names) (dkeys o.names) → (dataAppended E p o).2 = none →
      p.appendPack E o =
        ({ p with data := (dataAppended E p o).1.data }, some .valueError) := by
    intro hn hx
    obtain ⟨n1, n2, n3⟩ := (al _ _).1 hn
    have hna : appendNames p.names o.names = (p.names, some .valueError) := by
      unfold appendNames
      rw [if_neg n1, if_neg n2, n3]
      rfl
    rw [hdata] at hx ⊢
    cases he : appendData E p.data o.data with
    | mk d e =>
      rw [he] at hx
      cases e with
      | some e => simp at hx
      | none =>
        unfold Pack.appendPack
        rw [he]
        dsimp only
        rw [hna]
        dsimp only
        rw [(maskReset_frame _).1]
  refine ⟨⟨fun h => ?_, ?_⟩, hD, hN⟩
  · by_cases hd : Aligned (dkeys p.data) (dkeys o.data)
    · right
      by_cases hn : Aligned (dkeys p.names) (dkeys o.names)
      · exact absurd hd (C13_append_atomic_partial E p o hn h).2
      · refine ⟨hn, ?_⟩
        rw [hdata]
        cases he : appendData E p.data o.data with
        | mk d e =>
          cases e with
          | none => rfl
          | some e =>
            exfalso
            have h2 : ({ p with names := [] }.appendPack E { o with names := [] }).2 =
                some .valueError := by
              unfold Pack.appendPack at h ⊢
              rw [he] at h
              dsimp only at h ⊢
              rw [he]
              exact h
            exact (C13_append_atomic_partial E _ _ (.inl rfl) h2).2 hd
    · exact .inl hd
  · rintro (h | ⟨h, h2⟩)
    · rw [hD h]
    · rw [hN h h2]

example : (exA.appendPack exEnv (Pack.init [(0, ⟨.i, [.int 3]⟩)] [(1, .str ['B'])])).2 =
    some .valueError ∧
    (dataAppended exEnv exA (Pack.init [(0, ⟨.i, [.int 3]⟩)] [(1, .str ['B'])])).1.data =
      [(0, ⟨.i, [.int 1, .int 2, .int 3]⟩)] := by decide +kernel

/-- `asc` has the columns of `cols` in ascending order, without numbers below 0. -/
def AscendingOf (cols asc : List Int) : Prop :=
  Ascending asc ∧ ∀ c, c ∈ asc ↔ c ∈ cols ∧ 0 ≤ c

theorem pick_ascendingOf {α : Type} {cols asc : List Int} (h : AscendingOf cols asc) :
    (pick (some cols) : List α → List α) = pick (some asc) := by
  funext l
  unfold pick
  congr 2
  funext x
  unfold keepCol
  have := h.2 (x.2 : Int)
  simp [this]

/-- The dict of what is picked by columns in any order: the j-th column number gets the
j-th column by position. -/
theorem dget_picked_any {α : Type} {cols asc : List Int} (hn : cols.Nodup)
    (h : AscendingOf cols asc) (l : List α) (k : Int) (x : α) :
    dget (dictOf ((colKeys (some cols) (pick (some cols) l).length).zip (pick (some cols) l))) k =
      some x ↔ ∃ (j : Nat) (c : Int), cols[j]? = some k ∧ asc[j]? = some c ∧
        dget (dictOf ((colKeys none l.length).zip l)) c = some x := by
  have e2 : ∀ c x, 0 ≤ c → (dget (dictOf ((colKeys none l.length).zip l)) c = some x ↔
      l[c.toNat]? = some x) := by
    intro c x hk
    rw [dget_dictOf_zip (colKeys_nodup _)]
    constructor
    · rintro ⟨i, h1, h2⟩
      have := (colKeys_get.1 h1).2
      rwa [show c.toNat = i by omega]
    · intro h2
      exact ⟨c.toNat, colKeys_get.2 ⟨(List.getElem?_eq_some_iff.1 h2).1, by omega⟩, h2⟩
  rw [dget_dictOf_zip (by exact hn), pick_ascendingOf h]
  constructor
  · rintro ⟨i, h1, h2⟩
    rw [pick_get h.1] at h2
    cases hc : asc[i]? with
    | none => rw [hc] at h2; simp at h2
    | some c =>
      rw [hc] at h2
      exact ⟨i, c, h1, hc, (e2 c x (h.1.2 c (List.mem_of_getElem? hc))).2 h2⟩
  · rintro ⟨i, c, h1, h2, h3⟩
    refine ⟨i, h1, ?_⟩
    rw [pick_get h.1, h2]
    exact (e2 c x (h.1.2 c (List.mem_of_getElem? h2))).1 h3

/-- C38 for column numbers in any order (none given twice): under the j-th number given
there is the j-th of these columns by position in the file, and so for the names. -/
theorem C38_exact (fl : FloatS) (h : Hint) (f : TFile) (a : TextArgs) (cols asc : List Int)
    (hn : cols.Nodup) (hasc : AscendingOf cols asc)
    (ha : a.names = [] ∧ a.usecols = none ∧ a.debug = false)
    (data : List (Int × List Val)) (names : List (Int × Val))
    (hp : textpack fl h f a = .ok (data, names)) :
    ∃ data' names', textpack fl h f { a with usecols := some cols } = .ok (data', names') ∧
      (∀ k x, dget data' k = some x ↔
        ∃ (j : Nat) (c : Int), cols[j]? = some k ∧ asc[j]? = some c ∧ dget data c = some x) ∧
      (∀ k x, dget names' k = some x ↔
        ∃ (j : Nat) (c : Int), cols[j]? = some k ∧ asc[j]? = some c ∧ dget names c = some x) := by
  obtain ⟨ha1, ha2, ha3⟩ := ha
  have hn2 : ({ a with usecols := some cols } : TextArgs).normal =
      { a.normal with usecols := some cols } := by
    unfold TextArgs.normal
    simp only [ha1, ne_eq, not_true_eq_false, if_false]
    split <;> simp [ha1]
  have hn1 : a.normal.usecols = none ∧ a.normal.debug = false ∧ a.normal.names = [] := by
    unfold TextArgs.normal
    simp only [ha1, ne_eq, not_true_eq_false, if_false]
    split <;> simp [ha1, ha2, ha3]
  unfold textpack at hp ⊢
  rw [hn2]
  generalize a.normal = b at hp hn1 ⊢
  obtain ⟨hb1, hb2, hb3⟩ := hn1
  dsimp only at hp ⊢
  simp only [hb1, hb2, hb3, Bool.false_eq_true, if_false] at hp ⊢
  split at hp
  · simp at hp
  · rename_i l hl
    obtain ⟨ns, out, exc⟩ := l
    cases exc with
    | some e => simp [plainData] at hp
    | none =>
      obtain ⟨h1, h2⟩ := linetuples_pick (u := some cols) hl
      rw [h1]
      simp only [plainData] at hp ⊢
      simp only [Except.ok.injEq, Prod.mk.injEq] at hp
      obtain ⟨rfl, rfl⟩ := hp
      refine ⟨_, _, rfl, ?_, ?_⟩
      · intro k x
        have hz : zipStar (out.map (pick (some cols))) = pick (some cols) (zipStar out) := by
          rw [pick_ascendingOf hasc, pick_ascendingOf hasc, zipStar_pick hasc.1 h2]
        rw [hz, dget_picked_any hn hasc]
      · intro k x
        cases hh : b.hasnames with
        | true => simp only [if_true]; rw [dget_picked_any hn hasc]
        | false => simp [dget]

example : AscendingOf [2, 0, -1] [0, 2] ∧ [2, 0, -1].Nodup ∧
    textpack exFloat .text ⟨"1;2;3\n4;5;6\n".toList, 0⟩ { delimiter := some [';'], usecols := some [2, 0, -1] } =
      .ok ([(2, [.flt 1, .flt 4]), (0, [.flt 3, .flt 6])], []) := by
  refine ⟨⟨⟨by decide, by decide⟩, fun c => ?_⟩, by decide, by decide +kernel⟩
  simp only [List.mem_cons, List.not_mem_nil, or_false]
  omega

/-! ## C40 for lines of any lengths -/

/-- The number column `j` gets. -/
def KeyAt (u : Option (List Int)) (j : Nat) (k : Int) : Prop :=
  match u with
  | none => k = j
  | some cols => cols[j]? = some k

theorem dget_keys_row {u : Option (List Int)} (hu : ∀ cols, u = some cols → cols.Nodup)
    (row : List Val) (k : Int) (x : Val) :
    dget ((colKeys u row.length).zip row) k = some x ↔ ∃ j, KeyAt u j k ∧ row[j]? = some x := by
  cases u with
  | none =>
    rw [dget_zip_nodup (colKeys_nodup _)]
    constructor
    · rintro ⟨j, h1, h2⟩; exact ⟨j, (colKeys_get.1 h1).2, h2⟩
    · rintro ⟨j, h1, h2⟩
      exact ⟨j, colKeys_get.2 ⟨(List.getElem?_eq_some_iff.1 h2).1, h1⟩, h2⟩
  | some cols => exact dget_zip_nodup (hu cols rfl)

theorem KeyAt.unique {u : Option (List Int)} (hu : ∀ cols, u = some cols → cols.Nodup) {j j' : Nat}
    {k : Int} (h : KeyAt u j k) (h' : KeyAt u j' k) : j = j' := by
  cases u with
  | none => simp only [KeyAt] at h h'; omega
  | some cols =>
    exact (List.getElem?_inj (List.getElem?_eq_some_iff.1 h).1 (hu cols rfl)).1
      (by rw [show cols[j]? = some k from h, show cols[j']? = some k from h'])

theorem colKeys_row_nodup {u : Option (List Int)} (hu : ∀ cols, u = some cols → cols.Nodup)
    (n : Nat) : (colKeys u n).Nodup := by
  cases u with
  | none => exact colKeys_nodup n
  | some cols => exact hu cols rfl

theorem dget_debug_rows {u : Option (List Int)} (hu : ∀ cols, u = some cols → cols.Nodup)
    (rows : List (List Val)) (d : List (Int × List Val)) (k : Int) :
    (∀ j, KeyAt u j k →
      dget (rows.foldl (fun d row => addRow (colKeys u row.length) row d) d) k =
        if rows.filterMap (·[j]?) = [] then dget d k
        else some ((dget d k).getD [] ++ rows.filterMap (·[j]?))) ∧
    ((∀ j, ¬ KeyAt u j k) →
      dget (rows.foldl (fun d row => addRow (colKeys u row.length) row d) d) k = dget d k) := by
  induction rows generalizing d with
  | nil => simp
  | cons row rows ih =>
    obtain ⟨ih1, ih2⟩ := ih (addRow (colKeys u row.length) row d)
    have ha := dget_addRow (colKeys_row_nodup hu row.length) row d k
    constructor
    · intro j hj
      rw [List.foldl_cons, ih1 j hj]
      cases hr : row[j]? with
      | none =>
        have : dget ((colKeys u row.length).zip row) k = none := by
          cases hx : dget ((colKeys u row.length).zip row) k with
          | none => rfl
          | some x =>
            obtain ⟨j', h1, h2⟩ := (dget_keys_row hu row k x).1 hx
            rw [hj.unique hu h1, h2] at hr
            simp at hr
        rw [this] at ha
        dsimp only at ha
        rw [ha, List.filterMap_cons, hr]
      | some x =>
        rw [(dget_keys_row hu row k x).2 ⟨j, hj, hr⟩] at ha
        dsimp only at ha
        rw [ha, List.filterMap_cons, hr]
        by_cases he : rows.filterMap (·[j]?) = [] <;> simp [he]
    · intro hj
      rw [List.foldl_cons, ih2 hj]
      have : dget ((colKeys u row.length).zip row) k = none := by
        cases hx : dget ((colKeys u row.length).zip row) k with
        | none => rfl
        | some x =>
          obtain ⟨j', h1, h2⟩ := (dget_keys_row hu row k x).1 hx
          exact absurd h1 (hj j')
      rw [this] at ha
      exact ha

theorem filterMap_short {ls : List (List Val)} {j : Nat} {m : List Val} (hm : m ∈ ls)
    (h : m.length ≤ j) : (ls.filterMap (·[j]?)).length < ls.length := by
  induction ls with
  | nil => simp at hm
  | cons l ls ih =>
    rw [List.filterMap_cons]
    rcases List.mem_cons.1 hm with rfl | hm
    · rw [List.getElem?_eq_none h]
      have := List.length_filterMap_le (·[j]?) ls
      simp only [List.length_cons]; omega
    · have := ih hm
      split <;> simp only [List.length_cons] <;> omega

/-- C40 for all streams, with column numbers that are distinct: debug fails if and only if
the read without it fails, gives the same names, and has all columns of the read without it
unchanged; what it may have besides are columns that are shorter, of the lines with more
fields than others. -/
theorem C40_exact (fl : FloatS) (h : Hint) (f : TFile) (a : TextArgs)
    (hcols : ∀ cols, a.usecols = some cols → cols.Nodup) (hnames : (dkeys a.names).Nodup) :
    (∀ data names, textpack fl h f { a with debug := false } = .ok (data, names) →
      ∃ data', textpack fl h f { a with debug := true } = .ok (data', names) ∧
        (∀ k col, dget data k = some col → dget data' k = some col) ∧
        ∀ k col, dget data' k = some col → dget data k = some col ∨
          (dget data k = none ∧ ∀ c col', dget data c = some col' → col.length < col'.length)) ∧
    ((∃ e, textpack fl h f { a with debug := false } = .error e) ↔
      ∃ e', textpack fl h f { a with debug := true } = .error e') := by
  have hn : ∀ b, ({ a with debug := b } : TextArgs).normal = { a.normal with debug := b } := by
    intro b
    unfold TextArgs.normal
    dsimp only
    split
    · rfl
    · split <;> rfl
  have hnd : ∀ cols, a.normal.usecols = some cols → cols.Nodup := by
    unfold TextArgs.normal
    split
    · intro cols hc
      simp only [Option.some.injEq] at hc
      subst hc
      exact (sortInts_perm _).nodup_iff.2 hnames
    · split <;> exact hcols
  unfold textpack
  rw [hn true, hn false]
  dsimp only
  generalize a.normal = b at *
  simp only [if_true, Bool.false_eq_true, if_false]
  cases linetuples fl h b.delimiter b.usecols b.converters b.stripstrings b.hasnames
    (f.skip b.skiprows.toNat) with
  | error e => simp
  | ok l =>
    obtain ⟨ns, out, exc⟩ := l
    dsimp only
    cases exc with
    | some e =>
      simp only [plainData, debugData]
      by_cases ho : out = [] <;> simp [ho]
    | none =>
      simp only [plainData, debugData]
      refine ⟨?_, by simp⟩
      intro data names heq
      simp only [Except.ok.injEq, Prod.mk.injEq] at heq
      obtain ⟨rfl, rfl⟩ := heq
      have hplain : ∀ k col, dget (dictOf ((colKeys b.usecols (zipStar out).length).zip (zipStar out))) k =
          some col ↔ ∃ j, KeyAt b.usecols j k ∧ (zipStar out)[j]? = some col := by
        intro k col
        rw [dget_dictOf_zip (colKeys_row_nodup hnd _)]
        cases b.usecols with
        | none =>
          constructor
          · rintro ⟨j, h1, h2⟩; exact ⟨j, (colKeys_get.1 h1).2, h2⟩
          · rintro ⟨j, h1, h2⟩
            exact ⟨j, colKeys_get.2 ⟨(List.getElem?_eq_some_iff.1 h2).1, h1⟩, h2⟩
        | some cols => rfl
      have hcol : ∀ j, out ≠ [] → (∀ m ∈ out, j < m.length) →
          (zipStar out)[j]? = some (out.filterMap (·[j]?)) := by
        intro j hne hall
        rw [zipStar_get]
        exact ⟨hne, hall, filterMap_col hall⟩
      refine ⟨_, rfl, ?_, ?_⟩
      · intro k col hc
        obtain ⟨j, hj, hz⟩ := (hplain k col).1 hc
        obtain ⟨hne, hall, hlen, _⟩ := (zipStar_get out).1 hz
        rw [(dget_debug_rows hnd out [] k).1 j hj]
        have he := hcol j hne hall
        rw [hz] at he
        have he := Option.some.inj he
        rw [← he]
        have : col ≠ [] := by
          intro h0; rw [h0] at hlen
          exact hne (List.length_eq_zero_iff.1 hlen.symm)
        simp [this, dget]
      · intro k col hc
        by_cases hk : ∃ j, KeyAt b.usecols j k
        · obtain ⟨j, hj⟩ := hk
          rw [(dget_debug_rows hnd out [] k).1 j hj] at hc
          split at hc
          · simp [dget] at hc
          · rename_i hne
            simp only [dget, Option.getD_none, List.nil_append, Option.some.injEq] at hc
            subst hc
            by_cases hall : ∀ m ∈ out, j < m.length
            · left
              rw [hplain]
              exact ⟨j, hj, hcol j (by rintro rfl; simp at hne) hall⟩
            · right
              have hex : ∃ m ∈ out, m.length ≤ j := by
                simp only [Classical.not_forall] at hall
                obtain ⟨m, hm, hlt⟩ := hall
                exact ⟨m, hm, by omega⟩
              obtain ⟨m, hm, hlt⟩ := hex
              constructor
              · cases hx : dget (dictOf ((colKeys b.usecols (zipStar out).length).zip (zipStar out))) k with
                | none => rfl
                | some c =>
                  obtain ⟨j', hj', hz⟩ := (hplain k c).1 hx
                  rw [← hj.unique hnd hj'] at hz
                  exact absurd ((zipStar_get out).1 hz).2.1 hall
              · intro c col' hcc
                obtain ⟨j', _, hz⟩ := (hplain c col').1 hcc
                rw [((zipStar_get out).1 hz).2.2.1]
                exact filterMap_short hm hlt
        · rw [(dget_debug_rows hnd out [] k).2 (fun j hj => hk ⟨j, hj⟩)] at hc
          simp [dget] at hc

example : textpack exFloat .text ⟨"1;2\n3\n".toList, 0⟩ { delimiter := some [';'] } =
      .ok ([(0, [.flt 1, .flt 3])], []) ∧
    textpack exFloat .text ⟨"1;2\n3\n".toList, 0⟩ { delimiter := some [';'], debug := true } =
      .ok ([(0, [.flt 1, .flt 3]), (1, [.flt 2])], []) := C40_counterexample

end CP
