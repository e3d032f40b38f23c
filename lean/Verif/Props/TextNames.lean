import Verif.Props.Text
/-!
# C39, C40: the names of the columns, and debug
-/

namespace CP

open Spec

theorem stripBy_idem (p : Char → Bool) (s : List Char) : stripBy p (stripBy p s) = stripBy p s := by
  obtain ⟨a, b, _, _, _, h4, h5⟩ := stripBy_spec p s
  have := stripBy_pad (p := p) (a := []) (t := stripBy p s) (b := []) (by simp) (by simp) h4 h5
  simpa using this

theorem namesFunc_means {fl : FloatS} {h : Hint} {s : List Char} {v : Val} :
    (namesFunc h).apply fl h (stripBy h.ws s) = .ok v ↔ TextMeans h true s v := by
  rw [← textFunc_means (fl := fl) (st := true)]
  cases h <;> simp only [namesFunc, textFunc, Func.apply, if_true, stripBy_idem]

/-- The names are in front of what is read without them. -/
theorem tuplesFrom_names {fl : FloatS} {h : Hint} {d : Option (List Char)}
    {convs : List (Int × (List Char → Except Exc Val))} {st : Bool} {hs : List (List Char)} {f : TFile}
    {first : List Char} {rest : List (List Char)} {fs : List (List Char)}
    (hl : LinesOf (f.chars.drop f.pos) (first :: rest)) (hf : HasFields (White h) d first fs) :
    (∀ ns, mapE ((namesFunc h).apply fl h) (hs.take fs.length) = .ok ns →
      tuplesFrom fl h d none convs st hs f =
        (tuplesFrom fl h d none convs st [] f).map fun l => { l with names := ns }) ∧
    (∀ e, mapE ((namesFunc h).apply fl h) (hs.take fs.length) = .error e →
      ∃ e', tuplesFrom fl h d none convs st hs f = .error e') := by
  have h1 := readline_linesOf hl
  unfold tuplesFrom
  rw [h1]
  dsimp only
  rw [(hasFields_split hf).2]
  dsimp only
  cases hfu : setConverters (unifyFuncs (fs.map (funcOf fl h st))) convs with
  | error e => exact ⟨fun _ _ => rfl, fun _ _ => ⟨e, rfl⟩⟩
  | ok funcs =>
    simp only [pick_none, List.take_nil, mapE]
    refine ⟨?_, ?_⟩
    · intro ns hns
      rw [hns]
      dsimp only
      cases rowTuple fl h none funcs fs <;> rfl
    · intro e he
      rw [he]
      exact ⟨e, rfl⟩

/-- C39 without a selection (with one, see `C39_names_selected_partial`): a read with
`hasnames` has the data of one without, and under the number of a column the stripped field
of the line above the data. -/
theorem C39_names_partial (fl : FloatS) (h : Hint) (f : TFile) (a : TextArgs)
    (skipped rest : List (List Char)) (header first : List Char) (hs fs : List (List Char))
    (hl : LinesOf (f.chars.drop f.pos) (skipped ++ header :: first :: rest))
    (ha : a.names = [] ∧ a.hasnames = true ∧ a.usecols = none)
    (hsk : a.skiprows = skipped.length + 1)
    (hh : HasFields (White h) a.delimiter header hs)
    (hf : HasFields (White h) a.delimiter first fs) :
    ((∃ r, textpack fl h f a = .ok r) ↔
      (∃ r, textpack fl h f { a with hasnames := false } = .ok r) ∧
      ∀ (j : Nat) s, j < fs.length → hs[j]? = some s → ∃ v, TextMeans h true s v) ∧
    ∀ data names, textpack fl h f a = .ok (data, names) →
      textpack fl h f { a with hasnames := false } = .ok (data, []) ∧
      ∀ k v, dget names k = some v ↔
        ∃ (j : Nat) (s : List Char), k = j ∧ j < fs.length ∧ hs[j]? = some s ∧ TextMeans h true s v := by
  obtain ⟨ha1, ha2, ha3⟩ := ha
  obtain ⟨p, hskip, hl1⟩ := skip_linesOf hl
  have hl2 := linesOf_tail hl1
  rw [List.drop_drop] at hl2
  obtain ⟨p', hskip', hl3⟩ := skip_linesOf (ss := skipped ++ [header]) (ls := first :: rest) (f := f)
    (by simpa using hl)
  -- both ways lead to the first line of data
  have hpos : p' = p + header.length := by
    have e : ∀ n (g : TFile), g.skip (n + 1) = (g.skip n).readline.2 := by
      intro n
      induction n with
      | zero => intro g; rfl
      | succ n ih => intro g; exact ih g.readline.2
    rw [List.length_append, List.length_cons, List.length_nil, Nat.zero_add, e, hskip,
      readline_linesOf (f := { f with pos := p }) hl1] at hskip'
    exact (TFile.mk.injEq .. ▸ hskip').2.symm
  subst hpos
  obtain ⟨t1, t2⟩ := tuplesFrom_names (fl := fl) (convs := a.converters) (st := a.stripstrings)
    (hs := hs.map (stripBy h.ws)) (f := { f with pos := p + header.length }) hl2 hf
  let T := tuplesFrom fl h a.delimiter none a.converters a.stripstrings [] { f with pos := p + header.length }
  let data? := fun l => if a.debug then debugData none l else plainData none l
  have hdn : ∀ l ns, data? { l with names := ns } = data? l := by
    intro l ns; rfl
  have h0 : textpack fl h f { a with hasnames := false } =
      match T with
      | .error e => .error e
      | .ok l => match data? l with
        | .error e => .error e
        | .ok data => .ok (data, []) := by
    unfold textpack
    have hnorm : ({ a with hasnames := false } : TextArgs).normal = { a with hasnames := false } := by
      simp [TextArgs.normal, ha1]
    rw [hnorm]
    dsimp only
    have : a.skiprows.toNat = (skipped ++ [header]).length := by simp; omega
    rw [this, hskip']
    unfold linetuples
    simp only [ha1, ha3, Bool.false_eq_true, if_false]
    rfl
  have h1 : textpack fl h f a =
      match tuplesFrom fl h a.delimiter none a.converters a.stripstrings (hs.map (stripBy h.ws))
        { f with pos := p + header.length } with
      | .error e => .error e
      | .ok l => match data? l with
        | .error e => .error e
        | .ok data => .ok (data, dictOf ((colKeys none l.names.length).zip l.names)) := by
    unfold textpack
    have hnorm : a.normal = { a with skiprows := a.skiprows - 1 } := by
      simp [TextArgs.normal, ha1, ha2]
    rw [hnorm]
    dsimp only
    have : (a.skiprows - 1).toNat = skipped.length := by omega
    rw [this, hskip]
    unfold linetuples
    rw [if_pos ha2, readline_linesOf (f := { f with pos := p }) hl1]
    unfold headerFields
    dsimp only
    rw [(hasFields_split hh).2]
    simp only [ha2, ha3, if_true]
    rfl
  have hmeans : ∀ ns, mapE ((namesFunc h).apply fl h) ((hs.map (stripBy h.ws)).take fs.length) = .ok ns →
      ∀ k v, dget (dictOf ((colKeys none ns.length).zip ns)) k = some v ↔
        ∃ (j : Nat) (s : List Char), k = j ∧ j < fs.length ∧ hs[j]? = some s ∧ TextMeans h true s v := by
    intro ns hns k v
    rw [mapE_ok_iff] at hns
    obtain ⟨n1, n2⟩ := hns
    rw [dget_dictOf_zip (colKeys_nodup _)]
    have hget : ∀ j : Nat, ((hs.map (stripBy h.ws)).take fs.length)[j]? =
        if j < fs.length then (hs[j]?).map (stripBy h.ws) else none := by
      intro j
      rw [List.getElem?_take]
      simp
    constructor
    · rintro ⟨i, h1, h2⟩
      obtain ⟨h3, h4⟩ := colKeys_get.1 h1
      have hlt := (List.getElem?_eq_some_iff.1 h2).1
      rw [n1] at hlt
      have hsome := List.getElem?_eq_getElem hlt
      obtain ⟨b, hb1, hb2⟩ := n2 i _ hsome
      rw [h2, Option.some.injEq] at hb1
      subst hb1
      rw [hget] at hsome
      split at hsome
      · rename_i hi
        cases hhi : hs[i]? with
        | none => rw [hhi] at hsome; simp at hsome
        | some s =>
          rw [hhi, Option.map_some, Option.some.injEq] at hsome
          rw [← hsome, namesFunc_means] at hb2
          exact ⟨i, s, h4, hi, hhi, hb2⟩
      · simp at hsome
    · rintro ⟨j, s, rfl, hj, hs', hv⟩
      have hsome := hget j
      rw [if_pos hj, hs', Option.map_some] at hsome
      obtain ⟨b, hb1, hb2⟩ := n2 j _ hsome
      have : b = v := by
        have h9 := (namesFunc_means (fl := fl)).2 hv
        rw [hb2] at h9
        exact Except.ok.inj h9
      subst this
      exact ⟨j, colKeys_get.2 ⟨(List.getElem?_eq_some_iff.1 hb1).1, rfl⟩, hb1⟩
  rw [h0, h1]
  cases hns : mapE ((namesFunc h).apply fl h) ((hs.map (stripBy h.ws)).take fs.length) with
  | error e =>
    obtain ⟨e', he'⟩ := t2 e hns
    rw [he']
    refine ⟨?_, by simp⟩
    simp only [reduceCtorEq, exists_false, false_iff, not_and]
    intro _ hall
    have : ∃ ns, mapE ((namesFunc h).apply fl h) ((hs.map (stripBy h.ws)).take fs.length) = .ok ns := by
      apply mapE_total
      intro x hx
      obtain ⟨j, hj⟩ := List.mem_iff_getElem?.1 hx
      rw [List.getElem?_take] at hj
      split at hj
      · rename_i hjl
        rw [List.getElem?_map, Option.map_eq_some_iff] at hj
        obtain ⟨s, hs1, rfl⟩ := hj
        obtain ⟨v, hv⟩ := hall j s hjl hs1
        exact ⟨v, namesFunc_means.2 hv⟩
      · simp at hj
    rw [hns] at this
    simp at this
  | ok ns =>
    rw [t1 ns hns]
    have hex : ∀ (j : Nat) s, j < fs.length → hs[j]? = some s → ∃ v, TextMeans h true s v := by
      intro j s hj hs'
      obtain ⟨n1, n2⟩ := mapE_ok_iff.1 hns
      obtain ⟨b, _, hb⟩ := n2 j (stripBy h.ws s) (by
        rw [List.getElem?_take, if_pos hj, List.getElem?_map, hs']; rfl)
      exact ⟨b, namesFunc_means.1 hb⟩
    cases hT : T with
    | error e =>
      have hT' : tuplesFrom fl h a.delimiter none a.converters a.stripstrings []
        { f with pos := p + header.length } = .error e := hT
      rw [hT']
      simp [Except.map]
    | ok l =>
      have hT' : tuplesFrom fl h a.delimiter none a.converters a.stripstrings []
        { f with pos := p + header.length } = .ok l := hT
      rw [hT']
      simp only [Except.map, hdn]
      cases hd : data? l with
      | error e => simp
      | ok data =>
        refine ⟨⟨fun _ => ⟨⟨_, rfl⟩, hex⟩, fun _ => ⟨_, rfl⟩⟩, ?_⟩
        intro data' names' heq
        simp only [Except.ok.injEq, Prod.mk.injEq] at heq
        obtain ⟨rfl, rfl⟩ := heq
        exact ⟨rfl, hmeans ns hns⟩

/-- C39 with increasing `usecols` (false for others, see `C39_counterexample`): names are
those of the selected columns; if no line is shorter than the first line of data, names and
data have the same keys. -/
theorem C39_names_selected_partial (fl : FloatS) (h : Hint) (f : TFile) (a : TextArgs)
    (skipped rest : List (List Char)) (header first : List Char) (hs fs : List (List Char))
    (rs : List (List (List Char))) (cols : List Int) (hasc : Ascending cols)
    (hl : LinesOf (f.chars.drop f.pos) (skipped ++ header :: first :: rest))
    (ha : a.names = [] ∧ a.hasnames = true ∧ a.usecols = none ∧ a.debug = false)
    (hsk : a.skiprows = skipped.length + 1)
    (hh : HasFields (White h) a.delimiter header hs)
    (hf : HasFields (White h) a.delimiter first fs) (hr : Rows (White h) a.delimiter rest rs)
    (hc : ConvertersFit a.converters fs.length)
    (data0 : List (Int × List Val)) (names0 : List (Int × Val))
    (hp0 : textpack fl h f a = .ok (data0, names0)) :
    ∃ data names, textpack fl h f { a with usecols := some cols } = .ok (data, names) ∧
      (∀ k v, dget names k = some v ↔ k ∈ cols ∧
        ∃ (j : Nat) (s : List Char), k = j ∧ j < fs.length ∧ hs[j]? = some s ∧ TextMeans h true s v) ∧
      ((∀ r ∈ hs :: rs, fs.length ≤ r.length) →
        ∀ k, (∃ v, dget names k = some v) ↔ ∃ col, dget data k = some col) := by
  obtain ⟨ha1, ha2, ha3, ha4⟩ := ha
  obtain ⟨data, names, hp, hd, hn⟩ := C38_usecols_partial fl h f a cols hasc ⟨ha1, ha3, ha4⟩ _ _ hp0
  obtain ⟨c1, c2⟩ := C39_names_partial fl h f a skipped rest header first hs fs hl ⟨ha1, ha2, ha3⟩ hsk hh hf
  obtain ⟨hplain, hnames⟩ := c2 _ _ hp0
  refine ⟨data, names, hp, ?_, ?_⟩
  · intro k v
    rw [hn]
    split
    · rename_i hk; rw [hnames]; simp [hk]
    · rename_i hk; simp [hk]
  · intro hw k
    rw [hd, hn]
    split
    · obtain ⟨_, h2⟩ := C41_column_types fl h f { a with hasnames := false } (skipped ++ [header]) rest
        first fs rs (by simpa using hl) ⟨ha1, rfl, ha3, ha4⟩ (by simpa using hsk) hf hr hc
      obtain ⟨_, hkeys, _⟩ := h2 _ _ hplain
      rw [hkeys]
      constructor
      · rintro ⟨v, hv⟩
        obtain ⟨j, s, rfl, hj, _⟩ := (hnames _ _).1 hv
        refine ⟨j, rfl, ?_⟩
        intro r hr
        rcases List.mem_cons.1 hr with rfl | hr
        · exact hj
        · have := hw r (by simp [hr]); omega
      · rintro ⟨j, rfl, hj⟩
        have hjf := hj fs (by simp)
        have hjh := hw hs (by simp)
        have hs' : hs[j]? = some (hs[j]'(by omega)) := List.getElem?_eq_getElem _
        obtain ⟨v, hv⟩ := (c1.1 ⟨_, hp0⟩).2 j _ hjf hs'
        exact ⟨v, (hnames _ _).2 ⟨j, _, rfl, hjf, hs', hv⟩⟩
    · simp

theorem C39_counterexample :
    textpack exFloat .text ⟨"a;b\n1;2\n".toList, 0⟩
      { delimiter := some [';'], skiprows := 1, hasnames := true, usecols := some [1, 0] } =
      .ok ([(1, [.flt 1]), (0, [.flt 2])], [(1, .str ['a']), (0, .str ['b'])]) := by
  decide +kernel

example : textpack exFloat .text ⟨"# c\n a;b ;c\n1;2\n3;4\n".toList, 0⟩
    { delimiter := some [';'], skiprows := 2, hasnames := true } =
    .ok ([(0, [.flt 1, .flt 3]), (1, [.flt 2, .flt 4])], [(0, .str ['a']), (1, .str ['b'])]) := by
  decide +kernel

/-- The hypotheses of C39 hold of an example, with a line above. -/
example : LinesOf "# c\na b\n1 2\n3 4\n".toList (["# c\n".toList] ++ "a b\n".toList :: "1 2\n".toList :: ["3 4\n".toList]) ∧
    HasFields (White .text) none "a b\n".toList [['a'], ['b']] ∧
    HasFields (White .text) none "1 2\n".toList [['1'], ['2']] ∧
    Rows (White .text) none ["3 4\n".toList] [[['3'], ['4']]] ∧ Ascending [0, 1] := by
  have line : ∀ x y : Char, pySpace x = false → pySpace y = false →
      HasFields (White .text) none [x, ' ', y, '\n'] [[x], [y]] := by
    intro x y hx hy
    refine .white (by simp) ?_
    refine .cons (w := []) (f := [x]) (rest := [' ', y, '\n']) (by simp) (by simp) ?_ ?_
      (.cons (w := [' ']) (f := [y]) (rest := ['\n']) ?_ (by simp) ?_ ?_ (.nil ?_))
    · simp [White, hx]
    · intro c hc
      obtain rfl : ' ' = c := by simpa using hc
      show pySpace ' ' = true; decide
    · intro c hc
      obtain rfl : c = ' ' := by simpa using hc
      show pySpace ' ' = true; decide
    · simp [White, hy]
    · intro c hc
      obtain rfl : '\n' = c := by simpa using hc
      show pySpace '\n' = true; decide
    · intro c hc
      obtain rfl : c = '\n' := by simpa using hc
      show pySpace '\n' = true; decide
  refine ⟨?_, line 'a' 'b' (by decide) (by decide), line '1' '2' (by decide) (by decide),
    .row (line '3' '4' (by decide) (by decide)) .nil, ?_⟩
  · exact .cons (l := "# c".toList) (by decide) (.cons (l := "a b".toList) (by decide)
      (.cons (l := "1 2".toList) (by decide) (.cons (l := "3 4".toList) (by decide) .nil)))
  · constructor
    · decide
    · decide

/-! ## C40: debug -/

theorem setConverters_length {convs : List (Int × (List Char → Except Exc Val))} {funcs out : List Func}
    (h : setConverters funcs convs = .ok out) : out.length = funcs.length := by
  induction convs generalizing funcs with
  | nil => simp [setConverters] at h; rw [h]
  | cons c cs ih =>
    obtain ⟨k, g⟩ := c
    rw [setConverters] at h
    split at h
    · simp at h
    · rename_i funcs' hset
      rw [ih h]
      unfold setFunc at hset
      dsimp only at hset
      generalize (if k < 0 then k + (funcs.length : Int) else k) = j at hset
      split at hset
      · simp at hset
      · simp at hset; rw [← hset, List.length_set]

theorem pick_length {α β : Type} (u : Option (List Int)) (l : List α) (m : List β) (h : l.length = m.length) :
    (pick u l).length = (pick u m).length := by
  have : ∀ (n : Nat) (l : List α) (m : List β), l.length = m.length →
      (((l.zipIdx n).filter fun p => keepCol u p.2).map Prod.fst).length =
      (((m.zipIdx n).filter fun p => keepCol u p.2).map Prod.fst).length := by
    intro n l
    induction l generalizing n with
    | nil => intro m hm; cases m with
      | nil => rfl
      | cons => simp at hm
    | cons x xs ih => intro m hm; cases m with
      | nil => simp at hm
      | cons y ys =>
        have := ih (n + 1) ys (by simpa using hm)
        rw [List.zipIdx_cons, List.zipIdx_cons, List.filter_cons, List.filter_cons]
        dsimp only
        split
        · simp only [List.map_cons, List.length_cons]; rw [this]
        · exact this
  exact this 0 l m h

/-- If no line is shorter than the first one, all tuples have the same length. -/
theorem tuplesFrom_width {fl : FloatS} {h : Hint} {d : Option (List Char)} {usecols : Option (List Int)}
    {convs : List (Int × (List Char → Except Exc Val))} {st : Bool} {hs : List (List Char)} {f : TFile}
    {first : List Char} {rest : List (List Char)} {fs : List (List Char)}
    {rs : List (List (List Char))}
    (hl : LinesOf (f.chars.drop f.pos) (first :: rest)) (hf : HasFields (White h) d first fs)
    (hr : Rows (White h) d rest rs) (hw : ∀ r ∈ rs, fs.length ≤ r.length)
    {ns : List Val} {out : List (List Val)}
    (ht : tuplesFrom fl h d usecols convs st hs f = .ok ⟨ns, out, none⟩) :
    out ≠ [] ∧ ∃ m, ∀ row ∈ out, row.length = m := by
  have hcopy := ht
  unfold tuplesFrom at hcopy
  rw [readline_linesOf hl] at hcopy
  dsimp only at hcopy
  rw [(hasFields_split hf).2] at hcopy
  dsimp only at hcopy
  split at hcopy
  · simp at hcopy
  · rename_i funcs hfu
    split at hcopy
    · simp at hcopy
    · rename_i names hn
      obtain ⟨t1, t2⟩ := tuplesFrom_rows (fl := fl) (st := st) (convs := convs) hl hf hr hfu hn
      cases hm : mapE (rowTuple fl h usecols funcs) (fs :: rs) with
      | error e =>
        obtain ⟨o, ho, _⟩ := t2 e hm
        rw [ho] at ht
        simp at ht
      | ok o =>
        rw [t1 o hm] at ht
        simp only [Except.ok.injEq, Lines.mk.injEq] at ht
        obtain ⟨_, rfl, _⟩ := ht
        rw [mapE_ok_iff] at hm
        obtain ⟨m1, m2⟩ := hm
        refine ⟨by intro h0; rw [h0] at m1; simp at m1, (pick usecols funcs).length, ?_⟩
        intro row hrow
        obtain ⟨i, hi⟩ := List.mem_iff_getElem?.1 hrow
        have hil := (List.getElem?_eq_some_iff.1 hi).1
        rw [m1] at hil
        have hsome := List.getElem?_eq_getElem hil
        obtain ⟨b, hb1, hb2⟩ := m2 i _ hsome
        rw [hi, Option.some.injEq] at hb1
        subst hb1
        have hflen : funcs.length = fs.length := by
          rw [setConverters_length hfu, unifyFuncs_length, List.length_map]
        have hge : fs.length ≤ ((fs :: rs)[i]).length := by
          rcases List.mem_cons.1 (List.mem_of_getElem? hsome) with h0 | h0
          · rw [h0]; exact Nat.le_refl _
          · exact hw _ h0
        unfold rowTuple at hb2
        rw [(mapE_ok_iff.1 hb2).1]
        apply pick_length
        rw [List.length_zip]; omega

theorem dget_addRow {cols : List Int} (hnd : cols.Nodup) (row : List Val) (d : List (Int × List Val)) (k : Int) :
    dget (addRow cols row d) k =
      match dget (cols.zip row) k with
      | some x => some ((dget d k).getD [] ++ [x])
      | none => dget d k := by
  unfold addRow
  induction cols generalizing row d with
  | nil => simp [dget]
  | cons c cs ih =>
    cases row with
    | nil => simp [dget]
    | cons x xs =>
      rw [List.nodup_cons] at hnd
      rw [List.zip_cons_cons, List.foldl_cons, ih hnd.2]
      by_cases hk : c = k
      · subst hk
        have : dget (cs.zip xs) c = none := by
          cases hz : dget (cs.zip xs) c with
          | none => rfl
          | some y =>
            exfalso
            have : (c, y) ∈ cs.zip xs := by
              clear ih hnd
              induction cs generalizing xs with
              | nil => simp [dget] at hz
              | cons c' cs ih =>
                cases xs with
                | nil => simp [dget] at hz
                | cons x' xs =>
                  rw [List.zip_cons_cons, dget] at hz
                  rw [List.zip_cons_cons]
                  split at hz
                  · rename_i he; simp at hz; simp [he, hz]
                  · exact List.mem_cons_of_mem _ (ih xs hz)
            exact hnd.1 (List.of_mem_zip this).1
        rw [this]
        simp [dget, dget_dset]
      · have e : dget ((c, x) :: cs.zip xs) k = dget (cs.zip xs) k := by simp [dget, hk]
        have hk' : ¬ k = c := fun h => hk h.symm
        rw [e, dget_dset]
        simp [hk']

theorem filterMap_col {ls : List (List Val)} {j : Nat} (hls : ∀ m ∈ ls, j < m.length) :
    (ls.filterMap (·[j]?)).length = ls.length ∧
    ∀ i : Nat, (ls.filterMap (·[j]?))[i]? = (ls[i]?).bind (·[j]?) :=
  ⟨(filterMap_get' ls hls 0).1, fun i => (filterMap_get' ls hls i).2⟩

/-- Appending row by row gives the columns of the rows. -/
theorem dget_addRows {cols : List Int} (hnd : cols.Nodup) {m : Nat} (rows done : List (List Val))
    (d : List (Int × List Val)) (hu : ∀ r ∈ done ++ rows, r.length = m)
    (hd : ∀ k col, dget d k = some col ↔ ∃ i : Nat, cols[i]? = some k ∧ (zipStar done)[i]? = some col)
    (k : Int) (col : List Val) :
    dget (rows.foldl (fun d row => addRow cols row d) d) k = some col ↔
      ∃ i : Nat, cols[i]? = some k ∧ (zipStar (done ++ rows))[i]? = some col := by
  induction rows generalizing done d with
  | nil => simpa using hd k col
  | cons row rows ih =>
    rw [List.foldl_cons]
    have := ih (done ++ [row]) (addRow cols row d) (by simpa using hu) ?_
    · rw [this]; simp
    · intro k col
      rw [dget_addRow hnd]
      have hrow : row.length = m := hu row (by simp)
      have hz : ∀ x, dget (cols.zip row) k = some x ↔ ∃ i : Nat, cols[i]? = some k ∧ row[i]? = some x := by
        intro x
        rw [dget_zip_nodup hnd]
      cases hx : dget (cols.zip row) k with
      | none =>
        dsimp only
        rw [hd]
        constructor
        · rintro ⟨i, h1, h2⟩
          exfalso
          rw [zipStar_get] at h2
          obtain ⟨h3, h4, _⟩ := h2
          obtain ⟨r, rs', rfl⟩ := List.exists_cons_of_ne_nil h3
          have h5 := h4 r (by simp)
          rw [hu r (by simp)] at h5
          have := (hz (row[i]'(by omega))).2 ⟨i, h1, List.getElem?_eq_getElem _⟩
          rw [hx] at this; simp at this
        · rintro ⟨i, h1, h2⟩
          exfalso
          rw [zipStar_get] at h2
          have h5 := h2.2.1 row (by simp)
          have := (hz (row[i]'h5)).2 ⟨i, h1, List.getElem?_eq_getElem _⟩
          rw [hx] at this; simp at this
      | some x =>
        dsimp only
        obtain ⟨i, hi1, hi2⟩ := (hz x).1 hx
        have him : i < m := by rw [← hrow]; exact (List.getElem?_eq_some_iff.1 hi2).1
        have huniq : ∀ i' : Nat, cols[i']? = some k → i' = i := by
          intro i' h'
          exact (List.getElem?_inj (List.getElem?_eq_some_iff.1 h').1 hnd).1 (by rw [h', hi1])
        -- the column so far
        have hsofar : (dget d k).getD [] = done.filterMap (·[i]?) := by
          cases hdone : done with
          | nil =>
            cases hdk : dget d k with
            | none => simp
            | some c =>
              obtain ⟨i', h1, h2⟩ := (hd k c).1 hdk
              rw [hdone, zipStar_get] at h2
              exact absurd rfl h2.1
          | cons r0 rs0 =>
            have hlt : i < (zipStar done).length := by
              have : (zipStar done)[i]? = some (done.filterMap (·[i]?)) := by
                rw [zipStar_get]
                refine ⟨by simp [hdone], fun r hr => by rw [hu r (by simp [hr])]; exact him, ?_⟩
                exact filterMap_col (fun r hr => by rw [hu r (by simp [hr])]; exact him)
              exact (List.getElem?_eq_some_iff.1 this).1
            have hc := List.getElem?_eq_getElem hlt
            rw [(hd k _).2 ⟨i, hi1, hc⟩, Option.getD_some]
            have : (zipStar done)[i]? = some (done.filterMap (·[i]?)) := by
              rw [zipStar_get]
              refine ⟨by simp [hdone], fun r hr => by rw [hu r (by simp [hr])]; exact him, ?_⟩
              exact filterMap_col (fun r hr => by rw [hu r (by simp [hr])]; exact him)
            rw [hc, Option.some.injEq] at this
            rw [this, hdone]
        rw [hsofar]
        have hnew : (zipStar (done ++ [row]))[i]? = some (done.filterMap (·[i]?) ++ [x]) := by
          have e : done.filterMap (·[i]?) ++ [x] = (done ++ [row]).filterMap (·[i]?) := by simp [hi2]
          rw [e, zipStar_get]
          have hall : ∀ r ∈ done ++ [row], i < r.length := by
            intro r hr
            rw [hu r (by simp at hr ⊢; grind)]; exact him
          exact ⟨by simp, hall, filterMap_col hall⟩
        constructor
        · intro h0
          simp only [Option.some.injEq] at h0
          subst h0
          exact ⟨i, hi1, hnew⟩
        · rintro ⟨i', h1, h2⟩
          rw [huniq i' h1, hnew] at h2
          exact h2

theorem sortInts_perm (l : List Int) : (sortInts l).Perm l := by
  have ins : ∀ (x : Int) (l : List Int), (insertInt x l).Perm (x :: l) := by
    intro x l
    induction l with
    | nil => exact .refl _
    | cons y ys ih =>
      unfold insertInt
      split
      · exact .refl _
      · exact (ih.cons y).trans (.swap x y ys)
  induction l with
  | nil => exact .refl _
  | cons x xs ih => exact (ins x _).trans (ih.cons x)

/-- C40, where no line is shorter than the first line of data and the column numbers are
distinct (false else, see `C40_counterexample`): debug changes nothing in the result, and
neither makes a failing read succeed. -/
theorem C40_debug_partial (fl : FloatS) (h : Hint) (f : TFile) (a : TextArgs)
    (skipped rest : List (List Char)) (first : List Char) (fs : List (List Char))
    (rs : List (List (List Char)))
    (hl : LinesOf (f.chars.drop f.pos) (skipped ++ first :: rest))
    (hsk : a.skiprows = skipped.length) (hhead : a.hasnames = true → skipped ≠ [])
    (hf : HasFields (White h) a.delimiter first fs) (hr : Rows (White h) a.delimiter rest rs)
    (hw : ∀ r ∈ rs, fs.length ≤ r.length)
    (hcols : ∀ cols, a.usecols = some cols → cols.Nodup) (hnames : (dkeys a.names).Nodup) :
    (∀ data names, textpack fl h f { a with debug := false } = .ok (data, names) →
      ∃ data', textpack fl h f { a with debug := true } = .ok (data', names) ∧
        ∀ k, dget data' k = dget data k) ∧
    (∀ e, textpack fl h f { a with debug := false } = .error e →
      ∃ e', textpack fl h f { a with debug := true } = .error e') := by
  have hn : ∀ b, ({ a with debug := b } : TextArgs).normal = { a.normal with debug := b } := by
    intro b
    unfold TextArgs.normal
    dsimp only
    split
    · rfl
    · split <;> rfl
  have hdel : a.normal.delimiter = a.delimiter := by
    unfold TextArgs.normal; split
    · rfl
    · split <;> rfl
  have hnd : ∀ cols, a.normal.usecols = some cols → cols.Nodup := by
    unfold TextArgs.normal
    split
    · intro cols hc
      simp only [Option.some.injEq] at hc
      subst hc
      exact (sortInts_perm _).nodup_iff.2 hnames
    · split <;> exact hcols
  -- the rows are of one length
  have hwidth : ∀ ns out, linetuples fl h a.normal.delimiter a.normal.usecols a.normal.converters
      a.normal.stripstrings a.normal.hasnames (f.skip a.normal.skiprows.toNat) = .ok ⟨ns, out, none⟩ →
      out ≠ [] ∧ ∃ m, ∀ row ∈ out, row.length = m := by
    intro ns out hlt
    unfold linetuples at hlt
    split at hlt
    · rename_i hhn
      have hN : a.normal = { a with skiprows := a.skiprows - 1 } ∧ a.hasnames = true := by
        unfold TextArgs.normal at hhn ⊢
        split at hhn
        · simp at hhn
        · rename_i h1
          rw [if_neg h1]
          split at hhn
          · rename_i h2; rw [if_pos h2]; exact ⟨rfl, h2⟩
          · contradiction
      obtain ⟨sk, header, hske⟩ : ∃ sk header, skipped = sk ++ [header] := by
        have := hhead hN.2
        exact ⟨skipped.dropLast, skipped.getLast this, (List.dropLast_concat_getLast this).symm⟩
      subst hske
      obtain ⟨p, hskip, hl1⟩ := skip_linesOf (ss := sk) (ls := header :: first :: rest) (f := f) (by simpa using hl)
      have hsk' : a.normal.skiprows.toNat = sk.length := by
        rw [hN.1]; simp at hsk ⊢; omega
      rw [hsk', hskip, readline_linesOf (f := { f with pos := p }) hl1] at hlt
      dsimp only at hlt
      split at hlt
      · simp at hlt
      · have hl2 := linesOf_tail hl1
        rw [List.drop_drop] at hl2
        rw [hdel] at hlt
        exact tuplesFrom_width (f := { f with pos := p + header.length }) hl2 hf hr hw hlt
    · rename_i hhn
      have hN : a.normal.skiprows = a.skiprows := by
        unfold TextArgs.normal at hhn ⊢
        split
        · rfl
        · rename_i h1
          rw [if_neg h1] at hhn
          split
          · rename_i h2; rw [if_pos h2] at hhn; exact absurd h2 hhn
          · rfl
      obtain ⟨p, hskip, hl1⟩ := skip_linesOf hl
      rw [hN, hsk, Int.toNat_natCast, hskip, hdel] at hlt
      exact tuplesFrom_width (f := { f with pos := p }) hl1 hf hr hw hlt
  unfold textpack
  rw [hn true, hn false]
  dsimp only
  generalize a.normal = b at *
  simp only [if_true, Bool.false_eq_true, if_false]
  cases hlt : linetuples fl h b.delimiter b.usecols b.converters b.stripstrings b.hasnames
    (f.skip b.skiprows.toNat) with
  | error e => simp
  | ok l =>
    obtain ⟨ns, out, exc⟩ := l
    dsimp only
    cases exc with
    | some e =>
      simp only [plainData, debugData]
      by_cases ho : out = [] <;> simp [ho]
    | none =>
      simp only [plainData, debugData]
      refine ⟨?_, by simp⟩
      intro data names heq
      simp only [Except.ok.injEq, Prod.mk.injEq] at heq
      obtain ⟨rfl, rfl⟩ := heq
      refine ⟨_, rfl, ?_⟩
      obtain ⟨hne, m, hm⟩ := hwidth ns out hlt
      have hzl : (zipStar out).length = m := by
        obtain ⟨o, os, rfl⟩ := List.exists_cons_of_ne_nil hne
        unfold zipStar
        simp only [List.length_map, List.length_range]
        exact minLength_uniform o os (hm o (by simp)) (fun r hr => hm r (by simp [hr]))
      have hkeys : ∀ row ∈ out, colKeys b.usecols row.length = colKeys b.usecols m := by
        intro row hrow; rw [hm row hrow]
      have hfold : out.foldl (fun d row => addRow (colKeys b.usecols row.length) row d) [] =
          out.foldl (fun d row => addRow (colKeys b.usecols m) row d) [] := by
        have : ∀ (l : List (List Val)) (d : List (Int × List Val)), (∀ row ∈ l, row.length = m) →
            l.foldl (fun d row => addRow (colKeys b.usecols row.length) row d) d =
            l.foldl (fun d row => addRow (colKeys b.usecols m) row d) d := by
          intro l
          induction l with
          | nil => intro d _; rfl
          | cons r rs ih =>
            intro d hl
            rw [List.foldl_cons, List.foldl_cons, hl r (by simp)]
            exact ih _ (fun row hr => hl row (by simp [hr]))
        exact this out [] hm
      have hnodup : (colKeys b.usecols m).Nodup := by
        cases hu : b.usecols with
        | none => exact colKeys_nodup m
        | some cols => exact hnd cols hu
      intro k
      rw [hfold, hzl]
      apply Option.ext
      intro col
      rw [dget_addRows hnodup out [] [] (by simpa using hm) (by intro k col; simp [dget, zipStar]) k col,
        dget_dictOf_zip hnodup, List.nil_append]

theorem C40_counterexample :
    textpack exFloat .text ⟨"1;2\n3\n".toList, 0⟩ { delimiter := some [';'] } =
      .ok ([(0, [.flt 1, .flt 3])], []) ∧
    textpack exFloat .text ⟨"1;2\n3\n".toList, 0⟩ { delimiter := some [';'], debug := true } =
      .ok ([(0, [.flt 1, .flt 3]), (1, [.flt 2])], []) := by
  constructor <;> decide +kernel

/-- A line that fails is reported as KeyError, if it is the first one. -/
theorem C40_debug_hides_error :
    textpack exFloat .text ⟨"1;2\n".toList, 0⟩
      { delimiter := some [';'], converters := [(0, fun _ => .error .valueError)] } = .error .valueError ∧
    textpack exFloat .text ⟨"1;2\n".toList, 0⟩
      { delimiter := some [';'], converters := [(0, fun _ => .error .valueError)], debug := true } =
      .error .keyError := by
  constructor <;> decide +kernel

/-! ## C56: names given by the caller -/

/-- C56: names given by the caller select the columns of their keys, in whatever order the
dict has them; what is read for a key is what the read of all columns has there, and the
names are those given.  `usecols` and `hasnames` have no effect then. -/
theorem C56_given_names (fl : FloatS) (h : Hint) (f : TFile) (a : TextArgs)
    (hne : a.names ≠ []) (hnd : (dkeys a.names).Nodup) (hpos : ∀ k ∈ dkeys a.names, 0 ≤ k)
    (hdb : a.debug = false) (data0 : List (Int × List Val)) (names0 : List (Int × Val))
    (hp : textpack fl h f { a with names := [], usecols := none, hasnames := false } = .ok (data0, names0)) :
    ∃ data, textpack fl h f a = .ok (data, a.names) ∧
      ∀ k, dget data k = if k ∈ dkeys a.names then dget data0 k else none := by
  have hasc : Ascending (sortInts (dkeys a.names)) := by
    constructor
    · have h1 := sortInts_sorted (dkeys a.names)
      have h2 : (sortInts (dkeys a.names)).Nodup := (sortInts_perm _).nodup_iff.2 hnd
      exact (h1.and h2).imp fun h => by omega
    · intro c hc; exact hpos c (mem_sortInts.1 hc)
  obtain ⟨data, names, h1, h2, h3⟩ := C38_usecols_partial fl h f
    { a with names := [], usecols := none, hasnames := false } (sortInts (dkeys a.names)) hasc ⟨rfl, rfl, hdb⟩ _ _ hp
  refine ⟨data, ?_, ?_⟩
  · unfold textpack at h1 ⊢
    have hn1 : a.normal = { a with usecols := some (sortInts (dkeys a.names)), hasnames := false } := by
      simp [TextArgs.normal, hne]
    have hn2 : ({ a with names := [], usecols := some (sortInts (dkeys a.names)), hasnames := false } :
        TextArgs).normal =
        { a with names := [], usecols := some (sortInts (dkeys a.names)), hasnames := false } := by
      simp [TextArgs.normal]
    rw [hn1]
    rw [hn2] at h1
    dsimp only at h1 ⊢
    split at h1
    · simp at h1
    · split at h1
      · simp at h1
      · rename_i d hd
        rw [hd]
        simp only [Bool.false_eq_true, if_false, Except.ok.injEq, Prod.mk.injEq] at h1 ⊢
        exact ⟨h1.1, trivial⟩
  · intro k
    rw [h2]
    simp only [mem_sortInts]

example : textpack exFloat .text ⟨exText, 0⟩
    { delimiter := some [';'], skiprows := 1, names := [(2, .str ['t']), (0, .str ['n'])] } =
    .ok ([(0, [.flt 1, .flt 3]), (2, [.str "a b".toList, .str ['x']])], [(2, .str ['t']), (0, .str ['n'])]) := by
  decide +kernel

end CP
