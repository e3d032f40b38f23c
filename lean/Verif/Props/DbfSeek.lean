import Verif.Spec.DbfSeek
import Verif.Props.Dbf
/-!
# C25, what is read after a deleted record
-/

namespace CP
open Spec

theorem readSelected_at (p : Nat) (l : List (DbfField × Nat)) (f : BFile)
    (h : ∀ q ∈ l, p + q.2 + q.1.size ≤ f.bytes.length) :
    ∃ g : BFile, readSelected p l f = .ok (l.map fun q => (f.bytes.drop (p + q.2)).take q.1.size, g) ∧
      g.bytes = f.bytes ∧ (∀ q, l.getLast? = some q → g.pos = p + q.2 + q.1.size) := by
  induction l generalizing f with
  | nil => exact ⟨f, rfl, rfl, by simp⟩
  | cons q l ih =>
    obtain ⟨fld, off⟩ := q
    have hq := h (fld, off) (by simp)
    dsimp only at hq
    have hb : ((f.bytes.drop (p + off)).take fld.size).length = fld.size := by
      rw [List.length_take, List.length_drop]; omega
    have hr : (f.seek (p + off)).read fld.size = ((f.bytes.drop (p + off)).take fld.size,
        { bytes := f.bytes, pos := p + off + fld.size }) := by
      unfold BFile.read BFile.seek
      simp only [hb]
    simp only [readSelected]
    rw [hr]
    simp only
    rw [if_neg (by simp [hb])]
    obtain ⟨g, h1, h2, h3⟩ := ih { bytes := f.bytes, pos := p + off + fld.size } fun q hq => h q (by simp [hq])
    rw [h1]
    refine ⟨g, by simp, h2, ?_⟩
    intro q hq
    cases l with
    | nil =>
      simp only [readSelected, Except.ok.injEq, Prod.mk.injEq] at h1
      simp only [List.getLast?_singleton, Option.some.injEq] at hq
      rw [← h1.2, ← hq]
    | cons a b => rw [List.getLast?_cons_cons] at hq; exact h3 q hq

theorem withOffsets_get (off : Nat) (fields : List DbfField) (j : Nat) :
    (withOffsets off fields)[j]? = (fields[j]?).map fun c => (c, off + ((fields.take j).map DbfField.size).sum) := by
  induction fields generalizing off j with
  | nil => simp [withOffsets]
  | cons fld fields ih =>
    cases j with
    | zero => simp [withOffsets]
    | succ j =>
      simp only [withOffsets, List.getElem?_cons_succ, ih, List.take_succ_cons, List.map_cons, List.sum_cons]
      congr 1
      funext c
      rw [Nat.add_assoc]

theorem withOffsets_length (off : Nat) (fields : List DbfField) : (withOffsets off fields).length = fields.length := by
  induction fields generalizing off with
  | nil => rfl
  | cons fld fields ih => simp [withOffsets, ih]

theorem withOffsets_project (off : Nat) (fields : List DbfField) (names : List (List Char)) :
    ((withOffsets off fields).filter fun q => q.1.name ∈ names) = project fields names (withOffsets off fields) := by
  induction fields generalizing off with
  | nil => rfl
  | cons fld fields ih =>
    simp only [withOffsets, project_cons]
    by_cases h : fld.name ∈ names
    · rw [List.filter_cons_of_pos (by simpa using h), if_pos h, ih]
    · rw [List.filter_cons_of_neg (by simpa using h), if_neg h, ih]

/-- The selected columns follow each other. -/
theorem withOffsets_ordered (off : Nat) (fields : List DbfField) :
    (withOffsets off fields).Pairwise (fun a b => a.2 + a.1.size ≤ b.2) ∧ ∀ q ∈ withOffsets off fields, off ≤ q.2 := by
  induction fields generalizing off with
  | nil => simp [withOffsets]
  | cons fld fields ih =>
    obtain ⟨h1, h2⟩ := ih (off + fld.size)
    simp only [withOffsets, List.pairwise_cons, List.mem_cons]
    refine ⟨⟨h2, h1⟩, ?_⟩
    rintro q (rfl | hq)
    · exact Nat.le_refl _
    · have := h2 q hq; omega

/-- The columns as the spec has them. -/
theorem sel_iff (cols : List DbfColumn) (sel : List (List Char)) (q : DbfField × Nat) :
    q ∈ ((withOffsets 1 (cols.map toField)).filter fun q => q.1.name ∈ sel) ↔
      ∃ j c, SelColumn cols sel j c q.2 ∧ q.1 = toField c := by
  rw [List.mem_filter]
  constructor
  · rintro ⟨hq, hn⟩
    obtain ⟨j, hj⟩ := List.mem_iff_getElem?.1 hq
    rw [withOffsets_get, List.getElem?_map] at hj
    cases hc : cols[j]? with
    | none => rw [hc] at hj; simp at hj
    | some c =>
      rw [hc] at hj
      simp only [Option.map_some, Option.some.injEq] at hj
      subst hj
      exact ⟨j, c, ⟨hc, of_decide_eq_true hn, by simp only [← List.map_take, List.map_map]; rfl⟩, rfl⟩
  · rintro ⟨j, c, ⟨h1, h2, h3⟩, h4⟩
    refine ⟨List.mem_iff_getElem?.2 ⟨j, ?_⟩, by rw [h4]; exact decide_eq_true h2⟩
    rw [withOffsets_get, List.getElem?_map, h1]
    simp only [Option.map_some, Option.some.injEq]
    apply Prod.ext
    · exact h4.symm
    · rw [h3]; simp only [← List.map_take, List.map_map]; rfl

theorem sel_last {cols : List DbfColumn} {sel : List (List Char)} {stop : Nat} (h : IsStop cols sel stop) :
    ∃ q, (selFields (cols.map toField) sel).getLast? = some q ∧ q.2 + q.1.size = stop := by
  obtain ⟨q, hq⟩ : ∃ q, (selFields (cols.map toField) sel).getLast? = some q := by
    unfold selFields
    exact ⟨_, List.getLast?_eq_some_getLast (by simp)⟩
  refine ⟨q, hq, ?_⟩
  have hm : q ∈ selFields (cols.map toField) sel := List.mem_of_getLast? hq
  have hord : (selFields (cols.map toField) sel).Pairwise (fun a b => a.2 + a.1.size ≤ b.2) := by
    unfold selFields
    rw [List.pairwise_cons]
    obtain ⟨h1, h2⟩ := withOffsets_ordered 1 (cols.map toField)
    refine ⟨fun q hq => ?_, h1.sublist List.filter_sublist⟩
    exact h2 q (List.mem_filter.1 hq).1
  have hmax : ∀ a ∈ selFields (cols.map toField) sel, a.2 + a.1.size ≤ q.2 + q.1.size := by
    obtain ⟨l, hl⟩ : ∃ l, selFields (cols.map toField) sel = l ++ [q] := List.getLast?_eq_some_iff.1 hq
    rw [hl] at hord ⊢
    rw [List.pairwise_append] at hord
    intro a ha
    rcases List.mem_append.1 ha with ha | ha
    · have := hord.2.2 a ha q (by simp); omega
    · simp only [List.mem_singleton] at ha; subst ha; exact Nat.le_refl _
  obtain ⟨h1, h2, h3⟩ := h
  apply Nat.le_antisymm
  · unfold selFields at hm
    rcases List.mem_cons.1 hm with rfl | hm
    · exact h1
    · obtain ⟨j, c, hc, e⟩ := (sel_iff cols sel q).1 hm
      rw [e]; exact h2 j c _ hc
  · rcases h3 with rfl | ⟨j, c, off, hc, rfl⟩
    · exact hmax (flagField, 0) (by unfold selFields; simp)
    · exact hmax (toField c, off) (by
        unfold selFields
        exact List.mem_cons.2 (Or.inr ((sel_iff cols sel _).2 ⟨j, c, hc, rfl⟩)))

theorem sel_within {cols : List DbfColumn} {sel : List (List Char)} {stop : Nat} (h : IsStop cols sel stop) :
    ∀ q ∈ selFields (cols.map toField) sel, q.2 + q.1.size ≤ stop := by
  intro q hq
  unfold selFields at hq
  rcases List.mem_cons.1 hq with rfl | hq
  · exact h.1
  · obtain ⟨j, c, hc, e⟩ := (sel_iff cols sel q).1 hq
    rw [e]; exact h.2.1 j c _ hc

theorem dbfRecord_map {fl : FloatB} (g : DbfField × Nat → Bytes) {L : List (DbfField × Nat)} {vs : List Val}
    (hn : ∀ q ∈ L, q.1.name ≠ deletionFlag)
    (h : Each2 (fun q v => dbfConvert fl q.1.typ q.1.deci (g q) = .ok v) L vs) :
    dbfRecord fl ((L.map Prod.fst).zip (L.map g)) = .ok vs := by
  induction h with
  | nil => rfl
  | @cons q v L vs h1 _ ih =>
    simp only [List.map_cons, List.zip_cons_cons, dbfRecord]
    rw [if_neg (hn q (by simp)), h1]
    simp only
    rw [ih fun q hq => hn q (by simp [hq])]

theorem take_one {l : Bytes} {a : Nat} {b : UInt8} (h : l[a]? = some b) : (l.drop a).take 1 = [b] := by
  have h0 : (l.drop a)[0]? = some b := by rw [List.getElem?_drop]; simpa using h
  cases hd : l.drop a with
  | nil => rw [hd] at h0; simp at h0
  | cons x xs => rw [hd] at h0; simp at h0; simp [h0]

/-- What the selected cells of the record at a place are read as. -/
def ReadAt (fl : FloatB) (file : Bytes) (L : List (DbfField × Nat)) (a : Nat) (vs : List Val) : Prop :=
  Each2 (fun q v => dbfConvert fl q.1.typ q.1.deci ((file.drop (a + q.2)).take q.1.size) = .ok v) L vs

theorem selRecords_visits {fl : FloatB} {cols : List DbfColumn} {sel : List (List Char)} {stop : Nat}
    (hn : ∀ c ∈ cols, c.name.length ≤ 11) (hs : IsStop cols sel stop) {file : Bytes} {a n : Nat} {places : List Nat}
    (hv : Visits file stop (recLen (cols.map toField)) a n places) {vals : List (List Val)}
    (hr : Each2 (ReadAt fl file ((withOffsets 1 (cols.map toField)).filter fun q => q.1.name ∈ sel)) places vals)
    {f : BFile} (hf : f.bytes = file) (hp : f.pos = a) :
    selRecords fl (selFields (cols.map toField) sel) (recLen (cols.map toField)) n f = .ok vals := by
  have hread : ∀ (a : Nat) (f : BFile), f.bytes = file → a + stop ≤ file.length →
      ∃ g : BFile, readSelected a (selFields (cols.map toField) sel) f =
          .ok ((selFields (cols.map toField) sel).map fun q => (file.drop (a + q.2)).take q.1.size, g) ∧
        g.bytes = file ∧ g.pos = a + stop := by
    intro a f hf hle
    obtain ⟨g, h1, h2, h3⟩ := readSelected_at a (selFields (cols.map toField) sel) f (by
      intro q hq
      have := sel_within hs q hq
      rw [hf]; omega)
    obtain ⟨q, hq, hqs⟩ := sel_last hs
    exact ⟨g, by rw [h1, hf], h2.trans hf, by rw [h3 q hq]; omega⟩
  have hhead : ∀ a, ((selFields (cols.map toField) sel).map fun q => (file.drop (a + q.2)).take q.1.size).head? =
      some ((file.drop a).take 1) := by
    intro a; unfold selFields; simp [flagField]
  induction hv generalizing vals f with
  | done =>
    cases hr with
    | nil => rfl
  | @live a n places hle hb _ ih =>
    subst hp
    cases hr with
    | @cons _ vs _ vals hr1 hr2 =>
      obtain ⟨g, h1, h2, h3⟩ := hread f.pos f hf hle
      simp only [selRecords]
      rw [h1]
      dsimp only
      rw [hhead, take_one hb, if_neg (by simp)]
      have e : dbfRecord fl (((selFields (cols.map toField) sel).map Prod.fst).zip
          ((selFields (cols.map toField) sel).map fun q => (file.drop (f.pos + q.2)).take q.1.size)) = .ok vs := by
        unfold selFields
        simp only [List.map_cons, List.zip_cons_cons, dbfRecord]
        rw [if_pos (by rfl)]
        refine dbfRecord_map (fun q => (file.drop (f.pos + q.2)).take q.1.size) ?_ hr1
        intro q hq
        obtain ⟨j, c, hc, he⟩ := (sel_iff cols sel q).1 hq
        rw [he]
        exact name_ne_flag (hn c (List.mem_of_getElem? hc.1))
      rw [e]
      dsimp only
      rw [ih hr2 (f := g.seek (f.pos + recLen (cols.map toField))) (by simpa [BFile.seek] using h2) rfl]
  | @deleted a n places b hle hb hne _ ih =>
    subst hp
    obtain ⟨g, h1, h2, h3⟩ := hread f.pos f hf hle
    simp only [selRecords]
    rw [h1]
    dsimp only
    rw [hhead, take_one hb, if_pos (by simpa using hne)]
    exact ih hr h2 h3

theorem each2_of_index {α β : Type} {R : α → β → Prop} {as : List α} {bs : List β} (hl : as.length = bs.length)
    (h : ∀ (i : Nat) a b, as[i]? = some a → bs[i]? = some b → R a b) : Each2 R as bs := by
  induction as generalizing bs with
  | nil =>
    have : bs = [] := List.length_eq_zero_iff.1 hl.symm
    subst this; exact .nil
  | cons a as ih =>
    cases bs with
    | nil => simp at hl
    | cons b bs => exact .cons (h 0 a b rfl rfl) (ih (by simpa using hl) fun i a b h1 h2 => h (i + 1) a b h1 h2)

theorem bytesAt_eq {file : Bytes} {p n : Nat} {raw : Bytes} (h : BytesAt file p n raw) : (file.drop p).take n = raw := by
  obtain ⟨x, y, rfl, rfl, rfl⟩ := h
  simp

theorem recLen_eq (cols : List DbfColumn) : recLen (cols.map toField) = wholeRecord cols := by
  simp [recLen, wholeRecord, flagField, toField, Function.comp_def]

/-- C25, exactly: the records that are read are those at the places of `Visits`. -/
theorem C25_exact (fl : FloatB) (file : Bytes) (cols : List DbfColumn) (rows : List DbfRow)
    (h : IsDbf file cols rows) (sel : List (List Char)) (hsel : sel ≠ []) (stop : Nat) (hs : IsStop cols sel stop)
    (places : List Nat) (hv : Visits file stop (wholeRecord cols) (33 + 32 * cols.length) rows.length places)
    (val : Nat → Nat → Val)
    (hval : ∀ (i a : Nat), places[i]? = some a → ∀ j c off, SelColumn cols sel j c off →
      ∃ raw, BytesAt file (a + off) c.size raw ∧ CellMeans fl c raw (val i j)) :
    ∃ data names, dbfpack fl { bytes := file, pos := 0 } sel = .ok (data, names) ∧
      (∀ k s, dget names k = some s ↔ ∃ (j : Nat) (c : DbfColumn), k = j ∧ cols[j]? = some c ∧ c.name ∈ sel ∧ s = c.name) ∧
      (∀ k col, dget data k = some col ↔ ∃ (j : Nat) (c : DbfColumn), k = j ∧ cols[j]? = some c ∧ c.name ∈ sel ∧
        places ≠ [] ∧ col.length = places.length ∧ ∀ i : Nat, i < places.length → col[i]? = some (val i j)) := by
  obtain ⟨pre, tail, hfile, hn, hpl, hh⟩ := readHeader_dbf h
  have hread := read_eq (f := { bytes := file, pos := pre.length }) hfile rfl (n := 1) (by simp)
  generalize hJ : project (cols.map toField) sel (List.range' 0 (cols.map toField).length) = J
  have hJm : ∀ j : Nat, j ∈ J ↔ ∃ c, cols[j]? = some c ∧ c.name ∈ sel := by
    intro j
    rw [← hJ, mem_project]
    simp only [List.getElem?_map, Option.map_eq_some_iff]
    constructor
    · rintro ⟨_, ⟨c, hc, rfl⟩, h2⟩; exact ⟨c, hc, h2⟩
    · rintro ⟨c, hc, h2⟩; exact ⟨_, ⟨c, hc, rfl⟩, h2⟩
  have hJget : ∀ {α : Type} (vs : List α), vs.length = (cols.map toField).length → ∀ i : Nat,
      (project (cols.map toField) sel vs)[i]? = (J[i]?).bind fun j => vs[j]? := by
    intro α vs hl i
    rw [project_range (cols.map toField) sel vs hl 0 i, hJ]
    rfl
  generalize hL : ((withOffsets 1 (cols.map toField)).filter fun q => q.1.name ∈ sel) = L
  have hLget : ∀ i : Nat, L[i]? = (J[i]?).bind fun j => (cols[j]?).map fun c =>
      (toField c, 1 + ((cols.take j).map (·.size)).sum) := by
    intro i
    rw [← hL, withOffsets_project, hJget _ (withOffsets_length _ _)]
    congr 1
    funext j
    rw [withOffsets_get, List.getElem?_map, Option.map_map]
    congr 1
    funext c
    simp only [Function.comp_apply, ← List.map_take, List.map_map]
    rfl
  have hJL : L.length = J.length := by
    apply Nat.le_antisymm
    · apply Decidable.byContradiction
      intro hlt
      have := hLget J.length
      rw [List.getElem?_eq_none (Nat.le_refl _), List.getElem?_eq_getElem (by omega)] at this
      simp at this
    · apply Decidable.byContradiction
      intro hlt
      have h1 := hLget L.length
      rw [List.getElem?_eq_none (Nat.le_refl _), List.getElem?_eq_getElem (by omega)] at h1
      obtain ⟨c, hc, _⟩ := (hJm J[L.length]).1 (List.getElem_mem _)
      simp only [Option.bind_some, hc, Option.map_some] at h1
      cases h1
  let vals : List (List Val) := (List.range places.length).map fun i => J.map (val i)
  have hvals : Each2 (ReadAt fl file L) places vals := by
    refine each2_of_index (by simp [vals]) ?_
    intro i a vs ha hvs
    have hi := (List.getElem?_eq_some_iff.1 ha).1
    simp only [vals, List.getElem?_map, List.getElem?_range hi, Option.map_some, Option.some.injEq] at hvs
    subst hvs
    refine each2_of_index (by simp [hJL]) ?_
    intro m q v hq hmv
    rw [List.getElem?_map] at hmv
    rw [hLget] at hq
    cases hj : J[m]? with
    | none => rw [hj] at hmv; simp at hmv
    | some j =>
      rw [hj] at hmv hq
      obtain ⟨c, hc, hcn⟩ := (hJm j).1 (List.mem_of_getElem? hj)
      simp only [Option.bind_some, hc, Option.map_some, Option.some.injEq] at hmv hq
      subst hmv hq
      obtain ⟨raw, h1, h2⟩ := hval i a ha j c _ ⟨hc, hcn, rfl⟩
      have := dbfConvert_means h2
      rw [← bytesAt_eq h1] at this
      exact this
  have hsr : selRecords fl (selFields (cols.map toField) sel) (recLen (cols.map toField)) rows.length
      { bytes := file, pos := pre.length + [(13 : UInt8)].length } = .ok vals := by
    have hv' := hv
    rw [← recLen_eq] at hv'
    refine selRecords_visits hn hs hv' (by rw [hL]; exact hvals) rfl ?_
    show pre.length + 1 = _
    omega
  have hkeys : (chnamesOf ((cols.map toField).map DbfField.name) sel).map Prod.fst = J.map Int.ofNat := by
    rw [← hJ]; exact chnames_keys _ _ 0
  have hnod : (J.map Int.ofNat).Nodup := by rw [← hJ]; exact project_nodup _ _
  refine ⟨((chnamesOf ((cols.map toField).map DbfField.name) sel).map Prod.fst).zip (zipStar vals),
    chnamesOf ((cols.map toField).map DbfField.name) sel, ?_, ?_, ?_⟩
  · unfold dbfpack dbfrecords
    rw [if_neg hsel, hh]
    simp only
    have hseek : BFile.seek { bytes := file, pos := pre.length } 0 = { bytes := file, pos := 0 } := rfl
    rw [hseek, hh]
    simp only
    rw [hread]
    simp only
    rw [if_neg (by simp), hsr]
  · intro k s
    have hnn : ((enumDict ((cols.map toField).map DbfField.name)).map Prod.fst).Nodup := by
      unfold enumDict
      rw [List.map_map]
      have : ((Prod.fst ∘ fun p : List Char × Nat => ((p.2 : Int), p.1))) =
          fun p : List Char × Nat => (p.2 : Int) := rfl
      rw [this]
      have h2 : (((cols.map toField).map DbfField.name).zipIdx).map (fun p => (p.2 : Int)) =
          ((((cols.map toField).map DbfField.name).zipIdx).map Prod.snd).map Int.ofNat := by
        generalize ((cols.map toField).map DbfField.name).zipIdx = l
        rw [List.map_map]; rfl
      rw [h2, List.zipIdx_map_snd]
      unfold List.Nodup
      rw [List.pairwise_map]
      exact (List.nodup_range' (s := 0)).imp fun {a b} hab h0 => hab (Int.ofNat.inj h0)
    have hfd : dget (chnamesOf ((cols.map toField).map DbfField.name) sel) k = some s ↔
        dget (enumDict ((cols.map toField).map DbfField.name)) k = some s ∧ s ∈ sel := filter_dget hnn
    rw [hfd, dget_enumDict]
    simp only [List.getElem?_map, Option.map_eq_some_iff]
    constructor
    · rintro ⟨⟨j, rfl, _, ⟨c, hc, rfl⟩, rfl⟩, h2⟩; exact ⟨j, c, rfl, hc, h2, rfl⟩
    · rintro ⟨j, c, rfl, hc, h2, rfl⟩; exact ⟨⟨j, rfl, _, ⟨c, hc, rfl⟩, rfl⟩, h2⟩
  · intro k col
    rw [hkeys, dget_zip_nodup hnod]
    have hu : ∀ m ∈ vals, m.length = J.length := by
      intro m hm
      obtain ⟨i, _, rfl⟩ := List.mem_map.1 hm
      simp
    have hne : vals ≠ [] ↔ places ≠ [] := by
      simp only [vals, ne_eq, List.map_eq_nil_iff]
      rw [List.range_eq_nil, List.length_eq_zero_iff]
    have hvl : vals.length = places.length := by simp [vals]
    have hcell : ∀ (m j : Nat), J[m]? = some j → ∀ i : Nat, i < places.length → (vals[i]?).bind (·[m]?) = some (val i j) := by
      intro m j hj i hi
      simp only [vals, List.getElem?_map, List.getElem?_range hi, Option.map_some, Option.bind_some, hj]
    constructor
    · rintro ⟨m, h1, h2⟩
      rw [List.getElem?_map, Option.map_eq_some_iff] at h1
      obtain ⟨j, hj, rfl⟩ := h1
      rw [zipStar_uniform vals hu, hne, hvl] at h2
      obtain ⟨c, hc, hcn⟩ := (hJm j).1 (List.mem_of_getElem? hj)
      exact ⟨j, c, rfl, hc, hcn, h2.1, h2.2.2.1, fun i hi => by rw [h2.2.2.2 i]; exact hcell m j hj i hi⟩
    · rintro ⟨j, c, rfl, hc, hcn, h1, h2, h3⟩
      obtain ⟨m, hm⟩ := List.mem_iff_getElem?.1 ((hJm j).2 ⟨c, hc, hcn⟩)
      refine ⟨m, by rw [List.getElem?_map, hm]; rfl, ?_⟩
      rw [zipStar_uniform vals hu, hne, hvl]
      refine ⟨h1, (List.getElem?_eq_some_iff.1 hm).1, h2, ?_⟩
      intro i
      by_cases hi : i < places.length
      · rw [h3 i hi, hcell m j hm i hi]
      · rw [List.getElem?_eq_none (by omega), List.getElem?_eq_none (show vals.length ≤ i by omega)]
        rfl

/-- C25: there are always such places: the file does not end before them. -/
theorem C25_places (file : Bytes) (cols : List DbfColumn) (rows : List DbfRow) (h : IsDbf file cols rows)
    (sel : List (List Char)) : ∃ stop places, IsStop cols sel stop ∧
      Visits file stop (wholeRecord cols) (33 + 32 * cols.length) rows.length places := by
  -- the stop
  obtain ⟨stop, hs⟩ : ∃ stop, IsStop cols sel stop := by
    obtain ⟨q, hq⟩ : ∃ q, (selFields (cols.map toField) sel).getLast? = some q := by
      unfold selFields
      exact ⟨_, List.getLast?_eq_some_getLast (by simp)⟩
    have hord : (selFields (cols.map toField) sel).Pairwise (fun a b => a.2 + a.1.size ≤ b.2) := by
      unfold selFields
      rw [List.pairwise_cons]
      obtain ⟨h1, h2⟩ := withOffsets_ordered 1 (cols.map toField)
      exact ⟨fun q hq => h2 q (List.mem_filter.1 hq).1, h1.sublist List.filter_sublist⟩
    have hmax : ∀ a ∈ selFields (cols.map toField) sel, a.2 + a.1.size ≤ q.2 + q.1.size := by
      obtain ⟨l, hl⟩ : ∃ l, selFields (cols.map toField) sel = l ++ [q] := List.getLast?_eq_some_iff.1 hq
      rw [hl] at hord ⊢
      rw [List.pairwise_append] at hord
      intro a ha
      rcases List.mem_append.1 ha with ha | ha
      · have := hord.2.2 a ha q (by simp); omega
      · simp only [List.mem_singleton] at ha; subst ha; exact Nat.le_refl _
    refine ⟨q.2 + q.1.size, hmax (flagField, 0) (by unfold selFields; simp), ?_, ?_⟩
    · intro j c off hc
      exact hmax (toField c, off) (by
        unfold selFields
        exact List.mem_cons.2 (Or.inr ((sel_iff cols sel _).2 ⟨j, c, hc, rfl⟩)))
    · have hm : q ∈ selFields (cols.map toField) sel := List.mem_of_getLast? hq
      unfold selFields at hm
      rcases List.mem_cons.1 hm with rfl | hm
      · exact Or.inl rfl
      · obtain ⟨j, c, hc, e⟩ := (sel_iff cols sel q).1 hm
        exact Or.inr ⟨j, c, _, hc, by rw [e]; rfl⟩
  have hsl : stop ≤ wholeRecord cols := by
    obtain ⟨-, -, h3⟩ := hs
    rcases h3 with rfl | ⟨j, c, off, ⟨hc, -, rfl⟩, rfl⟩
    · unfold wholeRecord; omega
    · have hj := (List.getElem?_eq_some_iff.1 hc).1
      have e : cols = cols.take j ++ c :: cols.drop (j + 1) := by
        have h1 := (List.take_append_drop j cols).symm
        have h2 : cols.drop j = c :: cols.drop (j + 1) := by
          rw [List.drop_eq_getElem_cons hj]
          congr 1
          exact (List.getElem?_eq_some_iff.1 hc).2
        rw [h2] at h1; exact h1
      unfold wholeRecord
      have e2 := congrArg (fun l : List DbfColumn => (l.map (·.size)).sum) e
      simp only [List.map_append, List.map_cons, List.sum_append, List.sum_cons] at e2
      omega
  have hlen : 33 + 32 * cols.length + rows.length * wholeRecord cols ≤ file.length := by
    obtain ⟨pre, tail, hfile, hn, hpl, -⟩ := readHeader_dbf h
    have hfit := h.2.2.1
    have hrl : ∀ rows : List DbfRow, (∀ r ∈ rows, r.Fits cols) →
        (rows.map fun r => r.flag :: r.cells.flatten).flatten.length = rows.length * wholeRecord cols := by
      intro rows hfit
      induction rows with
      | nil => simp
      | cons r rows ih =>
        have h1 := (row_split (hfit r (by simp))).2
        have h2 := ih fun r hr => hfit r (by simp [hr])
        rw [show ((flagField :: cols.map toField).map DbfField.size).sum = wholeRecord cols from recLen_eq cols] at h1
        simp only [rowBytes] at h1
        simp only [List.map_cons, List.flatten_cons, List.length_append, h1, h2, List.length_cons, Nat.add_mul, Nat.one_mul]
        omega
    have := congrArg List.length hfile
    simp only [List.length_append, hrl rows hfit, hpl, List.length_singleton] at this
    omega
  have hgen : ∀ (n a : Nat), a + n * wholeRecord cols ≤ file.length → ∃ places, Visits file stop (wholeRecord cols) a n places := by
    intro n
    induction n with
    | zero => intro a _; exact ⟨[], .done⟩
    | succ n ih =>
      intro a ha
      rw [Nat.add_mul, Nat.one_mul] at ha
      have h1 : a + stop ≤ file.length := by omega
      have h2 : a < file.length := by have := hs.1; omega
      by_cases hb : file[a] = 32
      · obtain ⟨places, hp⟩ := ih (a + wholeRecord cols) (by omega)
        exact ⟨a :: places, .live h1 (by rw [List.getElem?_eq_getElem h2, hb]) hp⟩
      · obtain ⟨places, hp⟩ := ih (a + stop) (by omega)
        exact ⟨places, .deleted h1 (List.getElem?_eq_getElem h2) hb hp⟩
  obtain ⟨places, hp⟩ := hgen rows.length (33 + 32 * cols.length) hlen
  exact ⟨stop, places, hs, hp⟩

/-- Columns A, B of one byte; the first record is deleted and holds a blank in B, which is then taken for the flag
of a live record; the live record after it is the flag of a deleted one. -/
example : dbfpack exFl (BFile.mk (exFile [⟨['A'], 67, 1, 0⟩, ⟨['B'], 67, 1, 0⟩]
      [⟨42, [[120], [32]]⟩, ⟨32, [[117], [118]]⟩, ⟨32, [[119], [120]]⟩]) 0) [['A']] =
    .ok ([(0, [.str [' ']])], [(0, ['A'])]) := by decide +kernel

example : IsStop [⟨['A'], 67, 1, 0⟩, ⟨['B'], 67, 1, 0⟩] [['A']] 2 ∧
    Visits (exFile [⟨['A'], 67, 1, 0⟩, ⟨['B'], 67, 1, 0⟩]
      [⟨42, [[120], [32]]⟩, ⟨32, [[117], [118]]⟩, ⟨32, [[119], [120]]⟩]) 2 3 97 3 [99] := by
  refine ⟨⟨by decide, ?_, Or.inr ⟨0, ⟨['A'], 67, 1, 0⟩, 1, ⟨rfl, by decide, rfl⟩, rfl⟩⟩, ?_⟩
  · rintro j c off ⟨h1, h2, rfl⟩
    match j, h1 with
    | 0, h1 => simp at h1; subst h1; decide
    | 1, h1 => simp at h1; subst h1; exact absurd h2 (by decide)
  · exact .deleted (b := 42) (by decide) (by decide) (by decide) (.live (by decide) (by decide)
      (.deleted (b := 118) (by decide) (by decide) (by decide) .done))

end CP
