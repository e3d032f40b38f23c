import Verif.Props.PackText
import Verif.Props.Dbf
/-!
# C94: the packs of dbf files hold the values read
-/

namespace CP
open Spec

theorem compatible_ints {vs : List Val} (h : ∀ v ∈ vs, v = .nan ∨ ∃ i : Int, v = .int i) (hi : ∀ i : Int, .int i ∈ vs → i.natAbs ≤ 2 ^ 53) :
    Compatible vs := by
  refine .inr (.inr (.inr ⟨fun v hv => ?_, fun _ i hm => isDouble_int (hi i hm)⟩))
  rcases h v hv with rfl | ⟨i, rfl⟩
  · exact .nan
  · have := hi i hv
    exact .int (by omega) (by omega)

theorem compatible_dates {vs : List Val} (h : ∀ v ∈ vs, v = .none ∨ ∃ y m d, v = .date y m d) : Compatible vs := by
  cases vs with
  | nil => exact .inr (.inl fun v hv => by cases hv)
  | cons v vs =>
    refine .inl ⟨v, by simp, ?_⟩
    rcases h v (by simp) with rfl | ⟨y, m, d, rfl⟩
    · exact ⟨(fun h => by cases h), (fun s h => by cases h), (fun s h => by cases h)⟩
    · exact ⟨(fun h => by cases h), (fun s h => by cases h), (fun s h => by cases h)⟩

theorem floatBytes_numeric {b : Bytes} {v : Val} (h : floatBytes b = .ok v) : Numeric v := by
  unfold floatBytes at h
  split at h
  · cases h
  · rename_i w hw; cases h; exact floatText_numeric hw

theorem pyDate_date {y m d : Int} {v : Val} (h : pyDate y m d = .ok v) : ∃ y m d, v = .date y m d := by
  unfold pyDate at h
  extract_lets leap dim at h
  by_cases hc : 1 ≤ y ∧ y ≤ 9999 ∧ 1 ≤ m ∧ m ≤ 12 ∧ 1 ≤ d ∧ d ≤ dim
  · rw [if_pos hc] at h; injection h with h; exact ⟨_, _, _, h.symm⟩
  · rw [if_neg hc] at h; injection h

/-- The values of a field of this type. -/
def FieldValue (typ : UInt8) (deci : Nat) (v : Val) : Prop :=
  if typ = 78 ∧ deci = 0 then v = .nan ∨ ∃ i : Int, v = .int i
  else if typ = 78 ∨ typ = 70 then Numeric v
  else if typ = 68 then v = .none ∨ ∃ y m d, v = .date y m d
  else ∃ s, v = .str s

theorem dbfConvert_value {typ : UInt8} {deci : Nat} {b : Bytes} {v : Val} (h : dbfConvert floatBytes typ deci b = .ok v) :
    FieldValue typ deci v := by
  unfold dbfConvert at h
  unfold FieldValue
  split at h
  · rename_i h78
    dsimp only at h
    split at h
    · cases h
      split
      · exact .inl rfl
      · rw [if_pos (.inl h78)]; exact .inr (.inl rfl)
    · split at h
      · rename_i hd
        rw [if_neg (fun h => hd h.2), if_pos (.inl h78)]
        exact floatBytes_numeric h
      · rename_i hd
        rw [if_pos ⟨h78, Decidable.not_not.1 hd⟩]
        split at h
        · cases h; exact .inr ⟨_, rfl⟩
        · cases h
  · rename_i h78
    rw [if_neg (fun h => h78 h.1)]
    split at h
    · rename_i h68
      rw [if_neg (by rw [h68]; decide), if_pos h68]
      split at h
      · split at h
        · cases h
        · split at h
          · cases h
          · split at h
            · cases h
            · exact .inr (pyDate_date h)
      · cases h; exact .inl rfl
    · rename_i h68
      split at h
      · rename_i h76
        rw [if_neg (by rw [h76]; decide), if_neg h68]
        split at h
        · cases h; exact ⟨_, rfl⟩
        · split at h <;> (cases h; exact ⟨_, rfl⟩)
      · split at h
        · rename_i h70
          rw [if_pos (.inr h70)]
          split at h
          · exact floatBytes_numeric h
          · cases h; exact .inr (.inl rfl)
        · rename_i h70
          rw [if_neg (fun h => h.elim h78 h70), if_neg h68]
          split at h
          · cases h; exact ⟨_, rfl⟩
          · cases h

theorem dbfRecord_field {fields : List DbfField} {record : List Bytes} {vs : List Val}
    (h : dbfRecord floatBytes (fields.zip record) = .ok vs) {j : Nat} {v : Val} (hv : vs[j]? = some v) :
    ∃ fld, (fields.filter fun f => f.name ≠ deletionFlag)[j]? = some fld ∧ FieldValue fld.typ fld.deci v := by
  induction fields generalizing record vs j with
  | nil => simp only [List.zip_nil_left, dbfRecord] at h; cases h; simp at hv
  | cons f fields ih =>
    cases record with
    | nil => simp only [List.zip_nil_right, dbfRecord] at h; cases h; simp at hv
    | cons b record =>
      rw [List.zip_cons_cons] at h
      unfold dbfRecord at h
      split at h
      · rename_i hn
        rw [List.filter_cons_of_neg (by simpa using hn)]
        exact ih h hv
      · rename_i hn
        rw [List.filter_cons_of_pos (by simpa using hn)]
        split at h
        · cases h
        · rename_i w hw
          split at h
          · cases h
          · rename_i ws hws
            cases h
            cases j with
            | zero =>
              simp only [List.getElem?_cons_zero, Option.some.injEq] at hv ⊢
              subst hv
              exact ⟨f, rfl, dbfConvert_value hw⟩
            | succ j =>
              simp only [List.getElem?_cons_succ] at hv ⊢
              exact ih hws hv

/-- Records whose values are those of fields. -/
def RecordsOf (fields : List DbfField) (recs : List (List Val)) : Prop :=
  ∀ r ∈ recs, ∀ (j : Nat) v, r[j]? = some v → ∃ fld, fields[j]? = some fld ∧ FieldValue fld.typ fld.deci v

theorem readRecords_fields {fields : List DbfField} {n : Nat} {f : BFile} {recs : List (List Val)}
    (h : readRecords floatBytes fields n f = .ok recs) : RecordsOf (fields.filter fun f => f.name ≠ deletionFlag) recs := by
  induction n generalizing f recs with
  | zero => unfold readRecords at h; cases h; intro r hr; cases hr
  | succ n ih =>
    unfold readRecords at h
    dsimp only at h
    split at h
    · cases h
    · split at h
      · exact ih h
      · split at h
        · cases h
        · rename_i result hres
          split at h
          · cases h
          · rename_i rest hrest
            cases h
            intro r hr
            rcases List.mem_cons.1 hr with rfl | hr
            · exact fun j v hv => dbfRecord_field hres hv
            · exact ih hrest r hr

theorem selRecords_fields {sel : List (DbfField × Nat)} {reclen n : Nat} {f : BFile} {recs : List (List Val)}
    (h : selRecords floatBytes sel reclen n f = .ok recs) :
    RecordsOf ((sel.map Prod.fst).filter fun f => f.name ≠ deletionFlag) recs := by
  induction n generalizing f recs with
  | zero => unfold selRecords at h; cases h; intro r hr; cases hr
  | succ n ih =>
    unfold selRecords at h
    dsimp only at h
    split at h
    · cases h
    · split at h
      · exact ih h
      · split at h
        · cases h
        · rename_i result hres
          split at h
          · cases h
          · rename_i rest hrest
            cases h
            intro r hr
            rcases List.mem_cons.1 hr with rfl | hr
            · exact fun j v hv => dbfRecord_field hres hv
            · exact ih hrest r hr

/-- A column is of the values of one field. -/
theorem recordsOf_column {fields : List DbfField} {recs : List (List Val)} (h : RecordsOf fields recs) {col : List Val}
    (hc : col ∈ zipStar recs) : ∃ typ deci, ∀ v ∈ col, FieldValue typ deci v := by
  obtain ⟨j, hj⟩ := List.getElem?_of_mem hc
  obtain ⟨hne, hz1, hz2, hz3⟩ := (zipStar_get _).1 hj
  cases recs with
  | nil => exact absurd rfl hne
  | cons r0 recs =>
    obtain ⟨fld, hfld, -⟩ := h r0 (by simp) j _ (List.getElem?_eq_getElem (hz1 r0 (by simp)))
    refine ⟨fld.typ, fld.deci, fun v hv => ?_⟩
    obtain ⟨m, hm⟩ := List.mem_iff_getElem?.1 hv
    rw [hz3, Option.bind_eq_some_iff] at hm
    obtain ⟨r, hm1, hm2⟩ := hm
    obtain ⟨fld', h1, h2⟩ := h r (List.mem_of_getElem? hm1) j v hm2
    rw [hfld] at h1
    cases h1
    exact h2

/-- The channels of `dbfpack` are of the values of one field each, whatever the file and the names asked for. -/
theorem C94_kinds {f : BFile} {names : List (List Char)} {data : List (Int × List Val)} {chnames : List (Int × List Char)}
    (h : dbfpack floatBytes f names = .ok (data, chnames)) : ∀ x ∈ data, ∃ typ deci, ∀ v ∈ x.2, FieldValue typ deci v := by
  unfold dbfpack at h
  split at h
  · unfold dbfreader at h
    split at h
    · cases h
    · rename_i fieldnames recs hr
      cases h
      split at hr
      · cases hr
      · dsimp only at hr
        split at hr
        · cases hr
        · split at hr
          · cases hr
          · rename_i hrecs
            cases hr
            intro x hx
            refine recordsOf_column (readRecords_fields hrecs) ?_
            unfold enumDict at hx
            obtain ⟨p, hp, rfl⟩ := List.mem_map.1 hx
            exact List.fst_mem_of_mem_zipIdx hp
  · split at h
    · cases h
    · split at h
      · cases h
      · rename_i recs hr
        cases h
        unfold dbfrecords at hr
        split at hr
        · cases hr
        · dsimp only at hr
          split at hr
          · cases hr
          · intro x hx
            exact recordsOf_column (selRecords_fields hr) (List.of_mem_zip hx).2

/-- C94 as a user would have it: the channels of the pack that `dbfpack` returns are the values that were read from the file.  With `all` of
every file that is read, else of those with integers up to 2 ^ 53 and without text that ends with a NUL. -/
def DbfPackHolds (all : Bool) : Prop :=
  ∀ (ft : Rat → List Char) (f : BFile) (names : List (List Char)) (data : List (Int × List Val)) (chnames : List (Int × List Char)),
    dbfpack floatBytes f names = .ok (data, chnames) →
    (all = false → ∀ x ∈ data, (∀ i : Int, .int i ∈ x.2 → i.natAbs ≤ 2 ^ 53) ∧ ∀ v ∈ x.2, ¬ EndsNul v) →
    ∃ p, packOfLists ft data (chnames.map fun c => (c.1, .str c.2)) = .ok p ∧ p.names = chnames.map (fun c => (c.1, .str c.2)) ∧
      ChannelsHold data p.data

theorem C94_compatible {f : BFile} {names : List (List Char)} {data : List (Int × List Val)} {chnames : List (Int × List Char)}
    (h : dbfpack floatBytes f names = .ok (data, chnames)) {x : Int × List Val} (hx : x ∈ data)
    (hi : ∀ i : Int, .int i ∈ x.2 → i.natAbs ≤ 2 ^ 53) (hn : ∀ v ∈ x.2, ¬ EndsNul v) : Compatible x.2 := by
  obtain ⟨typ, deci, hv⟩ := C94_kinds h x hx
  unfold FieldValue at hv
  split at hv
  · exact compatible_ints hv hi
  · split at hv
    · exact compatible_numbers hv
    · split at hv
      · exact compatible_dates hv
      · exact compatible_strs hv hn

/-- C94, the part that holds.  (Missing: larger integers, which may be rounded if there is a record without a number, and NULs at the end of
text, which are lost: C94_counterexample.) -/
theorem C94_dbf_partial : DbfPackHolds false := by
  intro ft f names data chnames hok hc
  exact C92_values_partial ft data _ fun _ x hx => C94_compatible hok hx (hc rfl x hx).1 (hc rfl x hx).2

/-- A file with one field N of 16 digits, no decimals: 9007199254740993 and nothing. -/
def bigDbf : Bytes := exFile [⟨['A'], 78, 16, 0⟩]
  [⟨32, [[57, 48, 48, 55, 49, 57, 57, 50, 53, 52, 55, 52, 48, 57, 57, 51]]⟩, ⟨32, [List.replicate 16 32]⟩]

/-- C94 as stated is false: 9007199254740993 in a field with a record without a number is read as the float 9007199254740992. -/
theorem C94_counterexample : ¬ DbfPackHolds true := by
  intro hall
  have he : dbfpack floatBytes ⟨bigDbf, 0⟩ [] = .ok ([(0, [.int 9007199254740993, .nan])], [(0, ['A'])]) := by decide +kernel
  obtain ⟨p, hp, -, -, h1⟩ := hall (fun _ => []) _ _ _ _ he (by simp)
  obtain ⟨a, ha, h2⟩ := h1 0 0 _ rfl
  have hp' : packOfLists (fun _ => []) [(0, [.int 9007199254740993, .nan])] [(0, .str ['A'])] =
      .ok (Pack.init [(0, ⟨.f, [.flt 9007199254740992, .nan]⟩)] [(0, .str ['A'])]) := by decide +kernel
  dsimp only [List.map] at hp
  rw [hp'] at hp
  cases hp
  rw [(init_data _ _).1] at ha
  cases ha
  cases h2 with
  | cons h3 h4 =>
    rcases h3 with h3 | ⟨q, h3, h5⟩
    · cases h3
    · simp only [valNumber, Option.some.injEq] at h3 h5
      rw [← h5] at h3
      exact absurd h3 (by decide)

/-- C94_dbf_partial: the file of the examples of C24. -/
example : ∃ data chnames, dbfpack floatBytes ⟨exFile exCols exRows, 0⟩ [] = .ok (data, chnames) ∧
    data = [(0, [.str ['x'], .str ['z']]), (1, [.int 7, .int (-1)]), (2, [.date 2020 2 29, .none])] ∧
    ∀ x ∈ data, (∀ i : Int, .int i ∈ x.2 → i.natAbs ≤ 2 ^ 53) ∧ ∀ v ∈ x.2, ¬ EndsNul v := by
  refine ⟨_, [(0, ['A']), (1, ['B']), (2, ['C'])], by decide +kernel, rfl, ?_⟩
  intro x hx
  simp only [List.mem_cons, List.not_mem_nil, or_false] at hx
  rcases hx with rfl | rfl | rfl
  · simp [EndsNul]
  · simp [EndsNul]
  · simp [EndsNul]

end CP
