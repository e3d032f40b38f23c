import Verif.Spec.SheetAccess
import Verif.Props.SheetCells
import Verif.Props.DateRead
/-!
# C102, C103: looking at the cells of a sheet
-/

namespace CP
open Spec

theorem filter_range_between (lo hi n : Nat) :
    ((List.range n).filter fun k => decide (lo ≤ k ∧ k < hi)) = List.range' lo (min hi n - lo) := by
  induction n with
  | zero => simp
  | succ n ih =>
    rw [List.range_succ, List.filter_append, ih]
    by_cases h : lo ≤ n ∧ n < hi
    · have e1 : min hi (n + 1) - lo = (min hi n - lo) + 1 := by omega
      have e2 : lo + (min hi n - lo) = n := by omega
      rw [e1, List.range'_concat]
      simp [h, e2]
    · have e1 : min hi (n + 1) - lo = min hi n - lo := by omega
      rw [e1]
      simp [h]

theorem positions_eq (n : Nat) (a : Int) (b : Option Int) :
    positions n a b = List.range' (fromEnd n a).toNat
      (min (match b with | none => n | some e => (fromEnd n e).toNat) n - (fromEnd n a).toNat) := by
  unfold positions
  rw [← filter_range_between]
  apply List.filter_congr
  intro k hk
  have hk := List.mem_range.1 hk
  cases b with
  | none => simp; omega
  | some e => simp

theorem pyRange_positions (n : Nat) (a : Int) (b : Option Int) :
    pyRange (sliceBounds n a b).1 (sliceBounds n a b).2 = (positions n a b).map fun k : Nat => (k : Int) := by
  rw [positions_eq, List.range'_eq_map_range, List.map_map]
  unfold pyRange sliceBounds fromEnd
  dsimp only
  have h : ∀ (x y : Int) (u v : Nat), (u ≠ 0 → x = (v : Int)) → (y - x).toNat = u →
      (List.range (y - x).toNat).map (fun i => x + (i : Nat)) =
        (List.range u).map ((fun k => ((k : Nat) : Int)) ∘ fun i => v + i) := by
    intro x y u v h1 h2
    rw [h2]
    apply List.map_congr_left
    intro i hi
    have := List.mem_range.1 hi
    have := h1 (by omega)
    simp
    omega
  apply h
  · cases b <;> (dsimp only; intro; split <;> (try split) <;> omega)
  · cases b <;> (dsimp only; split <;> (try split) <;> (try split) <;> (try split) <;> omega)

theorem mapE_listsAt {α : Type} {f : Int → Except Exc α} {ks : List Nat} {l : List α} :
    mapE f (ks.map fun k : Nat => (k : Int)) = .ok l ↔ ListsAt (fun k => f k) ks l := by
  unfold ListsAt
  induction ks generalizing l with
  | nil => cases l <;> simp [mapE]
  | cons k ks ih =>
    simp only [List.map_cons, mapE]
    cases hf : f k with
    | error e => cases l <;> simp
    | ok y =>
      dsimp only
      cases hm : mapE f (ks.map fun k : Nat => (k : Int)) with
      | error e =>
        cases l with
        | nil => simp
        | cons z l =>
          simp only [reduceCtorEq, List.map_cons, List.cons.injEq, Except.ok.injEq, false_iff, not_and]
          intro _ h
          have := ih.2 h
          rw [hm] at this
          cases this
      | ok ys =>
        cases l with
        | nil => simp
        | cons z l =>
          have := ih (l := l)
          rw [hm] at this
          simp only [Except.ok.injEq] at this
          simp [this]

theorem itemsAt_range' {α : Type} (l : List α) (lo k : Nat) : itemsAt l (List.range' lo k) = (l.drop lo).take k := by
  unfold itemsAt
  induction k generalizing lo with
  | zero => simp
  | succ k ih =>
    rw [List.range'_succ, List.filterMap_cons]
    cases h : l[lo]? with
    | none =>
      have h1 : l.length ≤ lo := List.getElem?_eq_none_iff.1 h
      rw [ih, List.drop_eq_nil_of_le h1, List.drop_eq_nil_of_le (by omega)]
      simp
    | some x =>
      obtain ⟨h1, h2⟩ := List.getElem?_eq_some_iff.1 h
      rw [ih, List.drop_eq_getElem_cons h1, List.take_succ_cons, h2]

theorem pySliceI_itemsAt {α : Type} (l : List α) (a b : Int) : pySliceI l a b = itemsAt l (positions l.length a (some b)) := by
  rw [positions_eq, itemsAt_range']
  unfold pySliceI pySlice
  dsimp only
  have e1 : (if a < 0 then a + l.length else a).toNat = (fromEnd l.length a).toNat := by
    unfold fromEnd; split <;> omega
  have e2 : (if b < 0 then b + l.length else b).toNat = (fromEnd l.length b).toNat := by
    unfold fromEnd; split <;> omega
  rw [e1, e2, List.drop_take, List.take_eq_take_iff]
  simp
  omega

theorem pySliceI_itemsAt_none {α : Type} (l : List α) (a : Int) :
    pySliceI l a l.length = itemsAt l (positions l.length a none) := by
  rw [pySliceI_itemsAt, positions_eq, positions_eq]
  congr 2

theorem rowItems_eq {α : Type} (t : List (List α)) (r a : Int) (b : Option Int) :
    rowItems t r a b = (pyIndex t r).map fun l => itemsAt l (positions l.length a b) := by
  unfold rowItems
  cases pyIndex t r with
  | error e => rfl
  | ok l =>
    cases b with
    | none => exact congrArg _ (pySliceI_itemsAt_none l a)
    | some b => exact congrArg _ (pySliceI_itemsAt l a b)

/-- A column cut at `a` and `b` is made of the cells of the rows of a slice of all rows, and so are
its values and types.  (Any sheet, any integers.) -/
theorem C102_column (s : SheetView) (c a : Int) (b : Option Int) :
    (∀ l, s.colSlice c a b = .ok l ↔ ListsAt (fun r => s.cell r c) (positions s.grid.nrows a b) l) ∧
    (∀ l, s.colValues c a b = .ok l ↔ ListsAt (fun r => s.cellValue r c) (positions s.grid.nrows a b) l) ∧
    (∀ l, s.colTypes c a b = .ok l ↔ ListsAt (fun r => s.cellType r c) (positions s.grid.nrows a b) l) := by
  refine ⟨fun l => ?_, fun l => ?_, fun l => ?_⟩
  all_goals
    first | unfold SheetView.colSlice | unfold SheetView.colValues | unfold SheetView.colTypes
    dsimp only
    rw [pyRange_positions]
    exact mapE_listsAt

/-- The columns that `readxl` takes from a sheet are `col_values` and `col_types`. -/
theorem C102_readxl (s : SheetView) (c a b : Int) :
    colSlice s.grid.nrows s.grid.values c a b = s.colValues c a (some b) ∧
    colSlice s.grid.nrows s.grid.types c a b = s.colTypes c a (some b) := ⟨rfl, rfl⟩

theorem pyIndex_map {α β : Type} (f : α → β) (t : List α) (i : Int) : pyIndex (t.map f) i = (pyIndex t i).map f := by
  unfold pyIndex
  dsimp only
  rw [List.length_map]
  generalize (if i < 0 then i + (t.length : Int) else i) = j
  by_cases h : j < 0
  · rw [if_pos h, if_pos h]
    rfl
  · rw [if_neg h, if_neg h, List.getElem?_map]
    cases t[j.toNat]? <;> rfl

theorem sameLength {α β : Type} {t : List (List α)} {u : List (List β)} (h : t.map List.length = u.map List.length)
    {i : Int} {l : List β} (hi : pyIndex u i = .ok l) : ∃ l', pyIndex t i = .ok l' ∧ l'.length = l.length := by
  have h1 := pyIndex_map List.length t i
  rw [h, pyIndex_map, hi] at h1
  cases ht : pyIndex t i with
  | error e => rw [ht] at h1; cases h1
  | ok l' =>
    rw [ht] at h1
    injection h1 with h1
    exact ⟨l', rfl, h1.symm⟩

theorem cellAt_ok {α : Type} {t : List (List α)} {i : Int} {l : List α} (hi : pyIndex t i = .ok l) {k : Nat} {x : α}
    (hk : l[k]? = some x) : cellAt t i k = .ok x := by
  unfold cellAt
  rw [hi]
  exact pyIndex_nat hk

theorem cellXfIndex_total {s : SheetView} {r c : Int} {x : Int} (hf : s.grid.fmt = true) (h : cellAt s.grid.xfs r c = .ok x) :
    s.cellXfIndex r c = .ok (formatOf x (natKey s.rowXf r) (natKey s.colXf c)) := by
  unfold SheetView.cellXfIndex SheetView.columnXf formatOf
  rw [hf, h]
  dsimp only
  rw [if_neg (by simp)]
  by_cases h1 : x > -1
  · rw [if_pos h1, if_pos (by omega)]
  · rw [if_neg h1, if_neg (by omega)]
    cases natKey s.rowXf r with
    | none =>
      cases natKey s.colXf c with
      | none => rfl
      | some z => by_cases hz : z = -1 <;> simp [hz, Option.filter]
    | some y =>
      dsimp only
      by_cases h2 : y > -1
      · rw [if_pos h2]
        simp [Option.filter, show 0 ≤ y by omega]
      · rw [if_neg h2]
        simp only [Option.filter, show decide (0 ≤ y) = false by simp; omega, Bool.false_eq_true, if_false]
        cases natKey s.colXf c with
        | none => rfl
        | some z => by_cases hz : z = -1 <;> simp [hz]

theorem cell_row {s : SheetView} (hs : Shaped s.grid) {r : Int} {l : List Val} (hr : pyIndex s.grid.values r = .ok l) :
    ∃ lt, pyIndex s.grid.types r = .ok lt ∧ lt.length = l.length ∧
      ∀ k : Nat, k < l.length → ∃ x : CellObj, s.cell r k = .ok x ∧ l[k]? = some x.value ∧ lt[k]? = some x.ctype ∧
        (x.xf.isSome = s.grid.fmt) := by
  obtain ⟨lt, ht, hlen⟩ := sameLength hs.types hr
  refine ⟨lt, ht, hlen, fun k hk => ?_⟩
  obtain ⟨v, hv⟩ : ∃ v, l[k]? = some v := ⟨_, List.getElem?_eq_getElem hk⟩
  obtain ⟨t, hty⟩ : ∃ t, lt[k]? = some t := ⟨_, List.getElem?_eq_getElem (by omega)⟩
  have e1 := cellAt_ok hr hv
  have e2 := cellAt_ok ht hty
  cases hf : s.grid.fmt with
  | false =>
    refine ⟨⟨t, v, none⟩, ?_, hv, hty, rfl⟩
    unfold SheetView.cell
    rw [hf, e1, e2]
    rfl
  | true =>
    obtain ⟨lx, hx, hlx⟩ := sameLength (hs.xfs hf) hr
    obtain ⟨x, hxk⟩ : ∃ x, lx[k]? = some x := ⟨_, List.getElem?_eq_getElem (by omega)⟩
    refine ⟨⟨t, v, some (formatOf x (natKey s.rowXf r) (natKey s.colXf k))⟩, ?_, hv, hty, rfl⟩
    unfold SheetView.cell
    rw [hf, cellXfIndex_total hf (cellAt_ok hx hxk), e1, e2]
    rfl

theorem positions_lt {n : Nat} {a : Int} {b : Option Int} {k : Nat} (h : k ∈ positions n a b) : k < n :=
  List.mem_range.1 (List.mem_filter.1 h).1

/-- Cells listed at some places of a row: their values are the items of the row there. -/
theorem listsAt_cells {s : SheetView} {r : Int} {l : List Val} {lt : List Nat} {ks : List Nat}
    (h : ∀ k ∈ ks, ∃ x : CellObj, s.cell r k = .ok x ∧ l[k]? = some x.value ∧ lt[k]? = some x.ctype) :
    ∃ cells, ListsAt (fun k => s.cell r k) ks cells ∧ itemsAt l ks = cells.map CellObj.value ∧
      itemsAt lt ks = cells.map CellObj.ctype := by
  induction ks with
  | nil => exact ⟨[], rfl, rfl, rfl⟩
  | cons k ks ih =>
    obtain ⟨cells, h1, h2, h3⟩ := ih fun k hk => h k (List.mem_cons_of_mem _ hk)
    obtain ⟨x, e1, e2, e3⟩ := h k (List.mem_cons_self ..)
    refine ⟨x :: cells, ?_, ?_, ?_⟩
    · unfold ListsAt at h1 ⊢
      rw [List.map_cons, List.map_cons, h1, e1]
    · unfold itemsAt at h2 ⊢
      rw [List.filterMap_cons, e2, h2]
      rfl
    · unfold itemsAt at h3 ⊢
      rw [List.filterMap_cons, e3, h3]
      rfl

theorem pyRange_all (n : Nat) : pyRange 0 n = (positions n 0 none).map fun k : Nat => (k : Int) := by
  rw [← pyRange_positions]
  unfold sliceBounds
  simp

/-- A row cut at `a` and `b`: `row_slice`, `row_values` and `row_types` give the cells, values and
types at the places of the slice, without an exception; `row` and `row_len` are about all places. -/
theorem C102_row (s : SheetView) (hs : Shaped s.grid) (r : Int) (l : List Val) (hr : pyIndex s.grid.values r = .ok l)
    (a : Int) (b : Option Int) :
    ∃ cells, s.rowSlice r a b = .ok cells ∧ ListsAt (fun k => s.cell r k) (positions l.length a b) cells ∧
      s.rowValues r a b = .ok (cells.map CellObj.value) ∧ s.rowValues r a b = .ok (itemsAt l (positions l.length a b)) ∧
      s.rowTypes r a b = .ok (cells.map CellObj.ctype) ∧
      s.row r = s.rowSlice r 0 none ∧ s.rowLen r = .ok l.length := by
  obtain ⟨lt, ht, hlen, hall⟩ := cell_row hs hr
  obtain ⟨cells, h1, h2, h3⟩ := listsAt_cells (s := s) (r := r) (l := l) (lt := lt) (ks := positions l.length a b)
    fun k hk => by
      obtain ⟨x, e1, e2, e3, _⟩ := hall k (positions_lt hk)
      exact ⟨x, e1, e2, e3⟩
  refine ⟨cells, ?_, h1, ?_, ?_, ?_, ?_, ?_⟩
  · unfold SheetView.rowSlice
    rw [hr]
    dsimp only
    rw [pyRange_positions]
    exact mapE_listsAt.2 h1
  · rw [← h2]
    unfold SheetView.rowValues
    rw [rowItems_eq, hr]
    rfl
  · unfold SheetView.rowValues
    rw [rowItems_eq, hr]
    rfl
  · rw [← h3]
    unfold SheetView.rowTypes
    rw [rowItems_eq, ht, ← hlen]
    rfl
  · unfold SheetView.row SheetView.rowSlice
    rw [hr]
    dsimp only
    rw [pyRange_positions, pyRange_all]
  · unfold SheetView.rowLen
    rw [hr]
    rfl

theorem listsAt_get {α : Type} {f : Nat → Except Exc α} {ks : List Nat} {l : List α} (h : ListsAt f ks l) {i k : Nat}
    (hi : ks[i]? = some k) : ∃ x, l[i]? = some x ∧ f k = .ok x := by
  unfold ListsAt at h
  have h1 := congrArg (fun m => m[i]?) h
  simp only [List.getElem?_map, hi] at h1
  cases hl : l[i]? with
  | none => rw [hl] at h1; cases h1
  | some x =>
    rw [hl] at h1
    injection h1 with h1
    exact ⟨x, rfl, h1⟩

theorem listsAt_length {α : Type} {f : Nat → Except Exc α} {ks : List Nat} {l : List α} (h : ListsAt f ks l) :
    l.length = ks.length := by
  have := congrArg List.length h
  simpa using this.symm

theorem positions_all (n : Nat) : positions n 0 none = List.range n := by
  unfold positions fromEnd
  rw [List.filter_eq_self]
  simp

theorem pyIndex_nat_none {α : Type} {l : List α} {n : Nat} (h : l[n]? = none) : pyIndex l (n : Int) = .error .indexError := by
  unfold pyIndex
  dsimp only
  rw [if_neg (by omega), if_neg (by omega), Int.toNat_natCast, h]

theorem cell_nat_none {s : SheetView} (hs : Shaped s.grid) {r : Int} {l : List Val} (hr : pyIndex s.grid.values r = .ok l)
    {c : Nat} (hc : l[c]? = none) : s.cell r c = .error .indexError := by
  have hc := List.getElem?_eq_none_iff.1 hc
  obtain ⟨lt, ht, hlen⟩ := sameLength hs.types hr
  have e2 : cellAt s.grid.types r c = .error .indexError := by
    unfold cellAt
    rw [ht]
    exact pyIndex_nat_none (List.getElem?_eq_none_iff.2 (by omega))
  unfold SheetView.cell
  cases hf : s.grid.fmt with
  | false => rw [e2]; rfl
  | true =>
    obtain ⟨lx, hx, hlx⟩ := sameLength (hs.xfs hf) hr
    have e3 : cellAt s.grid.xfs r c = .error .indexError := by
      unfold cellAt
      rw [hx]
      exact pyIndex_nat_none (List.getElem?_eq_none_iff.2 (by omega))
    unfold SheetView.cellXfIndex
    rw [hf, e3]
    rfl

/-- Iterating gives all rows, item access by one number is a row and by two a cell, and a column is
what stands at its place in all rows: IndexError if a row has no such place. -/
theorem C102_rows (s : SheetView) (hs : Shaped s.grid) :
    ∃ rows, s.getRows = .ok rows ∧ rows.length = s.grid.nrows ∧
      (∀ (r : Nat) row, rows[r]? = some row → s.row r = .ok row ∧ s.getItem (.row r) = .ok (.row row)) ∧
      (∀ (r c : Nat) row x, rows[r]? = some row → row[c]? = some x → s.cell r c = .ok x ∧ s.getItem (.cell r c) = .ok (.cell x)) ∧
      (∀ (c : Nat) l, s.colSlice c 0 none = .ok l ↔ rows.map (fun row => row[c]?) = l.map some) := by
  have hex : ∀ r ∈ List.range s.grid.nrows, ∃ row, s.row ((r : Nat) : Int) = .ok row := by
    intro r hr
    have hr := List.mem_range.1 hr
    rw [← hs.rows] at hr
    have h := pyIndex_nat (List.getElem?_eq_getElem hr)
    obtain ⟨cells, e, -, -, -, -, e', -⟩ := C102_row s hs r _ h 0 none
    exact ⟨cells, e'.trans e⟩
  have hg : s.getRows = mapE (fun rowx => s.row rowx) ((List.range s.grid.nrows).map fun k : Nat => (k : Int)) := by
    unfold SheetView.getRows
    rw [pyRange_all, positions_all]
  obtain ⟨rows, e⟩ := mapE_total (f := fun rowx => s.row rowx) (l := (List.range s.grid.nrows).map fun k : Nat => (k : Int)) (by
    intro x hx
    obtain ⟨k, hk, rfl⟩ := List.mem_map.1 hx
    exact hex k hk)
  have hl := mapE_listsAt.1 e
  have hlen : rows.length = s.grid.nrows := by rw [listsAt_length hl, List.length_range]
  have hrow : ∀ (r : Nat) row, rows[r]? = some row → s.row r = .ok row := by
    intro r row h
    have hr : r < s.grid.nrows := by rw [← hlen]; exact (List.getElem?_eq_some_iff.1 h).1
    obtain ⟨x, h1, h2⟩ := listsAt_get hl (i := r) (k := r) (by rw [List.getElem?_range hr])
    rw [h] at h1
    injection h1 with h1
    rw [h1]
    exact h2
  have hcell : ∀ (r c : Nat) row, rows[r]? = some row →
      s.cell r c = match row[c]? with | some x => .ok x | none => .error .indexError := by
    intro r c row h
    have hr : r < s.grid.values.length := by rw [hs.rows, ← hlen]; exact (List.getElem?_eq_some_iff.1 h).1
    have hv := pyIndex_nat (List.getElem?_eq_getElem hr)
    obtain ⟨cells, e1, e2, -, -, -, e3, -⟩ := C102_row s hs r _ hv 0 none
    have e4 := hrow r row h
    rw [e3, e1] at e4
    injection e4 with e4
    subst e4
    rw [positions_all] at e2
    have hlc := listsAt_length e2
    rw [List.length_range] at hlc
    cases hc : cells[c]? with
    | none =>
      have := List.getElem?_eq_none_iff.1 hc
      exact cell_nat_none hs hv (List.getElem?_eq_none_iff.2 (by omega))
    | some x =>
      have hcl := (List.getElem?_eq_some_iff.1 hc).1
      obtain ⟨y, h1, h2⟩ := listsAt_get e2 (i := c) (k := c) (by rw [List.getElem?_range (by omega)])
      rw [hc] at h1
      injection h1 with h1
      rw [h1]
      exact h2
  refine ⟨rows, hg.trans e, hlen, ?_, ?_, ?_⟩
  · intro r row h
    refine ⟨hrow r row h, ?_⟩
    unfold SheetView.getItem
    dsimp only
    rw [hrow r row h]
    rfl
  · intro r c row x h hx
    have := hcell r c row h
    rw [hx] at this
    refine ⟨this, ?_⟩
    unfold SheetView.getItem
    dsimp only
    rw [this]
    rfl
  · intro c l
    rw [(C102_column s c 0 none).1, positions_all]
    have hm : (List.range s.grid.nrows).map (fun r : Nat => s.cell r c) =
        rows.map fun row => match row[c]? with | some x => .ok x | none => .error .indexError := by
      apply List.ext_getElem?
      intro i
      rw [List.getElem?_map, List.getElem?_map]
      by_cases hi : i < s.grid.nrows
      · have hr : rows[i]? = some rows[i] := List.getElem?_eq_getElem (by omega)
        rw [List.getElem?_range hi, hr]
        exact congrArg some (hcell i c _ hr)
      · rw [List.getElem?_eq_none_iff.2 (by simpa using hi), List.getElem?_eq_none_iff.2 (by omega)]
        rfl
    unfold ListsAt
    rw [hm]
    clear hm hrow hcell hlen hl e hg hex
    induction rows generalizing l with
    | nil => cases l <;> simp
    | cons row rows ih =>
      cases l with
      | nil => simp
      | cons x l =>
        have := ih l
        simp only [List.map_cons, List.cons.injEq, this]
        cases row[c]? <;> simp

theorem shaped_of_holds {g : Grid} {f : Nat → Nat → PutCell} {lens : List Nat} (h : Holds g f lens) : Shaped g where
  rows := by
    have := congrArg List.length h.values.shape
    rw [List.length_map, h.nrows] at this
    exact this
  types := h.types.shape.trans h.values.shape.symm
  xfs := fun hf => (h.xfs hf).shape.trans h.values.shape.symm

/-- The tables of a sheet have one shape after any history of writes, with ragged rows or not. -/
theorem C102_shaped (fmt ragged : Bool) (maxRows maxCols : Nat) (hm : 0 < maxCols) (ops : List CellOp)
    (hfit : ∀ op ∈ ops, CellOp.Fits fmt maxRows maxCols op) :
    ∃ g, (Grid.init fmt ragged maxRows maxCols).run ops = (g, none) ∧ Shaped g := by
  obtain ⟨g, lens, e, h⟩ := gridInv_run hm ops (gridInv_init fmt ragged maxRows maxCols) (by simpa using hfit)
  exact ⟨g, e, shaped_of_holds h.holds⟩

/-! ### Negative indices -/

theorem pyIndex_from_end {α : Type} {t : List α} {k : Nat} (hk : k < t.length) :
    pyIndex t ((k : Int) - t.length) = pyIndex t k := by
  unfold pyIndex
  dsimp only
  rw [if_pos (c := (k : Int) - t.length < 0) (by omega), if_neg (c := (k : Int) < 0) (by omega),
    show (k : Int) - t.length + t.length = k by omega]

theorem pyIndex_names {α : Type} {t : List α} {i : Int} {k n : Nat} (hn : t.length = n) (h : IsIndexOf n i k) :
    pyIndex t i = pyIndex t k := by
  subst hn
  obtain ⟨h1, rfl | rfl⟩ := h
  · rfl
  · exact pyIndex_from_end h1

theorem cellAt_names {α : Type} {t : List (List α)} {i j : Int} {r c n : Nat} {l : List α} (hn : t.length = n)
    (hr : t[r]? = some l) (hi : IsIndexOf n i r) (hj : IsIndexOf l.length j c) : cellAt t i j = cellAt t r c := by
  unfold cellAt
  rw [pyIndex_names hn hi, pyIndex_nat hr]
  exact pyIndex_names rfl hj

theorem shape_get {α β : Type} {t : List (List α)} {u : List (List β)} (h : t.map List.length = u.map List.length)
    {r : Nat} {l : List β} (hr : u[r]? = some l) : ∃ l', t[r]? = some l' ∧ l'.length = l.length ∧ t.length = u.length := by
  have h1 := congrArg (fun m => m[r]?) h
  simp only [List.getElem?_map, hr] at h1
  have h2 := congrArg List.length h
  simp only [List.length_map] at h2
  cases ht : t[r]? with
  | none => rw [ht] at h1; cases h1
  | some l' =>
    rw [ht] at h1
    injection h1 with h1
    exact ⟨l', rfl, h1, h2⟩

/-- The value and the type of a cell do not depend on which of its indices is used. -/
theorem C103_values (s : SheetView) (hs : Shaped s.grid) (i j : Int) (r c : Nat) (l : List Val)
    (hr : s.grid.values[r]? = some l) (hi : IsIndexOf s.grid.nrows i r) (hj : IsIndexOf l.length j c) :
    s.cellValue i j = s.cellValue r c ∧ s.cellType i j = s.cellType r c ∧
      (∀ a b, s.rowValues i a b = s.rowValues r a b) ∧ (∀ a b, s.rowTypes i a b = s.rowTypes r a b) ∧
      s.rowLen i = s.rowLen r := by
  obtain ⟨lt, h1, h2, h3⟩ := shape_get hs.types hr
  have h4 : s.grid.types.length = s.grid.nrows := h3.trans hs.rows
  refine ⟨cellAt_names hs.rows hr hi hj, cellAt_names h4 h1 hi (by rw [h2]; exact hj), fun a b => ?_, fun a b => ?_, ?_⟩
  · unfold SheetView.rowValues rowItems
    rw [pyIndex_names hs.rows hi]
  · unfold SheetView.rowTypes rowItems
    rw [pyIndex_names h4 hi]
  · unfold SheetView.rowLen
    rw [pyIndex_names hs.rows hi]

/-- The cell found by indices, with its format: that of the row counts only for an index from the
start, and so for the column. -/
theorem C103_format (s : SheetView) (hs : Shaped s.grid) (hf : s.grid.fmt = true) (i j : Int) (r c : Nat) (l : List Val)
    (hr : s.grid.values[r]? = some l) (hi : IsIndexOf s.grid.nrows i r) (hj : IsIndexOf l.length j c) :
    ∃ (t : Nat) (v : Val) (own : Int), HasAt s.grid.types r c t ∧ HasAt s.grid.values r c v ∧ HasAt s.grid.xfs r c own ∧
      s.cell i j = .ok ⟨t, v,
        some (formatOf own (if 0 ≤ i then dget s.rowXf r else none) (if 0 ≤ j then dget s.colXf c else none))⟩ := by
  obtain ⟨lt, t1, t2, t3⟩ := shape_get hs.types hr
  obtain ⟨lx, x1, x2, x3⟩ := shape_get (hs.xfs hf) hr
  have hc := hj.1
  have ev : l[c]? = some l[c] := List.getElem?_eq_getElem hc
  have et : lt[c]? = some (lt[c]'(by omega)) := List.getElem?_eq_getElem (by omega)
  have ex : lx[c]? = some (lx[c]'(by omega)) := List.getElem?_eq_getElem (by omega)
  refine ⟨_, _, _, ⟨_, t1, et⟩, ⟨_, hr, ev⟩, ⟨_, x1, ex⟩, ?_⟩
  have hk : ∀ (d : List (Nat × Int)) (n : Nat) (i : Int) (k : Nat), IsIndexOf n i k →
      natKey d i = if 0 ≤ i then dget d k else none := by
    intro d n i k h
    unfold natKey
    obtain ⟨h1, rfl | rfl⟩ := h
    · rw [if_neg (by omega), if_pos (by omega), Int.toNat_natCast]
    · rw [if_pos (by omega), if_neg (by omega)]
  have e1 : cellAt s.grid.types i j = .ok (lt[c]'(by omega)) := by
    rw [cellAt_names (t3.trans hs.rows) t1 hi (by rw [t2]; exact hj)]
    exact cellAt_ok (pyIndex_nat t1) et
  have e2 : cellAt s.grid.values i j = .ok l[c] := by
    rw [cellAt_names hs.rows hr hi hj]
    exact cellAt_ok (pyIndex_nat hr) ev
  have e3 : cellAt s.grid.xfs i j = .ok (lx[c]'(by omega)) := by
    rw [cellAt_names (x3.trans hs.rows) x1 hi (by rw [x2]; exact hj)]
    exact cellAt_ok (pyIndex_nat x1) ex
  unfold SheetView.cell
  rw [hf, cellXfIndex_total hf e3, e1, e2, hk _ _ _ _ hi, hk _ _ _ _ hj]
  rfl

/-- Exactly when an index from the end finds the same cell as that from the start. -/
theorem C103_exact (s : SheetView) (hs : Shaped s.grid) (i j : Int) (r c : Nat) (l : List Val) (own : Int)
    (hr : s.grid.values[r]? = some l) (hi : IsIndexOf s.grid.nrows i r) (hj : IsIndexOf l.length j c)
    (ho : s.grid.fmt = true → HasAt s.grid.xfs r c own) :
    s.cell i j = s.cell r c ↔ s.grid.fmt = false ∨
      formatOf own (if 0 ≤ i then dget s.rowXf r else none) (if 0 ≤ j then dget s.colXf c else none) =
        formatOf own (dget s.rowXf r) (dget s.colXf c) := by
  cases hf : s.grid.fmt with
  | false =>
    simp only [true_or, iff_true]
    obtain ⟨h1, h2, -⟩ := C103_values s hs i j r c l hr hi hj
    unfold SheetView.cellValue at h1
    unfold SheetView.cellType at h2
    unfold SheetView.cell
    rw [hf, h1, h2]
    rfl
  | true =>
    obtain ⟨t, v, o, ⟨_, a1, a2⟩, ⟨_, b1, b2⟩, ⟨_, c1, c2⟩, e⟩ := C103_format s hs hf i j r c l hr hi hj
    obtain ⟨t', v', o', ⟨_, a1', a2'⟩, ⟨_, b1', b2'⟩, ⟨_, c1', c2'⟩, e'⟩ :=
      C103_format s hs hf r c r c l hr ⟨hi.1, .inl rfl⟩ ⟨hj.1, .inl rfl⟩
    obtain ⟨_, d1, d2⟩ := ho hf
    rw [a1] at a1'
    injection a1' with a1'
    subst a1'
    rw [a2] at a2'
    injection a2' with a2'
    rw [b1] at b1'
    injection b1' with b1'
    subst b1'
    rw [b2] at b2'
    injection b2' with b2'
    rw [c1] at c1' d1
    injection c1' with c1'
    injection d1 with d1
    subst c1' d1
    rw [c2] at c2' d2
    injection c2' with c2'
    injection d2 with d2
    subst a2' b2' c2' d2
    rw [e, e', if_pos (c := (0 : Int) ≤ (r : Int)) (by omega), if_pos (c := (0 : Int) ≤ (c : Int)) (by omega)]
    simp

theorem C103_index_partial : SameByIndex false := by
  intro s hs h i j r c l hr hi hj
  rcases h with h | h
  · cases h
  · exact (C103_exact s hs i j r c l 0 hr hi hj (fun hf => by rw [h] at hf; cases hf)).2 (.inl h)

/-- A sheet of one empty cell in a row that has a format. -/
def exRowFormat : SheetView where
  grid := { nrows := 1, ncols := 1, firstFull := -1, types := [[0]], values := [[.str []]], xfs := [[-1]], fmt := true,
            ragged := false, maxRows := 65536, maxCols := 256, merged := [] }
  rowXf := [(0, 20)]
  colXf := []

theorem exRowFormat_shaped : Shaped exRowFormat.grid := ⟨rfl, rfl, fun _ => rfl⟩

theorem C103_counterexample : ¬ SameByIndex true := by
  intro h
  have := h exRowFormat exRowFormat_shaped (.inl rfl) (-1) 0 0 0 [.str []] rfl ⟨by decide, .inr rfl⟩ ⟨by decide, .inl rfl⟩
  revert this
  decide +kernel

/-! ### Examples -/

example : ∃ cells, exRowFormat.rowSlice (-1) (-5) (some 7) = .ok cells ∧ cells = [⟨0, .str [], some 15⟩] :=
  ⟨_, rfl, by decide +kernel⟩

example : positions 5 (-3) (some (-1)) = [2, 3] ∧ positions 5 (-9) (some 2) = [0, 1] ∧ positions 5 3 none = [3, 4] ∧
    positions 5 1 (some (-9)) = [] := by decide +kernel

example := C102_row exRowFormat exRowFormat_shaped (-1) [.str []] rfl 0 none
example := C102_rows exRowFormat exRowFormat_shaped
example := C103_format exRowFormat exRowFormat_shaped rfl (-1) 0 0 0 [.str []] rfl ⟨by decide, .inr rfl⟩ ⟨by decide, .inl rfl⟩
example := C103_exact exRowFormat exRowFormat_shaped (-1) (-1) 0 0 [.str []] (-1) rfl ⟨by decide, .inr rfl⟩
  ⟨by decide, .inr rfl⟩ (fun _ => ⟨_, rfl, rfl⟩)
example := C103_values exRowFormat exRowFormat_shaped (-1) (-1) 0 0 [.str []] rfl ⟨by decide, .inr rfl⟩ ⟨by decide, .inr rfl⟩

end CP
