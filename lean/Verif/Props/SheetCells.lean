import Verif.Lemmas.SheetCells
/-!
# The cells of a sheet: C50, C60
-/

namespace CP

open Spec

/-- One operation on the sheet. -/
def Grid.op (g : Grid) : CellOp → Grid × Option Exc
  | .put r k c => g.put r k c
  | .merge rlo rhi clo chi => ({ g with merged := g.merged ++ [(rlo, rhi, clo, chi)] }, none)
  | .tidy => g.tidy

/-- A history of operations, until an exception. -/
def Grid.run (g : Grid) : List CellOp → Grid × Option Exc
  | [] => (g, none)
  | op :: ops =>
    match g.op op with
    | (g, some e) => (g, some e)
    | (g, none) => g.run ops

/-- The operation is within the limits of the sheet: of rows, columns and (if kept) of the
index of extended format.  A merged range is not empty. -/
def CellOp.Fits (fmt : Bool) (maxRows maxCols : Nat) : CellOp → Prop
  | .put r k c => r < maxRows ∧ k < maxCols ∧ (fmt = true → -32768 ≤ c.xf ∧ c.xf ≤ 32767)
  | .merge _ rhi _ chi => rhi ≤ maxRows ∧ 0 < chi
  | .tidy => True

theorem lastPut_append (r c : Nat) (ops : List CellOp) (op : CellOp) :
    lastPut r c (ops ++ [op]) = match op with
      | .put r' k v => if r' = r ∧ k = c then some v else lastPut r c ops
      | _ => lastPut r c ops := by
  induction ops with
  | nil => cases op <;> rfl
  | cons o ops ih =>
    rw [List.cons_append]
    unfold lastPut
    rw [ih]
    cases op with
    | put r' k v =>
      dsimp only
      by_cases h : r' = r ∧ k = c
      · simp only [if_pos h]
      · simp only [if_neg h]
    | merge => rfl
    | tidy => rfl

def isMerge : CellOp → Option (Nat × Nat × Nat × Nat)
  | .merge rlo rhi clo chi => some (rlo, rhi, clo, chi)
  | _ => none

/-- What holds of the sheet after the operations `done`. -/
structure GridInv (fmt ragged : Bool) (maxRows maxCols : Nat) (g : Grid) (done : List CellOp) (lens : List Nat) : Prop where
  holds : Holds g (fun r c => (lastPut r c done).getD emptyCell) lens
  full : ragged = false → FullFrom g lens
  merged : g.merged = done.filterMap isMerge
  rows : ∀ r k c, .put r k c ∈ done → r + 1 ≤ g.nrows ∧ k + 1 ≤ g.ncols
  rowsLe : ∀ m, (∀ op ∈ done, op.rows ≤ m) → g.nrows ≤ m
  colsLe : ∀ m, (∀ op ∈ done, op.cols ≤ m) → g.ncols ≤ m
  fmt : g.fmt = fmt
  ragged : g.ragged = ragged
  maxRows : g.maxRows = maxRows
  maxCols : g.maxCols = maxCols

theorem gridInv_init (fmt ragged : Bool) (maxRows maxCols : Nat) :
    GridInv fmt ragged maxRows maxCols (Grid.init fmt ragged maxRows maxCols) [] [] where
  holds := by
    refine ⟨⟨rfl, ?_, ?_⟩, ⟨rfl, ?_, ?_⟩, fun _ => ⟨rfl, ?_, ?_⟩, rfl, by simp, ?_⟩
    all_goals intros
    all_goals first | rfl | simp_all [Grid.init]
  full := by intro _ _; simp [Grid.init]
  merged := rfl
  rows := by simp
  rowsLe := by simp [Grid.init]
  colsLe := by simp [Grid.init]
  fmt := rfl
  ragged := rfl
  maxRows := rfl
  maxCols := rfl

theorem put_ok {g : Grid} {f : Nat → Nat → PutCell} {lens : List Nat} (h : Holds g f lens)
    (hfull : g.ragged = false → FullFrom g lens) {r c : Nat} (hr : r < g.maxRows) (hc : c < g.maxCols) {v : PutCell}
    (hx : g.fmt = true → Int16 v.xf) :
    ∃ g' lens', g.put r c v = (g', none) ∧ Holds g' (upd f r c v) lens' ∧ (g.ragged = false → FullFrom g' lens') ∧
      (g.ragged = true → ∀ (i n : Nat), lens'[i]? = some n →
        n = if i = r then max (lens[i]?.getD 0) (c + 1) else lens[i]?.getD 0) ∧
      g' = { g with types := g'.types, values := g'.values, xfs := g'.xfs, firstFull := g'.firstFull,
                    nrows := max g.nrows (r + 1), ncols := max g.ncols (c + 1) } := by
  unfold Grid.put
  cases hb : g.ragged with
  | false =>
    obtain ⟨g', lens', h1, h2, h3, h4⟩ := putUnragged_ok h (hfull hb) hr hc hx
    refine ⟨g', lens', by simpa using h1, h2, fun _ => h3, by simp, ?_⟩
    rw [hb] at h4
    exact h4
  | true =>
    obtain ⟨g', lens', h1, h2, h3, h4⟩ := putRagged_ok h hr hc hx
    refine ⟨g', lens', by simpa using h1, h2, by simp, fun _ => h3, ?_⟩
    have h5 : g'.firstFull = g.firstFull := by rw [h4]
    rw [hb] at h4
    rw [h5]
    exact h4

theorem mergedExtent_spec (l : List (Nat × Nat × Nat × Nat)) :
    (∀ x ∈ l, x.2.1 ≤ (mergedExtent l).1 ∧ x.2.2.2 ≤ (mergedExtent l).2) ∧
    (∀ m, (∀ x ∈ l, x.2.1 ≤ m) → (mergedExtent l).1 ≤ m) ∧
    (∀ m, (∀ x ∈ l, x.2.2.2 ≤ m) → (mergedExtent l).2 ≤ m) := by
  induction l with
  | nil => simp [mergedExtent]
  | cons x l ih =>
    obtain ⟨a, rhi, b, chi⟩ := x
    obtain ⟨h1, h2, h3⟩ := ih
    refine ⟨?_, ?_, ?_⟩
    · intro y hy
      simp only [mergedExtent]
      rcases List.mem_cons.1 hy with rfl | hy
      · dsimp only; omega
      · have := h1 y hy
        omega
    · intro m hm
      simp only [mergedExtent]
      have := hm _ (List.mem_cons_self)
      have := h2 m (fun y hy => hm y (List.mem_cons_of_mem _ hy))
      dsimp only at *
      omega
    · intro m hm
      simp only [mergedExtent]
      have := hm _ (List.mem_cons_self)
      have := h3 m (fun y hy => hm y (List.mem_cons_of_mem _ hy))
      dsimp only at *
      omega

theorem mem_merged {done : List CellOp} {x : Nat × Nat × Nat × Nat} (h : x ∈ done.filterMap isMerge) :
    CellOp.merge x.1 x.2.1 x.2.2.1 x.2.2.2 ∈ done := by
  obtain ⟨op, h1, h2⟩ := List.mem_filterMap.1 h
  cases op with
  | put => simp [isMerge] at h2
  | tidy => simp [isMerge] at h2
  | merge =>
    simp only [isMerge, Option.some.injEq] at h2
    subst h2
    exact h1

theorem merged_mem {done : List CellOp} {rlo rhi clo chi : Nat} (h : CellOp.merge rlo rhi clo chi ∈ done) :
    (rlo, rhi, clo, chi) ∈ done.filterMap isMerge := List.mem_filterMap.2 ⟨_, h, rfl⟩

/-- tidy_dimensions -/
theorem gridInv_tidy {fmt ragged : Bool} {maxRows maxCols : Nat} {g : Grid} {done : List CellOp} {lens : List Nat}
    (h : GridInv fmt ragged maxRows maxCols g done lens) (hm : 0 < maxCols) (hfit : ∀ op ∈ done, CellOp.Fits fmt maxRows maxCols op) :
    ∃ g' lens', g.tidy = (g', none) ∧ GridInv fmt ragged maxRows maxCols g' done lens' ∧
      (∀ op ∈ done, op.rows ≤ g'.nrows ∧ op.cols ≤ g'.ncols) ∧
      (ragged = false → lens' = List.replicate g'.nrows g'.ncols) ∧
      (ragged = true → g.merged = [] → g' = g ∧ lens' = lens) := by
  have hmc : ∃ g1 lens1, g.mergedCells = (g1, none) ∧ GridInv fmt ragged maxRows maxCols g1 done lens1 ∧
      (∀ op ∈ done, op.rows ≤ g1.nrows ∧ op.cols ≤ g1.ncols) ∧ (g.merged = [] → g1 = g ∧ lens1 = lens) := by
    unfold Grid.mergedCells
    by_cases hnil : g.merged = []
    · rw [if_pos hnil]
      refine ⟨g, lens, rfl, h, ?_, fun _ => ⟨rfl, rfl⟩⟩
      intro op hop
      cases op with
      | put r k c => exact h.rows r k c hop
      | merge a b c d =>
        have := merged_mem hop
        rw [← h.merged, hnil] at this
        simp at this
      | tidy => exact ⟨Nat.zero_le _, Nat.zero_le _⟩
    · rw [if_neg hnil]
      obtain ⟨s1, s2, s3⟩ := mergedExtent_spec g.merged
      have hrle : (mergedExtent g.merged).1 ≤ maxRows := s2 _ fun x hx => by
        rw [h.merged] at hx
        exact (hfit _ (mem_merged hx)).1
      have hcpos : 0 < (mergedExtent g.merged).2 := by
        cases hml : g.merged with
        | nil => exact absurd hml hnil
        | cons x l =>
          have hx : x ∈ g.merged := by rw [hml]; simp
          have h1 := (s1 x hx).2
          rw [h.merged] at hx
          have h2 : 0 < x.2.2.2 := (hfit _ (mem_merged hx)).2
          rw [hml] at h1
          omega
      have hr1 : ∀ m, (∀ op ∈ done, op.rows ≤ m) → (mergedExtent g.merged).1 ≤ m := fun m hall => s2 m fun x hx => by
        rw [h.merged] at hx
        exact hall _ (mem_merged hx)
      have hc1 : ∀ m, (∀ op ∈ done, op.cols ≤ m) → (mergedExtent g.merged).2 ≤ m := fun m hall => s3 m fun x hx => by
        rw [h.merged] at hx
        exact hall _ (mem_merged hx)
      dsimp only
      -- the number of columns
      have hw : ∃ g0, (if (mergedExtent g.merged).2 > g.ncols then
            { g with ncols := (mergedExtent g.merged).2, firstFull := -2 } else g) = g0 ∧
          GridInv fmt ragged maxRows maxCols g0 done lens ∧ g0.ncols = max g.ncols (mergedExtent g.merged).2 ∧
          g0.nrows = g.nrows ∧ g0.merged = g.merged := by
        refine ⟨_, rfl, ?_⟩
        split
        · refine ⟨⟨⟨h.holds.types, h.holds.values, h.holds.xfs, h.holds.nrows, ?_, h.holds.out⟩, ?_, h.merged, ?_, h.rowsLe,
            ?_, h.fmt, h.ragged, h.maxRows, h.maxCols⟩, ?_, rfl, rfl⟩
          · intro n hn
            have := h.holds.le n hn
            show n ≤ (mergedExtent g.merged).2
            omega
          · intro _ hne
            exact absurd rfl hne
          · intro r k c hop
            have := h.rows r k c hop
            show r + 1 ≤ g.nrows ∧ k + 1 ≤ (mergedExtent g.merged).2
            omega
          · exact hc1
          · show (mergedExtent g.merged).2 = _
            omega
        · exact ⟨h, by omega, rfl, rfl⟩
      obtain ⟨g0, e0, h0, c0, r0, m0⟩ := hw
      rw [e0, ← m0]
      by_cases hgt : (mergedExtent g0.merged).1 > g0.nrows
      · rw [if_pos hgt]
        rw [m0] at hgt ⊢
        obtain ⟨g', lens', e', k1, k2, _, k4⟩ := put_ok h0.holds (fun hb => h0.full (by rw [← h0.ragged, hb]))
          (r := (mergedExtent g.merged).1 - 1) (c := 0) (v := emptyCell) (by rw [h0.maxRows]; omega)
          (by rw [h0.maxCols]; omega) (fun _ => by decide)
        have hupd : upd (fun r c => (lastPut r c done).getD emptyCell) ((mergedExtent g.merged).1 - 1) 0 emptyCell =
            fun r c => (lastPut r c done).getD emptyCell := by
          funext r c
          unfold upd
          split
          · rename_i hrc
            refine (h0.holds.out r c ?_).symm
            rintro ⟨n, hn, _⟩
            have := (List.getElem?_eq_some_iff.1 hn).1
            rw [h0.holds.nrows] at this
            omega
          · rfl
        rw [hupd] at k1
        have b1 : g'.nrows = (mergedExtent g.merged).1 := by rw [k4]; show max g0.nrows _ = _; omega
        have b2 : g'.ncols = max g.ncols (mergedExtent g.merged).2 := by rw [k4]; show max g0.ncols 1 = _; omega
        refine ⟨g', lens', e', ⟨k1, ?_, ?_, ?_, ?_, ?_, ?_, ?_, ?_, ?_⟩, ?_, ?_⟩
        · intro hb; exact k2 (by rw [h0.ragged, hb])
        · rw [k4]; exact h0.merged
        · intro r k c hop
          have := h.rows r k c hop
          omega
        · intro m hall
          rw [b1]
          exact hr1 m hall
        · intro m hall
          have := hc1 m hall
          have := h.colsLe m hall
          omega
        · rw [k4]; exact h0.fmt
        · rw [k4]; exact h0.ragged
        · rw [k4]; exact h0.maxRows
        · rw [k4]; exact h0.maxCols
        · intro op hop
          cases op with
          | put r k c =>
            have := h.rows r k c hop
            simp only [CellOp.rows, CellOp.cols]
            omega
          | merge a b c d =>
            have hx := merged_mem hop
            rw [← h.merged] at hx
            have := s1 _ hx
            simp only [CellOp.rows, CellOp.cols] at this ⊢
            omega
          | tidy => exact ⟨Nat.zero_le _, Nat.zero_le _⟩
        · intro hn; exact absurd hn hnil
      · rw [if_neg hgt]
        rw [m0] at hgt
        refine ⟨g0, lens, rfl, h0, ?_, ?_⟩
        · intro op hop
          cases op with
          | put r k c => exact h0.rows r k c hop
          | merge a b c d =>
            have hx := merged_mem hop
            rw [← h.merged] at hx
            have := s1 _ hx
            simp only [CellOp.rows, CellOp.cols] at this ⊢
            omega
          | tidy => exact ⟨Nat.zero_le _, Nat.zero_le _⟩
        · intro hn; exact absurd (by rw [← m0]; exact hn) hnil
  obtain ⟨g1, lens1, e1, h1, h2, h3⟩ := hmc
  unfold Grid.tidy
  rw [e1]
  dsimp only
  cases hb : ragged with
  | true =>
    have : g1.fixRagged = g1 := by unfold Grid.fixRagged; rw [if_pos (by rw [h1.ragged, hb])]
    rw [this]
    subst hb
    exact ⟨g1, lens1, rfl, h1, h2, by simp, fun _ => h3⟩
  | false =>
    subst hb
    obtain ⟨k1, m1, m2, m3, m4, m5, m6, m7, m8⟩ := fixRagged_ok h1.holds (h1.full rfl) h1.ragged
    refine ⟨g1.fixRagged, _, rfl, ⟨k1, ?_, ?_, ?_, ?_, ?_, ?_, ?_, ?_, ?_⟩, ?_, ?_, by simp⟩
    · intro _ hne
      rw [m3] at hne ⊢
      rw [m1, m2]
      obtain ⟨f1, f2, _⟩ := h1.full rfl hne
      refine ⟨f1, f2, fun r n hn _ => ?_⟩
      rw [List.getElem?_replicate] at hn
      split at hn
      · simp only [Option.some.injEq] at hn; exact hn.symm
      · simp at hn
    · rw [m8]; exact h1.merged
    · rw [m1, m2]; exact h1.rows
    · rw [m1]; exact h1.rowsLe
    · rw [m2]; exact h1.colsLe
    · rw [m4]; exact h1.fmt
    · rw [m5]; exact h1.ragged
    · rw [m6]; exact h1.maxRows
    · rw [m7]; exact h1.maxCols
    · rw [m1, m2]; exact h2
    · intro _; rw [m1, m2]

theorem gridInv_op {fmt ragged : Bool} {maxRows maxCols : Nat} {g : Grid} {done : List CellOp} {lens : List Nat}
    (h : GridInv fmt ragged maxRows maxCols g done lens) (hm : 0 < maxCols) (hfit : ∀ op ∈ done, CellOp.Fits fmt maxRows maxCols op)
    {op : CellOp} (hop : CellOp.Fits fmt maxRows maxCols op) :
    ∃ g' lens', g.op op = (g', none) ∧ GridInv fmt ragged maxRows maxCols g' (done ++ [op]) lens' ∧
      (ragged = true → g.merged = [] → ∀ (i n : Nat), lens'[i]? = some n → n = max (lens[i]?.getD 0) (op.colsIn i)) := by
  cases op with
  | put r c v =>
    obtain ⟨h1, h2, h3⟩ := hop
    obtain ⟨g', lens', e', k1, k2, k3, k4⟩ := put_ok h.holds (fun hb => h.full (by rw [← h.ragged, hb]))
      (r := r) (c := c) (v := v) (by rw [h.maxRows]; exact h1) (by rw [h.maxCols]; exact h2)
      (fun hf => h3 (by rw [← h.fmt, hf]))
    have hupd : upd (fun r c => (lastPut r c done).getD emptyCell) r c v =
        fun r' c' => (lastPut r' c' (done ++ [.put r c v])).getD emptyCell := by
      funext r' c'
      rw [lastPut_append]
      unfold upd
      dsimp only
      by_cases hrc : r' = r ∧ c' = c
      · rw [if_pos hrc, if_pos ⟨hrc.1.symm, hrc.2.symm⟩]; rfl
      · rw [if_neg hrc, if_neg (fun hx => hrc ⟨hx.1.symm, hx.2.symm⟩)]
    rw [hupd] at k1
    have b1 : g'.nrows = max g.nrows (r + 1) := by rw [k4]
    have b2 : g'.ncols = max g.ncols (c + 1) := by rw [k4]
    refine ⟨g', lens', e', ⟨k1, ?_, ?_, ?_, ?_, ?_, ?_, ?_, ?_, ?_⟩, ?_⟩
    · intro hb; exact k2 (by rw [h.ragged, hb])
    · rw [k4, List.filterMap_append]
      simp [isMerge, h.merged]
    · intro r' k' c' hmem
      rw [b1, b2]
      rcases List.mem_append.1 hmem with hmem | hmem
      · have := h.rows r' k' c' hmem
        omega
      · simp only [List.mem_singleton, CellOp.put.injEq] at hmem
        omega
    · intro m hall
      have := h.rowsLe m fun op hop => hall op (List.mem_append_left _ hop)
      have : r + 1 ≤ m := hall (.put r c v) (by simp)
      omega
    · intro m hall
      have := h.colsLe m fun op hop => hall op (List.mem_append_left _ hop)
      have : c + 1 ≤ m := hall (.put r c v) (by simp)
      omega
    · rw [k4]; exact h.fmt
    · rw [k4]; exact h.ragged
    · rw [k4]; exact h.maxRows
    · rw [k4]; exact h.maxCols
    · intro hb _ i n hi
      rw [k3 (by rw [h.ragged, hb]) i n hi]
      simp only [CellOp.colsIn]
      by_cases hir : i = r
      · rw [if_pos hir, if_pos hir.symm]
      · rw [if_neg hir, if_neg (fun e => hir e.symm)]; omega
  | merge rlo rhi clo chi =>
    have hlast : (fun r c => (lastPut r c (done ++ [CellOp.merge rlo rhi clo chi])).getD emptyCell) =
        fun r c => (lastPut r c done).getD emptyCell := by
      funext r c; rw [lastPut_append]
    refine ⟨_, lens, rfl, ⟨?_, h.full, ?_, ?_, ?_, ?_, h.fmt, h.ragged, h.maxRows, h.maxCols⟩, ?_⟩
    · rw [hlast]
      exact ⟨h.holds.types, h.holds.values, h.holds.xfs, h.holds.nrows, h.holds.le, h.holds.out⟩
    · rw [List.filterMap_append]
      simp [isMerge, h.merged]
    · intro r k c hmem
      rcases List.mem_append.1 hmem with hmem | hmem
      · exact h.rows r k c hmem
      · simp at hmem
    · exact fun m hall => h.rowsLe m fun op hop => hall op (List.mem_append_left _ hop)
    · exact fun m hall => h.colsLe m fun op hop => hall op (List.mem_append_left _ hop)
    · intro _ _ i n hi
      rw [hi]
      simp [CellOp.colsIn]
  | tidy =>
    obtain ⟨g', lens', e', k, k1, k2, k3⟩ := gridInv_tidy h hm hfit
    have hlast : (fun r c => (lastPut r c (done ++ [CellOp.tidy])).getD emptyCell) =
        fun r c => (lastPut r c done).getD emptyCell := by
      funext r c; rw [lastPut_append]
    refine ⟨g', lens', e', ⟨by rw [hlast]; exact k.holds, k.full, ?_, ?_, ?_, ?_, k.fmt, k.ragged, k.maxRows, k.maxCols⟩, ?_⟩
    · rw [List.filterMap_append]
      simp [isMerge, k.merged]
    · intro r k' c hmem
      rcases List.mem_append.1 hmem with hmem | hmem
      · exact k.rows r k' c hmem
      · simp at hmem
    · exact fun m hall => k.rowsLe m fun op hop => hall op (List.mem_append_left _ hop)
    · exact fun m hall => k.colsLe m fun op hop => hall op (List.mem_append_left _ hop)
    · intro hb hnil i n hi
      obtain ⟨_, rfl⟩ := k3 hb hnil
      rw [hi]
      simp [CellOp.colsIn]

theorem gridInv_run {fmt ragged : Bool} {maxRows maxCols : Nat} (hm : 0 < maxCols) (ops : List CellOp) {g : Grid}
    {done : List CellOp} {lens : List Nat}
    (h : GridInv fmt ragged maxRows maxCols g done lens) (hfit : ∀ op ∈ done ++ ops, CellOp.Fits fmt maxRows maxCols op) :
    ∃ g' lens', g.run ops = (g', none) ∧ GridInv fmt ragged maxRows maxCols g' (done ++ ops) lens' := by
  induction ops generalizing g done lens with
  | nil => exact ⟨g, lens, rfl, by simpa using h⟩
  | cons op ops ih =>
    obtain ⟨g1, lens1, e1, h1, _⟩ := gridInv_op h hm (fun o ho => hfit o (List.mem_append_left _ ho)) (hfit op (by simp))
    obtain ⟨g', lens', e', h'⟩ := ih h1 (by simpa using hfit)
    refine ⟨g', lens', ?_, by simpa using h'⟩
    rw [Grid.run, e1]
    exact e'

theorem run_append (g : Grid) (a b : List CellOp) :
    g.run (a ++ b) = match g.run a with
      | (g, some e) => (g, some e)
      | (g, none) => g.run b := by
  induction a generalizing g with
  | nil => rfl
  | cons op a ih =>
    rw [List.cons_append, Grid.run, Grid.run]
    rcases g.op op with ⟨g1, _ | e⟩
    · exact ih g1
    · rfl

/-- C50: after any history of `put_cell` (within the limits of the sheet), merged ranges and
`tidy_dimensions`, with `tidy_dimensions` at the end, the sheet is a rectangle.  It has just
the rows and columns needed, each cell is the one put there last, or empty. -/
theorem C50_last_write_wins (fmt : Bool) (maxRows maxCols : Nat) (hm : 0 < maxCols) (ops : List CellOp)
    (hfit : ∀ op ∈ ops, CellOp.Fits fmt maxRows maxCols op) :
    ∃ g, (Grid.init fmt false maxRows maxCols).run (ops ++ [.tidy]) = (g, none) ∧
      Largest CellOp.rows ops g.nrows ∧ Largest CellOp.cols ops g.ncols ∧
      (g.types.length = g.nrows ∧ ∀ row ∈ g.types, row.length = g.ncols) ∧
      (g.values.length = g.nrows ∧ ∀ row ∈ g.values, row.length = g.ncols) ∧
      ∀ r c, r < g.nrows → c < g.ncols →
        HasAt g.types r c ((lastPut r c ops).getD emptyCell).typ ∧
        HasAt g.values r c ((lastPut r c ops).getD emptyCell).value ∧
        (fmt = true → HasAt g.xfs r c ((lastPut r c ops).getD emptyCell).xf) := by
  obtain ⟨g1, lens1, e1, h1⟩ := gridInv_run hm ops (gridInv_init fmt false maxRows maxCols) (by simpa using hfit)
  rw [List.nil_append] at h1
  obtain ⟨g, lens, e, h, h2, h3, _⟩ := gridInv_tidy h1 hm hfit
  have hl := h3 rfl
  subst hl
  have hmem : ∀ {α : Type} {t : List (List α)} {f : Nat → Nat → α} {d : α},
      Rep t (List.replicate g.nrows g.ncols) f d → t.length = g.nrows ∧ ∀ row ∈ t, row.length = g.ncols := by
    intro α t f d hr
    have hs := hr.shape
    refine ⟨by have := congrArg List.length hs; simpa using this, fun row hrow => ?_⟩
    have : row.length ∈ t.map List.length := List.mem_map_of_mem hrow
    rw [hs] at this
    exact (List.mem_replicate.1 this).2
  have hin : ∀ r c, r < g.nrows → c < g.ncols → InLens (List.replicate g.nrows g.ncols) r c := fun r c hr hc =>
    ⟨g.ncols, by rw [List.getElem?_replicate, if_pos hr], hc⟩
  refine ⟨g, ?_, ⟨fun op hop => (h2 op hop).1, h.rowsLe⟩, ⟨fun op hop => (h2 op hop).2, h.colsLe⟩,
    hmem h.holds.types, hmem h.holds.values, fun r c hr hc => ⟨h.holds.types.has (hin r c hr hc),
      h.holds.values.has (hin r c hr hc), fun hf => (h.holds.xfs (by rw [h.fmt, hf])).has (hin r c hr hc)⟩⟩
  rw [run_append, e1]
  show (match g1.tidy with
    | (g, some e) => (g, some e)
    | (g, none) => g.run []) = _
  rw [e]
  rfl

/-- C50: a cell outside the limits is refused, at any time. -/
theorem C50_limits (fmt ragged : Bool) (maxRows maxCols : Nat) (hm : 0 < maxCols) (ops : List CellOp)
    (hfit : ∀ op ∈ ops, CellOp.Fits fmt maxRows maxCols op) (hcol : ∀ op ∈ ops, op.cols ≤ maxCols) (r k : Nat) (c : PutCell)
    (hout : maxRows ≤ r ∨ maxCols ≤ k) :
    ∃ g, (Grid.init fmt ragged maxRows maxCols).run ops = (g, none) ∧ g.put r k c = (g, some .assertionError) := by
  obtain ⟨g, lens, e, h⟩ := gridInv_run hm ops (gridInv_init fmt ragged maxRows maxCols) (by simpa using hfit)
  rw [List.nil_append] at h
  refine ⟨g, e, ?_⟩
  have h1 : g.nrows ≤ maxRows := h.rowsLe maxRows fun op hop => by
    have := hfit op hop
    cases op with
    | put => exact this.1
    | merge => exact this.1
    | tidy => exact Nat.zero_le _
  have h2 : g.ncols ≤ maxCols := h.colsLe maxCols hcol
  have h3 := h.maxRows
  have h4 := h.maxCols
  unfold Grid.put
  split
  · unfold Grid.putRagged
    by_cases hc : k < g.maxCols
    · rw [if_neg (by omega), if_pos (by omega)]
    · rw [if_pos (by omega)]
  · unfold Grid.putUnragged
    rw [assign_out h.holds]
    · dsimp only
      rw [if_neg (by simp)]
      by_cases hc : k < g.maxCols
      · rw [if_neg (by omega), if_pos (by omega)]
      · rw [if_pos (by omega)]
    · rintro ⟨n, hn, hlt⟩
      have h5 := (List.getElem?_eq_some_iff.1 hn).1
      rw [h.holds.nrows] at h5
      have h6 := h.holds.le n (List.mem_of_getElem? hn)
      omega

/-- C60: with `ragged_rows` (and no merged ranges) each row is as long as the cells put there
ask for, and each cell is the one put there last, or empty. -/
theorem C60_ragged (fmt : Bool) (maxRows maxCols : Nat) (hm : 0 < maxCols) (ops : List CellOp)
    (hfit : ∀ op ∈ ops, CellOp.Fits fmt maxRows maxCols op) (hno : ops.filterMap isMerge = []) :
    ∃ g, (Grid.init fmt true maxRows maxCols).run ops = (g, none) ∧
      Largest CellOp.rows ops g.nrows ∧ Largest CellOp.cols ops g.ncols ∧
      g.types.map List.length = g.values.map List.length ∧ g.values.length = g.nrows ∧
      (∀ (r : Nat) row, g.values[r]? = some row → Largest (CellOp.colsIn r) ops row.length) ∧
      ∀ (r : Nat) row c, g.values[r]? = some row → c < row.length →
        HasAt g.types r c ((lastPut r c ops).getD emptyCell).typ ∧
        HasAt g.values r c ((lastPut r c ops).getD emptyCell).value ∧
        (fmt = true → HasAt g.xfs r c ((lastPut r c ops).getD emptyCell).xf) := by
  have key : ∀ (ops : List CellOp) (g : Grid) (done : List CellOp) (lens : List Nat),
      GridInv fmt true maxRows maxCols g done lens → (∀ op ∈ done ++ ops, CellOp.Fits fmt maxRows maxCols op) →
      (done ++ ops).filterMap isMerge = [] → (∀ (i n : Nat), lens[i]? = some n → Largest (CellOp.colsIn i) done n) →
      (∀ i : Nat, lens.length ≤ i → ∀ op ∈ done, op.colsIn i = 0) →
      ∃ g' lens', g.run ops = (g', none) ∧ GridInv fmt true maxRows maxCols g' (done ++ ops) lens' ∧
        ∀ (i n : Nat), lens'[i]? = some n → Largest (CellOp.colsIn i) (done ++ ops) n := by
    intro ops
    induction ops with
    | nil => intro g done lens h _ _ h1 _; exact ⟨g, lens, rfl, by simpa using h, by simpa using h1⟩
    | cons op ops ih =>
      intro g done lens h hfit hno h1 h2
      obtain ⟨g1, lens1, e1, k, k1⟩ := gridInv_op h hm (fun o ho => hfit o (List.mem_append_left _ ho)) (hfit op (by simp))
      have hnil : g.merged = [] := by
        rw [h.merged]
        rw [List.filterMap_append] at hno
        exact (List.append_eq_nil_iff.1 hno).1
      obtain ⟨g', lens', e', h', h''⟩ := ih g1 (done ++ [op]) lens1 k (by simpa using hfit) (by simpa using hno)
        (by
          intro i n hi
          have hn := k1 rfl hnil i n hi
          refine ⟨?_, ?_⟩
          · intro o ho
            rcases List.mem_append.1 ho with ho | ho
            · cases hl : lens[i]? with
              | none => rw [h2 i (List.getElem?_eq_none_iff.1 hl) o ho]; exact Nat.zero_le _
              | some n0 =>
                have := (h1 i n0 hl).1 o ho
                rw [hl, Option.getD_some] at hn
                omega
            · simp only [List.mem_singleton] at ho
              subst ho
              omega
          · intro m hall
            have : op.colsIn i ≤ m := hall op (by simp)
            cases hl : lens[i]? with
            | none => rw [hl, Option.getD_none] at hn; omega
            | some n0 =>
              have := (h1 i n0 hl).2 m fun o ho => hall o (List.mem_append_left _ ho)
              rw [hl, Option.getD_some] at hn
              omega)
        (by
          intro i hi o ho
          cases o with
          | put r c v =>
            have := k.rows r c v ho
            simp only [CellOp.colsIn]
            rw [k.holds.nrows] at hi
            rw [if_neg (by omega)]
          | merge => rfl
          | tidy => rfl)
      refine ⟨g', lens', ?_, by simpa using h', by simpa using h''⟩
      rw [Grid.run, e1]
      exact e'
  obtain ⟨g, lens, e, h, h1⟩ := key ops _ [] [] (gridInv_init fmt true maxRows maxCols) (by simpa using hfit) (by simpa using hno)
    (by simp) (by simp)
  rw [List.nil_append] at h h1
  have hlen : ∀ (r : Nat) (row : List Val), g.values[r]? = some row → lens[r]? = some row.length := by
    intro r row hr
    rw [← h.holds.values.shape]
    simp [hr]
  refine ⟨g, e, ⟨?_, h.rowsLe⟩, ⟨?_, h.colsLe⟩, by rw [h.holds.types.shape, h.holds.values.shape], ?_, ?_, ?_⟩
  · intro op hop
    cases op with
    | put r k c => exact (h.rows r k c hop).1
    | merge => have := merged_mem hop; rw [hno] at this; simp at this
    | tidy => exact Nat.zero_le _
  · intro op hop
    cases op with
    | put r k c => exact (h.rows r k c hop).2
    | merge => have := merged_mem hop; rw [hno] at this; simp at this
    | tidy => exact Nat.zero_le _
  · rw [← h.holds.nrows, ← h.holds.values.shape]; simp
  · intro r row hr
    exact h1 r _ (hlen r row hr)
  · intro r row c hr hc
    have hin : InLens lens r c := ⟨_, hlen r row hr, hc⟩
    exact ⟨h.holds.types.has hin, h.holds.values.has hin, fun hf => (h.holds.xfs (by rw [h.fmt, hf])).has hin⟩

-- the hypotheses can be met, and what comes out
def exPuts : List CellOp :=
  [.put 2 1 ⟨2, .int 7, 0⟩, .put 0 3 ⟨2, .int 8, 0⟩, .merge 3 5 0 2, .put 2 1 ⟨1, .str ['x'], 0⟩]

example : ∀ op ∈ exPuts, CellOp.Fits true 16 8 op := by
  simp [exPuts, CellOp.Fits]

example : ((Grid.init false false 16 8).run (exPuts ++ [.tidy])).1.types =
    [[0, 0, 0, 2], [0, 0, 0, 0], [0, 1, 0, 0], [0, 0, 0, 0], [0, 0, 0, 0]] := by decide +kernel

example : ((Grid.init false true 16 8).run [.put 2 1 ⟨2, .int 7, 0⟩, .put 0 0 ⟨2, .int 8, 0⟩, .tidy]).1.types =
    [[2], [], [0, 2]] := by decide +kernel

end CP
