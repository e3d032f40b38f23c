import Verif.Props.Xlsx
/-!
# C61: the cells of a work sheet of an xlsx file
-/

namespace CP
open Spec

/-! ## The operations fit -/

theorem cells_fit {R : Reading} {r n : Nat} {cells : List Elem} {ops : List CellOp} (hr : r < 1048576) (h : CellsAre R r n cells ops) :
    ∀ op ∈ ops, CellOp.Fits false 1048576 16384 op := by
  induction h with
  | nil => simp
  | blank _ _ _ _ ih => exact ih
  | put h1 _ _ _ ih =>
    intro op hop
    rcases List.mem_cons.1 hop with rfl | h
    · exact ⟨hr, h1.1, by simp⟩
    · exact ih op h

theorem rows_fit {R : Reading} {n : Nat} {rows : List Elem} {ops : List CellOp} (h : RowsAre R n rows ops) :
    ∀ op ∈ ops, CellOp.Fits false 1048576 16384 op := by
  induction h with
  | nil => simp
  | row _ _ h1 h2 _ ih =>
    intro op hop
    rcases List.mem_append.1 hop with h | h
    · exact cells_fit h1.1 h2 op h
    · exact ih op h

theorem merges_fit {es : List Elem} {ops : List CellOp} (h : MergesAre es ops) : ∀ op ∈ ops, CellOp.Fits false 1048576 16384 op := by
  induction h with
  | nil => simp
  | cons _ _ _ _ h1 _ ih =>
    intro op hop
    rcases List.mem_cons.1 hop with rfl | h
    · exact ⟨by omega, by omega⟩
    · exact ih op h

theorem others_fit {es : List Elem} {ops : List CellOp} (h : OtherParts es ops) : ∀ op ∈ ops, CellOp.Fits false 1048576 16384 op := by
  induction h with
  | nil => simp
  | quiet _ _ ih => exact ih
  | dimension _ _ _ _ ih => exact ih
  | merges _ h1 _ ih =>
    intro op hop
    rcases List.mem_append.1 hop with h | h
    · exact merges_fit h1 op h
    · exact ih op h

theorem sheet_fit {R : Reading} {root : Elem} {ops : List CellOp} (h : SheetIs R root ops) :
    ∀ op ∈ ops, CellOp.Fits false 1048576 16384 op := by
  obtain ⟨a, data, b, o1, cs, o2, _, _, _, h4, h5, h6, rfl⟩ := h
  intro op hop
  rcases List.mem_append.1 hop with h | h
  · rcases List.mem_append.1 h with h | h
    · exact others_fit h4 op h
    · exact rows_fit h5 op h
  · exact others_fit h6 op h

/-! ## C61 -/

/-- The cells of a sheet are what the operations `ops` say: as many rows and columns as any
of them asks for, and at each place the cell put last, or an empty one. -/
def GridHolds (ops : List CellOp) (g : Grid) : Prop :=
  Largest CellOp.rows ops g.nrows ∧ Largest CellOp.cols ops g.ncols ∧
  (g.types.length = g.nrows ∧ ∀ row ∈ g.types, row.length = g.ncols) ∧
  (g.values.length = g.nrows ∧ ∀ row ∈ g.values, row.length = g.ncols) ∧
  ∀ r c, r < g.nrows → c < g.ncols →
    HasAt g.types r c ((lastPut r c ops).getD emptyCell).typ ∧ HasAt g.values r c ((lastPut r c ops).getD emptyCell).value

theorem worksheet_run {E : XlEnv} {sst : List (List Char)} {xfMap : List (Int × Nat)} {R : Reading} (hf : Fits E sst xfMap R)
    (ragged : Bool) {root : Elem} {ops : List CellOp} (h : SheetIs R root ops) :
    ∃ g, (Grid.init false ragged 1048576 16384).run ops = (g, none) ∧ readWorksheet E sst xfMap ragged root = .ok g := by
  obtain ⟨g, _, e, _⟩ := gridInv_run (by omega) ops (gridInv_init false ragged 1048576 16384) (by simpa using sheet_fit h)
  refine ⟨g, e, ?_⟩
  obtain ⟨n', hd⟩ := sheet_does hf h
  obtain ⟨k, h1, _⟩ := hd (Grid.init false ragged 1048576 16384)
  rw [e] at h1
  unfold readWorksheet
  have h0 : ((0 : Nat) : Int) - 1 = -1 := rfl
  rw [h0] at h1
  rw [h1]

/-- C61: a work sheet of an xlsx file is read without an exception, and then the sheet holds
what the XML says: each `c` element is at the place of its name (or, without one, after the
one before), in the row with the number given (or the next one), as number or date according
to its style, shared string, inline string, text of a formula, boolean or error code; the
dimension element does not matter. -/
theorem C61_worksheet {E : XlEnv} {sst : List (List Char)} {xfMap : List (Int × Nat)} {R : Reading} (hf : Fits E sst xfMap R)
    {root : Elem} {ops : List CellOp} (h : SheetIs R root ops) :
    ∃ x g, readWorksheet E sst xfMap false root = .ok x ∧ x.tidy = (g, none) ∧ GridHolds ops g := by
  obtain ⟨x, e1, e2⟩ := worksheet_run hf false h
  obtain ⟨g, h1, h2, h3, h4, h5, h6⟩ := C50_last_write_wins false 1048576 16384 (by omega) ops (sheet_fit h)
  refine ⟨x, g, e2, ?_, h2, h3, h4, h5, fun r c hr hc => ⟨(h6 r c hr hc).1, (h6 r c hr hc).2.1⟩⟩
  rw [run_append, e1] at h1
  dsimp only at h1
  rw [Grid.run] at h1
  simp only [Grid.op] at h1
  rcases ht : x.tidy with ⟨g', _ | err⟩
  · rw [ht] at h1
    simpa [Grid.run] using h1
  · rw [ht] at h1
    simp at h1

/-! ## An example -/

/-- An element without text. -/
def exElem (tag : QName) (attrib : List (QName × List Char)) (children : List Elem) : Elem := .mk tag attrib none children

/-- `<v>text</v>` -/
def exV (t : List Char) : Elem := .mk (ssml ['v']) [] (some t) []

/-- A sheet: a dimension, a row with a number and a date, one without number with a shared
string in column C and a boolean, and a merged range. -/
def exXSheet : Elem :=
  exElem (ssml "worksheet".toList) [] [
    exElem (ssml "dimension".toList) [(bare "ref".toList, "A1:C2".toList)] [],
    exElem (ssml "sheetData".toList) [] [
      exElem (ssml "row".toList) [(bare ['r'], ['2'])] [
        exElem (ssml ['c']) [(bare ['r'], ['A', '2'])] [exV ['7']],
        exElem (ssml ['c']) [(bare ['s'], ['1'])] [exElem (ssml ['f']) [] [], exV ['8']]],
      exElem (ssml "row".toList) [] [
        exElem (ssml ['c']) [(bare ['r'], ['C', '3']), (bare ['t'], ['s'])] [exV ['0']],
        exElem (ssml ['c']) [(bare ['t'], ['b'])] [exV ['1']]]],
    exElem (ssml "mergeCells".toList) [] [exElem (ssml "mergeCell".toList) [(bare "ref".toList, "A1:B4".toList)] []]]

def exReading : Reading where
  float := exXl.float
  strings := [['x']]
  typeOf := fun n => dget [((0 : Int), 2), (1, 3)] n

def exOps (s : List Char) : List CellOp :=
  [.put 1 0 ⟨2, .flt 7, 0⟩, .put 1 1 ⟨3, .flt 8, 1⟩, .put 2 2 ⟨1, .str s, 0⟩, .put 2 3 ⟨4, .int 1, 0⟩, .merge 0 4 0 2]

instance (c : Char) : Decidable (DecDigit c) := inferInstanceAs (Decidable (_ ∧ _))

theorem exName (l d : Char) (r c : Nat) (h1 : letterIndex l = c + 1) (h2 : DecDigit d) (h3 : d.toNat - 48 = r + 1) (h4 : d ≠ '0') :
    CellName [l, d] r c := by
  refine ⟨[l], [d], rfl, by simp, by simp [h1], ⟨by simp, by simpa using h2, by simpa using h4⟩, ?_, ?_⟩
  · simp [columnNumber, h1]
  · simp [decValue, h3]

theorem exXSheet_is {R : Reading} {s : List Char} (h1 : R.float = exXl.float) (h2 : R.strings[0]? = some s) (h3 : R.typeOf 0 = some 2)
    (h4 : R.typeOf 1 = some 3) : SheetIs R exXSheet (exOps s) := by
  have hq : ∀ es : List Elem, (∀ e ∈ iterList es, e.tag ∉ sheetTags) → Quiet es := fun _ h => h
  refine ⟨[_], _, [_], [], (exOps s).take 4, [.merge 0 4 0 2], by decide +kernel, rfl, by decide +kernel, ?_, ?_, ?_, rfl⟩
  · exact .dimension (by decide +kernel) rfl (Or.inr ⟨['A', '1', ':', 'C', '2'], 0, 0, 1, 2, by decide +kernel, by omega, by omega,
      Or.inl ⟨['A', '1'], ['C', '2'], rfl, exName 'A' '1' 0 0 (by decide) (by decide) (by decide) (by decide),
        exName 'C' '2' 1 2 (by decide) (by decide) (by decide) (by decide)⟩⟩) .nil
  · show RowsAre R 0 _ ([.put 1 0 ⟨2, .flt 7, 0⟩, .put 1 1 ⟨3, .flt 8, 1⟩] ++
      ([.put 2 2 ⟨1, .str s, 0⟩, .put 2 3 ⟨4, .int 1, 0⟩] ++ []))
    refine .row (r := 1) (cs := [.put 1 0 ⟨2, .flt 7, 0⟩, .put 1 1 ⟨3, .flt 8, 1⟩]) (by decide +kernel) (hq _ (by decide +kernel))
      ⟨by omega, Or.inr ⟨['2'], by decide +kernel, ⟨by simp, by decide, by decide⟩, by decide⟩⟩ ?_ ?_
    · refine .put (xf := 0) ⟨by omega, Or.inr ⟨['A', '2'], by decide +kernel, exName 'A' '2' 1 0 (by decide) (by decide) (by decide)
          (by decide)⟩⟩ (Or.inl ⟨by decide +kernel, rfl⟩)
        (.number (v := exV ['7']) (t := ['7']) (Or.inl (by decide +kernel)) ⟨[], [], rfl, rfl, by simp⟩ rfl (by simp) (by rw [h1]; rfl) h3) ?_
      refine .put (xf := 1) ⟨by omega, Or.inl ⟨by decide +kernel, rfl⟩⟩
        (Or.inr ⟨['1'], by decide +kernel, by simp, by decide, by decide⟩)
        (.number (v := exV ['8']) (t := ['8']) (Or.inl (by decide +kernel)) ⟨[_], [], rfl, rfl, by decide +kernel⟩ rfl (by simp) (by rw [h1]; rfl)
          h4) .nil
    · refine .row (r := 2) (cs := [.put 2 2 ⟨1, .str s, 0⟩, .put 2 3 ⟨4, .int 1, 0⟩]) (ops := []) (by decide +kernel)
        (hq _ (by decide +kernel)) ⟨by omega, Or.inl ⟨by decide +kernel, rfl⟩⟩ ?_ .nil
      refine .put (xf := 0) ⟨by omega, Or.inr ⟨['C', '3'], by decide +kernel, exName 'C' '3' 2 2 (by decide) (by decide) (by decide)
          (by decide)⟩⟩ (Or.inl ⟨by decide +kernel, rfl⟩)
        (.shared (v := exV ['0']) (ds := ['0']) (by unfold CellTag; decide +kernel) ⟨[], [], rfl, rfl, by simp⟩ rfl (by simp) (by decide)
          h2) ?_
      exact .put (xf := 0) ⟨by omega, Or.inl ⟨by decide +kernel, rfl⟩⟩ (Or.inl ⟨by decide +kernel, rfl⟩)
        (.boolTrue (v := exV ['1']) (by unfold CellTag; decide +kernel) ⟨[], [], rfl, rfl, by simp⟩ (Or.inl rfl)) .nil
  · exact .merges (ms := [.merge 0 4 0 2]) (by decide +kernel) (.cons (ref := ['A', '1', ':', 'B', '4']) (by decide +kernel) rfl
      (by decide +kernel) ⟨by omega, by omega, Or.inl ⟨['A', '1'], ['B', '4'], rfl,
        exName 'A' '1' 0 0 (by decide) (by decide) (by decide) (by decide),
        exName 'B' '4' 3 1 (by decide) (by decide) (by decide) (by decide)⟩⟩ (by omega) .nil) .nil

theorem exReading_fits : Fits exXl [['x']] [(0, 2), (1, 3)] exReading := ⟨exXl_laws, rfl, rfl, fun _ => rfl⟩

/-- The hypotheses of C61 can be met. -/
example : ∃ x g, readWorksheet exXl [['x']] [(0, 2), (1, 3)] false exXSheet = .ok x ∧ x.tidy = (g, none) ∧
    g.nrows = 4 ∧ g.ncols = 4 ∧ HasAt g.types 1 1 3 ∧ HasAt g.values 1 1 (.flt 8) := by
  obtain ⟨x, g, e1, e2, h1, h2, _, _, h5⟩ := C61_worksheet exReading_fits (exXSheet_is (s := ['x']) rfl rfl rfl rfl)
  have hr : g.nrows = 4 := by
    have a := h1.2 4 (by decide +kernel)
    have b := h1.1 (.merge 0 4 0 2) (by simp [exOps])
    simp only [CellOp.rows] at b
    omega
  have hc : g.ncols = 4 := by
    have a := h2.2 4 (by decide +kernel)
    have b := h2.1 (.put 2 3 ⟨4, .int 1, 0⟩) (by simp [exOps])
    simp only [CellOp.cols] at b
    omega
  have := h5 1 1 (by omega) (by omega)
  exact ⟨x, g, e1, e2, hr, hc, this.1, this.2⟩

end CP
