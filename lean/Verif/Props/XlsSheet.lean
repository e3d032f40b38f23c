import Verif.Lemmas.XlsSheet
import Verif.Props.SheetCells
import Verif.Props.XlsxSheet
import Verif.Props.Biff
/-!
# C67: the cells of a work sheet of an .xls file
-/

namespace CP
open CP.Spec

/-- Rows in a sheet. -/
def xlsRows (v8 : Bool) : Nat := if v8 then 65536 else 16384

/-- C67 as it ought to be (`whole := false`): from the place after the BOF record of a sheet on,
whatever else the file has before and after, `Sheet.read` gives the table of the cells that the
records stand for.  With `whole := true` it is limited to formula results where each character
is one unit or one byte. -/
def WorksheetRead (whole : Bool) : Prop :=
  ∀ (σ : Type) (E : XlsEnv σ) (ctx : XlsCtx), XlsFits E ctx → ∀ (obj : σ) (countries : Nat × Nat),
    countries = (0, 0) ∨ countries = ctx.country →
    ∀ (rs : List XRec) (ops : List CellOp), (∀ r ∈ rs, RecordOk r) → SheetRecs whole ctx true rs ops →
      (∀ op ∈ ops, CellOp.Fits false (xlsRows ctx.v8) 256 op) →
      ∀ pre post : List UInt8, ∃ g c,
        readSheet E false obj countries (recordsAt (pre ++ (rs.flatMap recordBytes ++ post)) pre.length) = .ok (g, c) ∧
        GridHolds ops g ∧ (c = (0, 0) ∨ c = ctx.country)

/-- C67 in the BIFF versions 5, 7 and 8, for formula results without characters that take more
than one unit (BIFF 8) or byte (before). -/
theorem C67_worksheet_partial : WorksheetRead true := by
  intro σ E ctx hf obj countries hc rs ops hrs hs hfit pre post
  obtain ⟨more, hm⟩ := recordsAt_sound hrs pre post
  have hrows : (if 80 ≤ E.bv then 65536 else 16384) = xlsRows ctx.v8 := by
    have := hf.bv
    unfold xlsRows
    cases h : ctx.v8
    · rw [h] at this
      simp at this
      rw [if_neg (by omega)]; rfl
    · rw [h] at this
      simp at this
      rw [if_pos this]; rfl
  obtain ⟨x, _, e1, _⟩ := gridInv_run (by omega) ops (gridInv_init false false (xlsRows ctx.v8) 256) (by simpa using hfit)
  obtain ⟨g, h1, h2, h3, h4, h5, h6⟩ := C50_last_write_wins false (xlsRows ctx.v8) 256 (by omega) ops hfit
  have ht : x.tidy = (g, none) := by
    rw [run_append, e1] at h1
    dsimp only at h1
    rw [Grid.run] at h1
    simp only [Grid.op] at h1
    rcases ht : x.tidy with ⟨g', _ | err⟩
    · rw [ht] at h1
      simpa [Grid.run] using h1
    · rw [ht] at h1
      simp at h1
  obtain ⟨st', hl, rfl, hc'⟩ := sheetLoop_sound hf hs ((rs.map toRec ++ more).length + 1)
    ⟨Grid.init false false (xlsRows ctx.v8) 256, countries, obj⟩ more (by simp; omega) (fun _ => ⟨rfl, rfl⟩) hc e1
  refine ⟨g, st'.countries, ?_, ⟨h2, h3, h4, h5, fun r c hr hc => ⟨(h6 r c hr hc).1, (h6 r c hr hc).2.1⟩⟩, hc'⟩
  unfold readSheet
  dsimp only
  rw [hm, hrows, hl]
  dsimp only
  rw [ht]

/-! ## Examples -/

/-- A book of version 8 with the shared string "ab"; extended format 1 is for dates. -/
def exXlsCtx (v8 : Bool) (text : List UInt8 → Option (List Char)) : XlsCtx where
  v8 := v8
  rnd := id
  sst := [['a', 'b']]
  xfType := fun n => if n = 1 then some 3 else if n = 0 then some 2 else none
  text := text
  country := (1, 46)
  object := fun _ => False

def exXlsEnv (v8 : Bool) (text : List UInt8 → Option (List Char)) : XlsEnv Unit where
  bv := if v8 then 80 else 70
  rnd := id
  sst := [['a', 'b']]
  xfType := fun n => if n = 1 then some 3 else if n = 0 then some 2 else none
  text := fun b => match text b with
    | some t => .ok t
    | none => .error .unicodeError
  obj := fun _ _ _ => .error .generic

theorem exXls_fits (v8 : Bool) (text : List UInt8 → Option (List Char)) : XlsFits (exXlsEnv v8 text) (exXlsCtx v8 text) where
  bv := by cases v8 <;> simp [exXlsEnv, exXlsCtx]
  three := by cases v8 <;> simp [exXlsEnv]
  rnd := rfl
  sst := rfl
  xfType := rfl
  text := by
    intro b t h
    simp only [exXlsCtx] at h
    simp [exXlsEnv, h]
  obj := fun _ h => h.elim

/-- A sheet: dimensions, country, a number 1.0, two RK numbers (one a date), a shared string,
a row record, a formula with the result "é" in two records, an error, EOF. -/
def exXlsRecs : List XRec :=
  [(0x200, List.replicate 14 0), (0x8C, [1, 0, 46, 0]),
   (0x203, [0, 0, 0, 0, 0, 0, 0, 0, 0, 0, 0, 0, 0xF0, 0x3F]),
   (0xBD, [1, 0, 0, 0, 0, 0, 0x0E, 0, 0, 0, 1, 0, 0x0A, 0, 0, 0, 1, 0]),
   (0xFD, [2, 0, 0, 0, 0, 0, 0, 0, 0, 0]), (0x208, [0, 0]),
   (0x6, [2, 0, 1, 0, 0, 0, 0, 0, 0, 0, 0, 0, 0xFF, 0xFF, 0, 0]), (0x207, [2, 0, 0, 0x65]), (0x3C, [1, 0x01, 0x03]),
   (0x205, [2, 0, 2, 0, 0, 0, 7, 1]), (0xA, [])]

def exXlsOps : List CellOp :=
  [.put 0 0 ⟨2, .flt 1, 0⟩, .put 1 0 ⟨2, .flt 3, 0⟩, .put 1 1 ⟨3, .flt 2, 1⟩, .put 2 0 ⟨1, .str ['a', 'b'], 0⟩,
   .put 2 1 ⟨1, .str ['e', Char.ofNat 0x301], 0⟩, .put 2 2 ⟨5, .int 7, 0⟩]

theorem exHead (row col xf : Nat) (h1 : row < 65536) (h2 : col < 65536) (h3 : xf < 65536) :
    CellHead row col xf (leBytes 2 row ++ leBytes 2 col ++ leBytes 2 xf) := ⟨h1, h2, h3, rfl⟩

/-- The same with the parts of the records. -/
def exXlsParts : List XRec :=
  let h (row col xf : Nat) := leBytes 2 row ++ leBytes 2 col ++ leBytes 2 xf
  [(0x200, List.replicate 14 0), (0x8C, leBytes 2 1 ++ leBytes 2 46 ++ []),
   (0x203, h 0 0 0 ++ leBytes 8 0x3FF0000000000000 ++ []),
   (0xBD, leBytes 2 1 ++ leBytes 2 0 ++ (leBytes 2 0 ++ leBytes 4 14 ++ (leBytes 2 1 ++ leBytes 4 10 ++ [])) ++ leBytes 2 (0 + 2 - 1)),
   (0xFD, h 2 0 0 ++ leBytes 4 0), (0x208, [0, 0]),
   (0x6, h 2 1 0 ++ [0, 0, 0, 0, 0, 0, 0xFF, 0xFF] ++ [0, 0]), (0x207, leBytes 2 2 ++ [0, 0x65]), (0x3C, [1, 0x01, 0x03]),
   (0x205, h 2 2 0 ++ [7, 1] ++ []), (0xA, [])]

theorem exXls_recs (whole : Bool) (text : List UInt8 → Option (List Char)) :
    SheetRecs whole (exXlsCtx true text) true exXlsRecs exXlsOps := by
  have e : exXlsRecs = exXlsParts := by decide +kernel
  rw [e]
  refine .dimensions (by simp [exXlsCtx]) (.country (ctx := exXlsCtx true text) (more := []) (show 1 < 65536 by omega) (show 46 < 65536 by omega) ?_)
  refine .cells (ops := [.put 0 0 ⟨2, .flt 1, 0⟩]) (rs := [_])
    (.number (more := []) (exHead 0 0 0 (by omega) (by omega) (by omega)) (by omega)
      ((C65_double (by omega) _).1 (by decide +kernel)) rfl) ?_
  refine .cells (ops := [.put 1 0 ⟨2, .flt 3, 0⟩, .put 1 1 ⟨3, .flt 2, 1⟩]) (rs := [_])
    (.mulRk (first := 0) (by omega) (by simp) (by simp)
      (.cons (by omega) (by omega) ((C65_rk id (by omega) _).1 (by decide +kernel)) rfl
        (.cons (by omega) (by omega) ((C65_rk id (by omega) _).1 (by decide +kernel)) rfl .nil))) ?_
  refine .cells (ops := [.put 2 0 ⟨1, .str ['a', 'b'], 0⟩]) (rs := [_])
    (.labelSst (exHead 2 0 0 (by omega) (by omega) (by omega)) (by omega) rfl) ?_
  refine .aside (by unfold Aside structural; simp) ?_
  refine .cells (ops := [.put 2 1 ⟨1, .str ['e', Char.ofNat 0x301], 0⟩])
    (rs := (_, _) :: ([] ++ (0x207, leBytes 2 2 ++ [0, 0x65]) :: [[1, 0x01, 0x03]].map fun d => (0x3C, d)))
    (.fmlaText (.inl rfl) (exHead 2 1 0 (by omega) (by omega) (by omega)) (by decide) (.inl rfl)
      ⟨2, [0, 0x65], by omega, rfl, ?_⟩) ?_
  · refine ⟨?_, fun _ => by decide⟩
    show StrUnits ([0x65].length + [0x301].length) _ _ ([0x65] ++ [0x301])
    exact .over (by unfold UnitBytes; decide) (by decide) (.last (by unfold UnitBytes; decide))
  exact .cells (ops := [.put 2 2 ⟨5, .int 7, 0⟩]) (rs := [_]) (.error (exHead 2 2 0 (by omega) (by omega) (by omega))) .eof

/-- The hypotheses of C67 can be met, and the cells are those to be expected. -/
example (text : List UInt8 → Option (List Char)) (pre post : List UInt8) : ∃ g c,
    readSheet (exXlsEnv true text) false () (0, 0) (recordsAt (pre ++ (exXlsRecs.flatMap recordBytes ++ post)) pre.length) = .ok (g, c) ∧
    g.nrows = 3 ∧ g.ncols = 3 ∧ HasAt g.values 2 1 (.str ['e', Char.ofNat 0x301]) ∧ HasAt g.types 0 2 0 ∧ HasAt g.types 1 1 3 := by
  obtain ⟨g, c, e, ⟨h1, h2, _, _, h5⟩, _⟩ := C67_worksheet_partial Unit _ _ (exXls_fits true text) () (0, 0) (.inl rfl) exXlsRecs exXlsOps
    (by unfold RecordOk; decide) (exXls_recs true text) (by simp [exXlsOps, CellOp.Fits, exXlsCtx, xlsRows]) pre post
  have hr : g.nrows = 3 := by
    have a := h1.2 3 (by decide +kernel)
    have b := h1.1 (.put 2 2 ⟨5, .int 7, 0⟩) (by simp [exXlsOps])
    simp only [CellOp.rows] at b
    omega
  have hc : g.ncols = 3 := by
    have a := h2.2 3 (by decide +kernel)
    have b := h2.1 (.put 2 2 ⟨5, .int 7, 0⟩) (by simp [exXlsOps])
    simp only [CellOp.cols] at b
    omega
  exact ⟨g, c, e, hr, hc, (h5 2 1 (by omega) (by omega)).2, (h5 0 2 (by omega) (by omega)).1, (h5 1 1 (by omega) (by omega)).1⟩

/-! ## Where the full statement is false -/

/-- A formula with the result "😀", two code units. -/
def exAstral : List XRec :=
  [(0x6, [0, 0, 0, 0, 0, 0, 0, 0, 0, 0, 0, 0, 0xFF, 0xFF, 0, 0]), (0x207, [2, 0, 1, 0x3D, 0xD8, 0, 0xDE]), (0xA, [])]

theorem exAstral_recs (text : List UInt8 → Option (List Char)) :
    SheetRecs false (exXlsCtx true text) true exAstral [.put 0 0 ⟨1, .str [Char.ofNat 0x1F600], 0⟩] := by
  refine .cells (rs := exAstral.take 2) (ops := [.put 0 0 ⟨1, .str [Char.ofNat 0x1F600], 0⟩]) ?_ .eof
  refine .fmlaText (x1 := 0) (x2 := 0) (x3 := 0) (x4 := 0) (x5 := 0) (more := [0, 0]) (between := [])
    (first := [2, 0, 1, 0x3D, 0xD8, 0, 0xDE]) (conts := []) (.inl rfl)
    (exHead 0 0 0 (by omega) (by omega) (by omega)) (by decide) (.inl rfl)
    ⟨2, [1, 0x3D, 0xD8, 0, 0xDE], by omega, rfl, ?_, by simp⟩
  show StrUnits [0xD83D, 0xDE00].length _ _ [0xD83D, 0xDE00]
  exact .last (by unfold UnitBytes; decide)

/-- The text of a formula is counted in code units in the file, but `string_record_contents`
counts characters: the file cannot be read. -/
theorem C67_astral_formula (text : List UInt8 → Option (List Char)) :
    readSheet (exXlsEnv true text) false () (0, 0) (recordsAt (exAstral.flatMap recordBytes) 0) = .error .xlrdError := by
  have : recordsAt (exAstral.flatMap recordBytes) 0 = exAstral.map toRec := by decide +kernel
  rw [this]
  rfl

/-- A formula with a result of two bytes. -/
def exTwoByte : List XRec :=
  [(0x6, [0, 0, 0, 0, 0, 0, 0, 0, 0, 0, 0, 0, 0xFF, 0xFF, 0, 0]), (0x207, [2, 0, 1, 2]), (0xA, [])]

/-- Before BIFF 8 the text of a formula is counted in bytes: in a code page with characters of
two bytes (here any two bytes make "é") the file cannot be read. -/
theorem C67_two_byte_formula :
    readSheet (exXlsEnv false (fun b => if b = [1, 2] then some [Char.ofNat 0xE9] else none)) false () (0, 0)
      (recordsAt (exTwoByte.flatMap recordBytes) 0) =
    .error .xlrdError := by
  have : recordsAt (exTwoByte.flatMap recordBytes) 0 = exTwoByte.map toRec := by decide +kernel
  rw [this]
  rfl

theorem C67_counterexample : ¬ WorksheetRead false := by
  intro h
  obtain ⟨g, c, e, _⟩ := h Unit _ _ (exXls_fits true fun _ => none) () (0, 0) (.inl rfl) exAstral _
    (by unfold RecordOk; decide) (exAstral_recs fun _ => none) (by simp [CellOp.Fits, exXlsCtx, xlsRows]) [] []
  have := C67_astral_formula fun _ => none
  simp only [List.nil_append, List.append_nil, List.length_nil] at e
  rw [show ((0 : Nat) : Int) = 0 from rfl, this] at e
  cases e

end CP
