import Verif.Props.XlsFile
import Verif.Props.XlsxBook
import Verif.Props.ReadXl
import Verif.Model.SheetFile
import Verif.Spec.SheetFile
/-!
# C71: `sheetpack` from the content of a file
-/

namespace CP
open CP.Spec

variable {σ τ : Type}

theorem largestOf_is (f : CellOp → Nat) (ops : List CellOp) : Largest f ops (largestOf f ops) := by
  unfold largestOf
  induction ops with
  | nil => exact ⟨by simp, fun m _ => Nat.zero_le m⟩
  | cons op ops ih =>
    rw [List.foldr_cons]
    refine ⟨fun o ho => ?_, fun m hm => ?_⟩
    · rcases List.mem_cons.1 ho with rfl | ho
      · exact Nat.le_max_left ..
      · exact Nat.le_trans (ih.1 o ho) (Nat.le_max_right ..)
    · exact Nat.max_le.2 ⟨hm op (by simp), ih.2 m fun o ho => hm o (by simp [ho])⟩

theorem largest_unique {f : CellOp → Nat} {ops : List CellOp} {n m : Nat} (hn : Largest f ops n) (hm : Largest f ops m) : n = m :=
  Nat.le_antisymm (hn.2 m hm.1) (hm.2 n hn.1)

theorem table_unique {α : Type} {t : List (List α)} {rows cols : Nat} {f : Nat → Nat → α} (h1 : t.length = rows)
    (h2 : ∀ row ∈ t, row.length = cols) (h3 : ∀ r c, r < rows → c < cols → HasAt t r c (f r c)) : t = tableOf rows cols f := by
  unfold tableOf
  apply List.ext_getElem (by simp [h1])
  intro r hr _
  rw [List.getElem_map, List.getElem_range]
  have hl := h2 t[r] (List.getElem_mem hr)
  apply List.ext_getElem (by simp [hl])
  intro c hc _
  rw [List.getElem_map, List.getElem_range]
  obtain ⟨l, e1, e2⟩ := h3 r c (by omega) (by omega)
  rw [List.getElem?_eq_getElem hr] at e1
  cases e1
  rw [List.getElem?_eq_getElem hc] at e2
  exact Option.some.inj e2

/-- A grid that holds the cells is the sheet with these cells. -/
theorem sheet_of_holds {ops : List CellOp} {b : BookSheet} (mode : Nat) (h : GridHolds ops b.grid) : b.sheet mode = sheetOf mode ops := by
  obtain ⟨h1, h2, h3, h4, h5⟩ := h
  have e1 := largest_unique h1 (largestOf_is _ _)
  have e2 := largest_unique h2 (largestOf_is _ _)
  unfold BookSheet.sheet sheetOf
  rw [← e1, ← e2, ← table_unique (f := fun r c => (cellOf ops r c).typ) h3.1 h3.2 fun r c hr hc => (h5 r c hr hc).1,
    ← table_unique (f := fun r c => (cellOf ops r c).value) h4.1 h4.2 fun r c hr hc => (h5 r c hr hc).2]

theorem sheetOf_wf (mode : Nat) (ops : List CellOp) : (sheetOf mode ops).WF := by
  unfold Sheet.WF sheetOf tableOf
  simp only [List.length_map, List.length_range, List.mem_map, true_and]
  constructor <;> (rintro r ⟨_, _, rfl⟩; simp)

/-- C71 in full.  The outcome of `sheetpack` is that for the sheet with the cells of the file. -/
def SheetFileRead (whole : Bool) : Prop :=
  ∀ (σ τ : Type) (W : FileEnv σ τ) (c : BookCtx), XlLaws W.xlsx → BookFits W.xls c →
    ∀ (height : Nat) (file : Bytes) (mode : Nat) (sheets : List (List Char × List CellOp)),
      SheetFileIs whole W.xlsx W.zip c height file mode sheets → height < W.depth →
      ∃ fuel0, ∀ fuel, fuel0 ≤ fuel → ∀ (M : XlMul) (header : Header) (startcell stopcell : Option (List Char)) (usecols : Option Usecols),
        (∀ i s, SheetNumber sheets i s → packFile W M fuel file (.index i) header startcell stopcell usecols =
          some (sheetpack W.xlsx.up M (sheetOf mode s.2) header startcell stopcell usecols)) ∧
        (∀ name s, SheetNamed sheets name s → packFile W M fuel file (.name name) header startcell stopcell usecols =
          some (sheetpack W.xlsx.up M (sheetOf mode s.2) header startcell stopcell usecols))

/-- The workbook in a file can be opened, and has these sheets. -/
def Opens (W : FileEnv σ τ) (file : Bytes) (mode : Nat) (sheets : List (List Char × List CellOp)) : Prop :=
  ∃ fuel0, ∀ fuel, fuel0 ≤ fuel → ∃ gs, openWorkbook W fuel file = some (.ok (mode, gs)) ∧
    Each (fun (s : List Char × List CellOp) (b : BookSheet) => b.name = s.1 ∧ GridHolds s.2 b.grid) sheets gs

theorem openWorkbook_reads {W : FileEnv σ τ} {c : BookCtx} (hE : XlLaws W.xlsx) (hf : BookFits W.xls c) {height : Nat} {file : Bytes}
    {mode : Nat} {sheets : List (List Char × List CellOp)} (h : SheetFileIs true W.xlsx W.zip c height file mode sheets)
    (hd : height < W.depth) : Opens W file mode sheets := by
  rcases h with ⟨⟨rest, rfl⟩, zf, hz, hb⟩ | h
  · obtain ⟨bs, e, he⟩ := C64_book hE hb
    refine ⟨0, fun fuel _ => ⟨bs, ?_, he⟩⟩
    unfold openWorkbook
    rw [if_pos (by simp [zipSignature]), hz]
    dsimp only
    rw [e]
  · obtain ⟨f, hf⟩ := C70_file_partial σ τ W.xls c hf W.xlsx.low height file mode sheets h W.depth hd
    refine ⟨f, fun fuel hfuel => ?_⟩
    obtain ⟨gs, e, he⟩ := hf fuel hfuel
    refine ⟨gs, ?_, he⟩
    unfold openWorkbook
    rw [if_neg, e]
    rcases h with h | ⟨_, D, _, _, ⟨_, _, _, _, _, hdoc⟩, _⟩
    · obtain ⟨rest, rfl⟩ := xlsBook_ne h
      simp [zipSignature]
    · intro h4
      have := hdoc.signature
      have h4' : (file.take 8).take 4 = zipSignature := by rw [List.take_take]; exact h4
      rw [this] at h4'
      exact absurd h4' (by decide)

theorem each_get {α β : Type} {P : α → β → Prop} {l : List α} {m : List β} (h : Each P l m) :
    l.length = m.length ∧ ∀ (k : Nat) a, l[k]? = some a → ∃ b, m[k]? = some b ∧ P a b := by
  induction h with
  | nil => exact ⟨rfl, by simp⟩
  | cons h _ ih =>
    refine ⟨by simp [ih.1], fun k a hk => ?_⟩
    cases k with
    | zero => cases hk; exact ⟨_, rfl, h⟩
    | succ k => exact ih.2 k a hk

theorem pick_number {sheets : List (List Char × List CellOp)} {gs : List BookSheet}
    (h : Each (fun (s : List Char × List CellOp) (b : BookSheet) => b.name = s.1 ∧ GridHolds s.2 b.grid) sheets gs) {i : Int}
    {s : List Char × List CellOp} (hs : SheetNumber sheets i s) : ∃ b, pickSheet gs (.index i) = .ok b ∧ GridHolds s.2 b.grid := by
  obtain ⟨k, hk, hi⟩ := hs
  obtain ⟨hl, hg⟩ := each_get h
  obtain ⟨b, hb, _, hh⟩ := hg k s hk
  refine ⟨b, ?_, hh⟩
  have hj : (if i < 0 then i + (gs.length : Int) else i) = (k : Int) := by
    rw [hl] at hi
    split <;> omega
  unfold pickSheet pyIndex
  dsimp only
  rw [hj, if_neg (by omega), Int.toNat_natCast, hb]

theorem pick_named {sheets : List (List Char × List CellOp)} {gs : List BookSheet}
    (h : Each (fun (s : List Char × List CellOp) (b : BookSheet) => b.name = s.1 ∧ GridHolds s.2 b.grid) sheets gs) {name : List Char}
    {s : List Char × List CellOp} (hs : SheetNamed sheets name s) : ∃ b, pickSheet gs (.name name) = .ok b ∧ GridHolds s.2 b.grid := by
  obtain ⟨before, after, rfl, hn, hb⟩ := hs
  suffices ∃ b, gs.find? (fun b => b.name = name) = some b ∧ GridHolds s.2 b.grid by
    obtain ⟨b, e, hh⟩ := this
    exact ⟨b, by unfold pickSheet; dsimp only; rw [e], hh⟩
  induction before generalizing gs with
  | nil =>
    cases h with
    | cons h1 _ => exact ⟨_, by rw [List.find?_cons_of_pos (by simp [h1.1, hn])], h1.2⟩
  | cons t before ih =>
    cases h with
    | cons h1 h2 =>
      obtain ⟨b, e, hh⟩ := ih h2 (fun u hu => hb u (by simp [hu]))
      exact ⟨b, by rw [List.find?_cons_of_neg (by simp [h1.1, hb t (by simp)])]; exact e, hh⟩

theorem packFile_eq {W : FileEnv σ τ} {M : XlMul} {fuel : Nat} {file : Bytes} {arg : SheetArg} {mode : Nat} {gs : List BookSheet}
    {b : BookSheet} (e : openWorkbook W fuel file = some (.ok (mode, gs))) (hp : pickSheet gs arg = .ok b) (header : Header)
    (startcell stopcell : Option (List Char)) (usecols : Option Usecols) :
    packFile W M fuel file arg header startcell stopcell usecols =
      some (sheetpack W.xlsx.up M (b.sheet mode) header startcell stopcell usecols) := by
  unfold packFile
  cases h1 : cellreference W.xlsx.up 0 0 startcell with
  | error x => unfold sheetpack; rw [h1]
  | ok p =>
    cases h2 : cellreference W.xlsx.up 0 0 stopcell with
    | error x => unfold sheetpack; rw [h1, h2]
    | ok q =>
      dsimp only
      rw [e]
      dsimp only
      rw [hp]

theorem Opens.packs {W : FileEnv σ τ} {file : Bytes} {mode : Nat} {sheets : List (List Char × List CellOp)} (h : Opens W file mode sheets) :
    ∃ fuel0, ∀ fuel, fuel0 ≤ fuel → ∀ (M : XlMul) (header : Header) (startcell stopcell : Option (List Char)) (usecols : Option Usecols),
      (∀ i s, SheetNumber sheets i s → packFile W M fuel file (.index i) header startcell stopcell usecols =
        some (sheetpack W.xlsx.up M (sheetOf mode s.2) header startcell stopcell usecols)) ∧
      (∀ name s, SheetNamed sheets name s → packFile W M fuel file (.name name) header startcell stopcell usecols =
        some (sheetpack W.xlsx.up M (sheetOf mode s.2) header startcell stopcell usecols)) := by
  obtain ⟨f, hr⟩ := h
  refine ⟨f, fun fuel hfuel M header startcell stopcell usecols => ?_⟩
  obtain ⟨gs, e, hg⟩ := hr fuel hfuel
  constructor
  · intro i s hs
    obtain ⟨b, hp, hh⟩ := pick_number hg hs
    rw [packFile_eq e hp, sheet_of_holds mode hh]
  · intro name s hs
    obtain ⟨b, hp, hh⟩ := pick_named hg hs
    rw [packFile_eq e hp, sheet_of_holds mode hh]

/-- C71 within the limits of C70. -/
theorem C71_file_partial : SheetFileRead true := by
  intro σ τ W c hE hf height file mode sheets h hd
  exact (openWorkbook_reads hE hf h hd).packs

theorem Opens.noSheet {W : FileEnv σ τ} {file : Bytes} {mode : Nat} {sheets : List (List Char × List CellOp)} (h : Opens W file mode sheets)
    (M : XlMul) (header : Header) (usecols : Option Usecols) : ∃ fuel0, ∀ fuel, fuel0 ≤ fuel →
      (∀ i : Int, (sheets.length ≤ i ∨ i < -sheets.length) →
        packFile W M fuel file (.index i) header none none usecols = some (.error .indexError)) ∧
      (∀ name, (∀ s ∈ sheets, s.1 ≠ name) →
        packFile W M fuel file (.name name) header none none usecols = some (.error .xlrdError)) := by
  obtain ⟨f, hr⟩ := h
  refine ⟨f, fun fuel hfuel => ?_⟩
  obtain ⟨gs, e, hg⟩ := hr fuel hfuel
  have key : ∀ arg x, pickSheet gs arg = .error x → packFile W M fuel file arg header none none usecols = some (.error x) := by
    intro arg x hx
    unfold packFile
    rw [show cellreference W.xlsx.up 0 0 none = .ok (0, 0) from rfl]
    dsimp only
    rw [e]
    dsimp only
    rw [hx]
  constructor
  · intro i hi
    apply key
    have hl := (each_get hg).1
    unfold pickSheet pyIndex
    dsimp only
    have hj : (if i < 0 then i + (gs.length : Int) else i) < 0 ∨ (gs.length : Int) ≤ if i < 0 then i + (gs.length : Int) else i := by
      split <;> omega
    generalize (if i < 0 then i + (gs.length : Int) else i) = j at hj
    by_cases h0 : j < 0
    · rw [if_pos h0]
    · rw [if_neg h0, List.getElem?_eq_none (by omega)]
  · intro name hn
    apply key
    unfold pickSheet
    have : gs.find? (fun b => b.name = name) = none := by
      clear e key hr
      induction hg with
      | nil => rfl
      | cons h1 _ ih =>
        rw [List.find?_cons_of_neg (by simp [h1.1, hn _ (List.mem_cons_self ..)])]
        exact ih fun s hs => hn s (by simp [hs])
    dsimp only
    rw [this]

/-- A sheet that is not there: a number out of range is an IndexError, a name that no sheet has an
XLRDError. -/
theorem C71_no_sheet {W : FileEnv σ τ} {c : BookCtx} (hE : XlLaws W.xlsx) (hf : BookFits W.xls c) {height : Nat} {file : Bytes}
    {mode : Nat} {sheets : List (List Char × List CellOp)} (h : SheetFileIs true W.xlsx W.zip c height file mode sheets)
    (hd : height < W.depth) (M : XlMul) (header : Header) (usecols : Option Usecols) : ∃ fuel0, ∀ fuel, fuel0 ≤ fuel →
      (∀ i : Int, (sheets.length ≤ i ∨ i < -sheets.length) →
        packFile W M fuel file (.index i) header none none usecols = some (.error .indexError)) ∧
      (∀ name, (∀ s ∈ sheets, s.1 ≠ name) →
        packFile W M fuel file (.name name) header none none usecols = some (.error .xlrdError)) :=
  (openWorkbook_reads hE hf h hd).noSheet M header usecols

theorem sheetOf_cell {mode : Nat} {ops : List CellOp} {r c : Int} {v : Val} {t : Nat} (h : (sheetOf mode ops).HasCell r c v t) :
    v = (cellOf ops r.toNat c.toNat).value ∧ t = (cellOf ops r.toNat c.toNat).typ := by
  obtain ⟨_, _, ⟨row, h1, h2⟩, row', h3, h4⟩ := h
  simp only [sheetOf, tableOf, List.getElem?_map, Option.map_eq_some_iff] at h1 h3
  obtain ⟨x, hx, rfl⟩ := h1
  obtain ⟨y, hy, rfl⟩ := h3
  simp only [List.getElem?_map, Option.map_eq_some_iff] at h2 h4
  obtain ⟨x', hx', rfl⟩ := h2
  obtain ⟨y', hy', rfl⟩ := h4
  simp only [List.getElem?_eq_some_iff, List.getElem_range, List.length_range] at hx hy hx' hy'
  obtain ⟨_, rfl⟩ := hx
  obtain ⟨_, rfl⟩ := hy
  obtain ⟨_, rfl⟩ := hx'
  obtain ⟨_, rfl⟩ := hy'
  exact ⟨rfl, rfl⟩

theorem Opens.whole {W : FileEnv σ τ} {file : Bytes} {mode : Nat} {sheets : List (List Char × List CellOp)} (h : Opens W file mode sheets)
    (M : XlMul) {k : Nat} {name : List Char} {ops : List CellOp} (hs : sheets[k]? = some (name, ops))
    (hne : ops.any (fun op => 0 < op.rows) ∧ ops.any fun op => 0 < op.cols) (hdates : (sheetOf mode ops).DatesOk M) :
    ∃ fuel0, ∀ fuel, fuel0 ≤ fuel → ∃ data names, packFile W M fuel file (.index k) .yes none none none = some (.ok (data, names)) ∧
      (∀ x, (∃ col, dget data x = some col) ↔ 0 ≤ x ∧ x < largestOf CellOp.cols ops) ∧
      (∀ x col, dget data x = some col → ReadsColumn M (sheetOf mode ops) 1 (largestOf CellOp.rows ops - 1) x col) ∧
      (∀ x v, dget names x = some v ↔ 0 ≤ x ∧ x < largestOf CellOp.cols ops ∧ v = (cellOf ops 0 x.toNat).value) := by
  obtain ⟨f, hr⟩ := h.packs
  have hpos : ∀ {g : CellOp → Nat}, ops.any (fun op => 0 < g op) = true → 0 < largestOf g ops := by
    intro g hg
    obtain ⟨op, ho, h0⟩ := List.any_eq_true.1 hg
    have := (largestOf_is g ops).1 op ho
    simp at h0
    omega
  have hrows := hpos hne.1
  have hcols := hpos hne.2
  have hstop : StopCell W.xlsx.up (sheetOf mode ops) none ((largestOf CellOp.rows ops : Int) - 1) ((largestOf CellOp.cols ops : Int) - 1) :=
    .inl ⟨.inl rfl, rfl, rfl⟩
  obtain ⟨data, names, e⟩ := C31_sheetpack_accepts W.xlsx.up M (sheetOf mode ops) (sheetOf_wf _ _) hdates .yes none none none 0 0 _ _ rfl
    hstop (fun u hu => (nomatch hu)) (fun us hus => by
      have hus : ∀ x, x ∈ us ↔ (0 : Int) ≤ x ∧ x ≤ (largestOf CellOp.cols ops : Int) - 1 := hus
      refine ⟨fun h0 => ?_, fun x hx => ?_⟩
      · have := (hus 0).2 (by omega)
        rw [h0] at this
        simp at this
      · have := (hus x).1 hx
        refine ⟨this.1, this.2, ?_⟩
        show x < ((largestOf CellOp.cols ops : Nat) : Int)
        omega)
    ⟨by simp, fun _ => by show (0 : Int) < ((largestOf CellOp.rows ops : Nat) : Int); omega, fun s hs => (nomatch hs)⟩
  refine ⟨f, fun fuel hfuel => ⟨data, names, ?_, ?_⟩⟩
  · rw [(hr fuel hfuel M .yes none none none).1 k (name, ops) ⟨k, hs, .inl rfl⟩, e]
  · obtain ⟨r0, c0, r1, c1, us, hrow, g1, g2, g3, g4, _, g6, g7, g8, g9⟩ :=
      C31_sheetpack_range W.xlsx.up M _ (sheetOf_wf _ _) .yes none none none data names e
    cases g1
    rcases g2 with ⟨_, rfl, rfl⟩ | ⟨h0, _⟩
    · have g3 : ∀ x, x ∈ us ↔ (0 : Int) ≤ x ∧ x ≤ (largestOf CellOp.cols ops : Int) - 1 := g3
      have g4 : hrow = some 0 := g4
      subst g4
      refine ⟨fun x => by rw [g6, g3]; omega, fun x col hx => g7 x col hx, fun x v => ⟨fun hv => ?_, fun hv => ?_⟩⟩
      · obtain ⟨_, hm⟩ := (g8 x).1 ⟨v, hv⟩
        rw [g3] at hm
        obtain ⟨r, t, hr, hc⟩ := g9 x v hv
        cases hr
        exact ⟨hm.1, by omega, (sheetOf_cell hc).1⟩
      · obtain ⟨h1, h2, rfl⟩ := hv
        obtain ⟨v, hv⟩ := (g8 x).2 ⟨by simp, (g3 x).2 (by omega)⟩
        obtain ⟨r, t, hr, hc⟩ := g9 x v hv
        cases hr
        rw [hv, (sheetOf_cell hc).1]
        rfl
    · exact absurd rfl h0

/-- With nothing but the file and the number of a sheet: the first row has the names, the rows below
it are the data of all columns. -/
theorem C71_whole_sheet_partial {W : FileEnv σ τ} {c : BookCtx} (hE : XlLaws W.xlsx) (hf : BookFits W.xls c) {height : Nat} {file : Bytes}
    {mode : Nat} {sheets : List (List Char × List CellOp)} (h : SheetFileIs true W.xlsx W.zip c height file mode sheets)
    (hd : height < W.depth) (M : XlMul) {k : Nat} {name : List Char} {ops : List CellOp} (hs : sheets[k]? = some (name, ops))
    (hne : ops.any (fun op => 0 < op.rows) ∧ ops.any fun op => 0 < op.cols) (hdates : (sheetOf mode ops).DatesOk M) :
    ∃ fuel0, ∀ fuel, fuel0 ≤ fuel → ∃ data names, packFile W M fuel file (.index k) .yes none none none = some (.ok (data, names)) ∧
      (∀ x, (∃ col, dget data x = some col) ↔ 0 ≤ x ∧ x < largestOf CellOp.cols ops) ∧
      (∀ x col, dget data x = some col → ReadsColumn M (sheetOf mode ops) 1 (largestOf CellOp.rows ops - 1) x col) ∧
      (∀ x v, dget names x = some v ↔ 0 ≤ x ∧ x < largestOf CellOp.cols ops ∧ v = (cellOf ops 0 x.toNat).value) :=
  (openWorkbook_reads hE hf h hd).whole M hs hne hdates

/-! ## Examples, and where the full statement is false -/

def exFileEnv : FileEnv Unit Unit where
  xlsx := exXl
  xls := exBookEnv
  zip := fun _ => .ok exZip
  depth := 2

theorem xldate_one : ∃ d ms, xldateAsDatetime exactMul 1 ((1 : Nat) : Int) = .ok (d, ms) := by
  exact ⟨1463, 0, ok_of_toOption (by decide +kernel)⟩

-- an xlsx file and an xls file
example : SheetFileIs true exFileEnv.xlsx exFileEnv.zip (exBookCtx true) 1 [0x50, 0x4B, 3, 4, 0] 1 [("A".toList, exOps [' ', 'a'])] :=
  .inl ⟨⟨[0], rfl⟩, exZip, rfl, exZip_book⟩

theorem exFile_is : SheetFileIs true exFileEnv.xlsx exFileEnv.zip (exBookCtx true) 0 exBook 1
    [(['S'], [.put 0 0 ⟨3, .flt 1, 1⟩, .put 0 1 ⟨1, .str ['c'], 0⟩])] := .inr (.inl exBook_is)

example : ∃ fuel data names, packFile exFileEnv exactMul fuel exBook (.index 0) .yes none none none = some (.ok (data, names)) ∧
    dget names 1 = some (.str ['c']) := by
  obtain ⟨f, h⟩ := C71_whole_sheet_partial (W := exFileEnv) exXl_laws (exBook_fits true) exFile_is (by decide) exactMul (k := 0) rfl
    (by decide) (by
      intro r c v hc
      obtain ⟨rfl, ht⟩ := sheetOf_cell hc
      obtain ⟨d, ms, h1⟩ := xldate_one
      refine ⟨1, d, ms, .inl ?_, h1⟩
      revert ht
      unfold cellOf
      simp only [lastPut]
      by_cases a1 : 0 = r.toNat ∧ 1 = c.toNat
      · rw [if_pos a1]
        intro ht
        cases ht
      · rw [if_neg a1]
        by_cases a2 : 0 = r.toNat ∧ 0 = c.toNat
        · rw [if_pos a2]
          exact fun _ => rfl
        · rw [if_neg a2]
          intro ht
          cases ht)
  obtain ⟨data, names, e, _, _, h3⟩ := h f (Nat.le_refl _)
  exact ⟨f, data, names, e, (h3 1 _).2 (by decide +kernel)⟩

/-- The full statement is false: the date of C68 with a format defined late is read as a number. -/
theorem C71_counterexample : ¬ SheetFileRead false := by
  intro h
  obtain ⟨f, hf⟩ := h Unit Unit exFileEnv (exBookCtx true) exXl_laws (exBook_fits true) 0 exLateBook 0 _ (.inr (.inl exLate_is)) (by decide)
  have h1 := (hf f (Nat.le_refl _) exactMul .no none none none).1 0 _ ⟨0, rfl, .inl rfl⟩
  obtain ⟨rest, hr⟩ := xlsBook_ne exLate_is
  have h2 : packFile exFileEnv exactMul f exLateBook (.index 0) .no none none none =
      packFile exFileEnv exactMul 0 exLateBook (.index 0) .no none none none := by
    unfold packFile openWorkbook openXls loadXls
    rw [if_neg (by simp [hr, zipSignature]), if_neg (by simp [hr]), if_pos (by rw [hr, pySlice_eq]; simp [oleSignature])]
    rw [if_neg (by simp [hr, zipSignature]), if_neg (by simp [hr]), if_pos (by rw [hr, pySlice_eq]; simp [oleSignature])]
  rw [h2] at h1
  have h3 : (packFile exFileEnv exactMul 0 exLateBook (.index 0) .no none none none).map (fun r => r.toOption.map (·.1)) =
      some (some [(0, [.flt 1])]) := by decide +kernel
  rw [h1] at h3
  revert h3
  decide +kernel

end CP
