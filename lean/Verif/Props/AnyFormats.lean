import Verif.Props.LateFormats
import Verif.Props.FullFile
import Verif.Spec.AnyFormats

/-!
# C70, C71, C80: xls files with any stream, and with formats in any place
-/

namespace CP
open CP.Spec

variable {σ τ : Type}

/-- Whatever stream is in an xls file, just that is read, wherever it is in memory. -/
theorem C70_stream (E : BookEnv σ τ) {low : List Char → List Char} {height : Nat} {file stream : Bytes}
    (h : HoldsStream low height file stream) (hs : ∃ rest, stream = 9 :: rest) {depth : Nat} (hd : height < depth) :
    ∃ fuel0, ∀ fuel, fuel0 ≤ fuel → ∃ pre post : List UInt8, ∀ ragged,
      openXls E low depth fuel ragged file = some (openStream E ragged (pre ++ (stream ++ post)) pre.length) := by
  obtain ⟨rest, hr⟩ := hs
  rcases h with rfl | ⟨utf16, D, hu, hdoc, hn, hb⟩
  · refine ⟨0, fun fuel _ => ⟨[], [], fun ragged => ?_⟩⟩
    simp only [List.nil_append, List.append_nil, List.length_nil]
    unfold openXls loadXls
    rw [if_neg (by simp [hr]), if_pos (by rw [hr, pySlice_eq]; simp [oleSignature])]
  · have hne : stream ≠ [] := by simp [hr]
    obtain ⟨f, hl⟩ := findBook_complete (docIs_utf16le hu hdoc) hn hb hne hd
    refine ⟨f, fun fuel hfuel => ?_⟩
    obtain ⟨mem, base, e, hm⟩ := hl fuel hfuel
    have hlt : base ≤ mem.length := by
      rcases Nat.le_total base mem.length with hle | hle
      · exact hle
      · rw [List.drop_eq_nil_of_le hle] at hm
        simp at hm
        exact absurd hm hne
    have hmem : mem.take base ++ (stream ++ (mem.drop base).drop stream.length) = mem := by
      conv => rhs; rw [← List.take_append_drop base mem, ← List.take_append_drop stream.length (mem.drop base), hm]
    refine ⟨mem.take base, (mem.drop base).drop stream.length, fun ragged => ?_⟩
    rw [hmem, List.length_take, Nat.min_eq_left hlt]
    unfold openXls
    rw [e]

theorem anyBook_starts {c : BookCtx} {stream : Bytes} {items : List GItem} {sheets : List (List Char × List CellOp)}
    {types : List GItem → Nat → Nat → Prop} (h : AnyFormatsBook c stream items sheets types) : ∃ rest, stream = 9 :: rest := by
  obtain ⟨bof, rs, _, after, hs, _⟩ := h
  exact ⟨8 :: (leBytes 2 bof.length ++ bof ++ (rs.flatMap recordBytes ++ after)), by rw [hs]; simp [recordBytes, leBytes]⟩

/-- An xls file with its formats in any place is read, and numbers are dates by the format key that
the reader goes by. -/
theorem C70_any_formats (E : BookEnv σ τ) {c : BookCtx} (hf : BookFits E c) {low : List Char → List Char} {height : Nat} {file : Bytes}
    {items : List GItem} {sheets : List (List Char × List CellOp)} (h : AnyFormatsFile c low height file items sheets ReadTypeIs)
    {depth : Nat} (hd : height < depth) : ∃ fuel0, ∀ fuel, fuel0 ≤ fuel → ∃ gs,
      openXls E low depth fuel false file = some (.ok (lastMode 0 items, gs)) ∧
      Each (fun (s : List Char × List CellOp) (b : BookSheet) => b.name = s.1 ∧ GridHolds s.2 b.grid) sheets gs := by
  obtain ⟨stream, hh, hb⟩ := h
  obtain ⟨f, hl⟩ := C70_stream E hh (anyBook_starts hb) hd
  refine ⟨f, fun fuel hfuel => ?_⟩
  obtain ⟨pre, post, e⟩ := hl fuel hfuel
  obtain ⟨gs, e', hg⟩ := C68_any_formats σ τ E c hf stream items sheets hb pre post
  exact ⟨gs, by rw [e, e'], hg⟩

theorem anyFile_agree {c : BookCtx} {low : List Char → List Char} {height : Nat} {file : Bytes} {items : List GItem}
    {sheets : List (List Char × List CellOp)} (h : AnyFormatsFile c low height file items sheets XfTypeIs) (ha : FormatsAgree items) :
    AnyFormatsFile c low height file items sheets ReadTypeIs := by
  obtain ⟨stream, hh, bof, rs, xfType, after, hs, hbof, hrs, hg, hnamed, hxf, hsheets⟩ := h
  exact ⟨stream, hh, bof, rs, xfType, after, hs, hbof, hrs, hg, hnamed, fun i typ => (hxf i typ).trans ((C68_types items).2 ha i typ).symm, hsheets⟩

/-- C70 for files where XF records whose formats come late are for dates just as format 0 is. -/
theorem C70_agree (E : BookEnv σ τ) {c : BookCtx} (hf : BookFits E c) {low : List Char → List Char} {height : Nat} {file : Bytes}
    {items : List GItem} {sheets : List (List Char × List CellOp)} (h : AnyFormatsFile c low height file items sheets XfTypeIs)
    (ha : FormatsAgree items) {depth : Nat} (hd : height < depth) : ∃ fuel0, ∀ fuel, fuel0 ≤ fuel → ∃ gs,
      openXls E low depth fuel false file = some (.ok (lastMode 0 items, gs)) ∧
      Each (fun (s : List Char × List CellOp) (b : BookSheet) => b.name = s.1 ∧ GridHolds s.2 b.grid) sheets gs :=
  C70_any_formats E hf (anyFile_agree h ha) hd

/-! ### `sheetpack` -/

theorem holds_notZip {low : List Char → List Char} {height : Nat} {file stream : Bytes} (h : HoldsStream low height file stream)
    (hs : ∃ rest, stream = 9 :: rest) : file.take 4 ≠ zipSignature := by
  obtain ⟨rest, hr⟩ := hs
  rcases h with rfl | ⟨_, D, _, ⟨_, _, _, _, _, hdoc⟩, _⟩
  · rw [hr]
    simp [zipSignature]
  · intro h4
    have := hdoc.signature
    have h4' : (file.take 8).take 4 = zipSignature := by rw [List.take_take]; exact h4
    rw [this] at h4'
    exact absurd h4' (by decide)

/-- What happens to the stream of an xls file happens to the file: if it cannot be read, wherever it
is in memory, `sheetpack` raises that exception, for all sheets. -/
theorem C71_unreadable (W : FileEnv σ τ) {height : Nat} {file stream : Bytes} (h : HoldsStream W.xlsx.low height file stream)
    (hs : ∃ rest, stream = 9 :: rest) (hd : height < W.depth) {x : Exc}
    (hx : ∀ pre post, openStream W.xls false (pre ++ (stream ++ post)) pre.length = .error x) (M : XlMul) (sheet : SheetArg)
    (header : Header) (usecols : Option Usecols) :
    ∃ fuel0, ∀ fuel, fuel0 ≤ fuel → packFile W M fuel file sheet header none none usecols = some (.error x) := by
  obtain ⟨f, hl⟩ := C70_stream W.xls h hs hd
  refine ⟨f, fun fuel hfuel => ?_⟩
  obtain ⟨pre, post, e⟩ := hl fuel hfuel
  have e' : openWorkbook W fuel file = some (.error x) := by
    unfold openWorkbook
    rw [if_neg (holds_notZip h hs), e, hx]
  unfold packFile
  rw [show cellreference W.xlsx.up 0 0 none = .ok (0, 0) from rfl]
  dsimp only
  rw [e']

/-- Such a file can be opened. -/
theorem anyFile_opens (W : FileEnv σ τ) {c : BookCtx} (hf : BookFits W.xls c) {height : Nat} {file : Bytes}
    {items : List GItem} {sheets : List (List Char × List CellOp)} (h : AnyFormatsFile c W.xlsx.low height file items sheets ReadTypeIs)
    (hd : height < W.depth) : Opens W file (lastMode 0 items) sheets := by
  obtain ⟨f, hl⟩ := C70_any_formats W.xls hf h hd
  refine ⟨f, fun fuel hfuel => ?_⟩
  obtain ⟨gs, e, hg⟩ := hl fuel hfuel
  refine ⟨gs, ?_, hg⟩
  obtain ⟨stream, hh, hb⟩ := h
  unfold openWorkbook
  rw [if_neg (holds_notZip hh (anyBook_starts hb)), e]

/-- C71 for xls files with formats in any place: `sheetpack` is that of the cells with the types that
the reader has. -/
theorem C71_any_formats (W : FileEnv σ τ) {c : BookCtx} (hf : BookFits W.xls c) {height : Nat} {file : Bytes}
    {items : List GItem} {sheets : List (List Char × List CellOp)} (h : AnyFormatsFile c W.xlsx.low height file items sheets ReadTypeIs)
    (hd : height < W.depth) :
    ∃ fuel0, ∀ fuel, fuel0 ≤ fuel → ∀ (M : XlMul) (header : Header) (startcell stopcell : Option (List Char)) (usecols : Option Usecols),
      (∀ i s, SheetNumber sheets i s → packFile W M fuel file (.index i) header startcell stopcell usecols =
        some (sheetpack W.xlsx.up M (sheetOf (lastMode 0 items) s.2) header startcell stopcell usecols)) ∧
      (∀ name s, SheetNamed sheets name s → packFile W M fuel file (.name name) header startcell stopcell usecols =
        some (sheetpack W.xlsx.up M (sheetOf (lastMode 0 items) s.2) header startcell stopcell usecols)) :=
  (anyFile_opens W hf h hd).packs

/-- The same with all handlers in place. -/
theorem C80_any_formats (W : PyEnv) {codec : List Char → List UInt8 → Option (List Char)} (hP : RndOk W.num) (hc : CodecsFit W codec)
    {v8 : Bool} {country : Nat × Nat} {height : Nat} {file : Bytes} {items : List GItem} {sheets : List (List Char × List CellOp)}
    (h : AnyFormatsFile (fullCtx true v8 W.rnd codec country (dget funcDefs)) W.xlsx.low height file items sheets ReadTypeIs)
    (hd : height < W.depth) :
    ∃ fuel0, ∀ fuel, fuel0 ≤ fuel → ∀ (M : XlMul) (header : Header) (startcell stopcell : Option (List Char)) (usecols : Option Usecols),
      (∀ i s, SheetNumber sheets i s → packFile W.reader M fuel file (.index i) header startcell stopcell usecols =
        some (sheetpack W.xlsx.up M (sheetOf (lastMode 0 items) s.2) header startcell stopcell usecols)) ∧
      (∀ name s, SheetNamed sheets name s → packFile W.reader M fuel file (.name name) header startcell stopcell usecols =
        some (sheetpack W.xlsx.up M (sheetOf (lastMode 0 items) s.2) header startcell stopcell usecols)) :=
  (anyFile_opens W.reader (books_fit W hP hc v8 country).withOld h hd).packs

/-! ### Examples -/

/-- A file with a late format for dates: the hypotheses of C70_any_formats can be met. -/
theorem exAnyFile : AnyFormatsFile (exBookCtx true) id 0 (exLateBookOf [0x79, 0x79, 0x79, 0x79]) (exLateItemsOf "yyyy".toList)
    [(['S'], [.put 0 0 ⟨2, .flt 1, 1⟩])] ReadTypeIs :=
  ⟨_, .inl rfl, exLateOf_is (by unfold RecordOk; decide +kernel) (by decide +kernel)
    (exString (by decide) (by decide) (by unfold UnitBytes; decide)) exLate_types⟩

/-- One with a late format for numbers: those of C70_agree. -/
example : ∃ fuel gs, openXls exBookEnv id 1 fuel false (exLateBookOf [0x30, 0x2E, 0x30, 0x30]) = some (.ok (0, gs)) := by
  obtain ⟨f, h⟩ := C70_agree exBookEnv (exBook_fits true) (low := id) (height := 0)
    ⟨_, .inl rfl, exLateOf_is (text := [0x30, 0x2E, 0x30, 0x30]) (code := "0.00".toList) (by unfold RecordOk; decide +kernel) (by decide +kernel)
      (exString (by decide) (by decide) (by unfold UnitBytes; decide))
      fun i typ => (exLate_types i typ).trans ((C68_types _).2 exLate_agrees i typ)⟩ exLate_agrees (depth := 1) (by decide)
  obtain ⟨gs, e, _⟩ := h f (Nat.le_refl _)
  exact ⟨f, gs, by simpa [exLateItemsOf, lastMode] using e⟩

/-- A stream that cannot be read anywhere: it has no BOF record. -/
example (E : BookEnv σ τ) (pre post : List UInt8) : openStream E false (pre ++ ([9, 1, 0, 0] ++ post)) pre.length = .error .xlrdError := by
  have h : pySliceI (pre ++ ([9, 1, 0, 0] ++ post)) (pre.length : Int) (pre.length + 2) = [9, 1] :=
    pySliceI_mid (pre := pre) (m := [9, 1]) (post := [0, 0] ++ post) rfl rfl
  unfold openStream getbof
  rw [h]
  rfl

/-- A book in a compound document. -/
example : HoldsStream id 1 (docOne "Workbook".toList exBook [3, 4]) exBook :=
  .inr ⟨utf16le, _, decodes_utf16le, docWorkbook_is, namesDiffer_of_nodup (by decide), .inl docWorkbook_stream⟩

end CP
