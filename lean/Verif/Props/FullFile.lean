import Verif.Props.SheetFile
import Verif.Props.XlsNames
import Verif.Props.XlsxNames
import Verif.Props.XlsOld
import Verif.Model.FullFile
import Verif.Spec.FullFile
/-!
# C80: `sheetpack` of files with names, notes, links, objects and properties
-/

namespace CP
open CP.Spec

/-- The codecs of python are those of the files. -/
def CodecsFit (W : PyEnv) (codec : List Char → List UInt8 → Option (List Char)) : Prop :=
  (∀ name b t, codec name b = some t → W.codec name b = .ok t) ∧
    ∀ b : List UInt8, (∀ x ∈ b, x < 128) → codec "iso-8859-1".toList b = some (asciiText b)

/-- `sheetpack` of such a file gives what the cells of the chosen sheet determine. -/
def FullFileRead (whole : Bool) : Prop :=
  ∀ (W : PyEnv) (codec : List Char → List UInt8 → Option (List Char)), XlLaws W.xlsx → RndOk W.num → CodecsFit W codec →
    ∀ (height : Nat) (file : Bytes) (mode : Nat) (sheets : List (List Char × List CellOp)),
      FullFileIs whole W.xlsx W.zip W.rnd codec (dget funcDefs) height file mode sheets → height < W.depth →
      ∃ fuel0, ∀ fuel, fuel0 ≤ fuel → ∀ (M : XlMul) (header : Header) (startcell stopcell : Option (List Char)) (usecols : Option Usecols),
        (∀ i s, SheetNumber sheets i s → packFile W.reader M fuel file (.index i) header startcell stopcell usecols =
          some (sheetpack W.xlsx.up M (sheetOf mode s.2) header startcell stopcell usecols)) ∧
        (∀ name s, SheetNamed sheets name s → packFile W.reader M fuel file (.name name) header startcell stopcell usecols =
          some (sheetpack W.xlsx.up M (sheetOf mode s.2) header startcell stopcell usecols))

theorem books_fit (W : PyEnv) (hP : RndOk W.num) {codec : List Char → List UInt8 → Option (List Char)} (hc : CodecsFit W codec)
    (v8 : Bool) (country : Nat × Nat) : BookFits W.newBooks (fullCtx true v8 W.rnd codec country (dget funcDefs)) := by
  refine namesFit_book hP ⟨rfl, hc.1, hc.2, ?_, ?_⟩ rfl rfl rfl rfl rfl
  · intro tx rs hr bv text hb ht s after
    exact objectGroup_steps hb ht hr s after
  · exact ⟨fun gs s => gs = [] → s = .init, fun _ => rfl, fun _ h => h.elim, fun _ gs all h bv text s _ _ hs => by rw [hs h]; rfl⟩

theorem BookFits.withOld {σ τ : Type} {E : BookEnv σ τ} {c : BookCtx} (h : BookFits E c) : BookFits E.withOld c :=
  ⟨h.rnd, h.codec, h.latin, h.obj, h.names⟩

theorem fullFile_concrete {E : XlEnv} (hE : XlLaws E) {zip : Bytes → Except Exc Zip} {c : BookCtx} {height : Nat} {file : Bytes} {mode : Nat}
    {sheets : List (List Char × List CellOp)} (h : SheetFileIs true (withNames E) zip c height file mode sheets) :
    SheetFileIs true E.concrete zip c height file mode sheets := by
  rcases h with ⟨h1, zf, h2, h3⟩ | h
  · refine .inl ⟨h1, zf, h2, bookIs_mono (E := withNames E) (E' := E.concrete) rfl rfl rfl (fun e he => ?_) (fun e he => ?_) (fun _ => rfl) h3⟩
    · refine definedNames_none hE (Classical.byContradiction fun hn => ?_)
      simp [withNames, hn] at he
    · refine sheetComments_none hE (Classical.byContradiction fun hn => ?_)
      simp [withNames, hn] at he
  · exact .inr h

theorem oldFile_starts {whole : Bool} {c : BookCtx} {file : Bytes} {mode : Nat} {sheets : List (List Char × List CellOp)}
    (h : OldFileIs whole c file mode sheets) : ∃ rest, file = 9 :: rest := by
  rcases h with ⟨v, ops, page, ⟨version, bof, rs, rfl, _⟩, _⟩ | ⟨version, bof, recs, rfl, _⟩
  · have h : ∃ l, leBytes 2 (oldBof v) = 9 :: l := by
      cases v
      · exact ⟨[0], by decide⟩
      · exact ⟨[2], by decide⟩
      · exact ⟨[4], by decide⟩
    obtain ⟨l, h⟩ := h
    unfold recordBytes
    rw [h]
    exact ⟨_, rfl⟩
  · unfold recordBytes
    rw [show leBytes 2 0x409 = [9, 4] by decide]
    exact ⟨_, rfl⟩

theorem openWorkbook_stream {σ τ : Type} {W : FileEnv σ τ} {fuel : Nat} {file : Bytes} (h : ∃ rest, file = 9 :: rest) :
    openWorkbook W fuel file = some (openStream W.xls false file 0) := by
  obtain ⟨rest, rfl⟩ := h
  unfold openWorkbook openXls loadXls
  rw [if_neg (by simp [zipSignature]), if_neg (by simp), if_pos (by rw [pySlice_eq]; simp [oleSignature])]
  rfl

/-- Such a file can be opened. -/
theorem fullFile_opens (W : PyEnv) {codec : List Char → List UInt8 → Option (List Char)} (hE : XlLaws W.xlsx) (hP : RndOk W.num)
    (hc : CodecsFit W codec) {height : Nat} {file : Bytes} {mode : Nat} {sheets : List (List Char × List CellOp)}
    (h : FullFileIs true W.xlsx W.zip W.rnd codec (dget funcDefs) height file mode sheets) (hd : height < W.depth) :
    Opens W.reader file mode sheets := by
  rcases h with ⟨v8, country, h⟩ | ⟨country, book, after, rfl, h⟩
  · exact openWorkbook_reads (W := W.reader) ⟨hE.upper, hE.same, hE.digits, hE.empty, hE.letters⟩ (books_fit W hP hc v8 country).withOld
      (fullFile_concrete hE h) hd
  · obtain ⟨gs, e, hg⟩ := C81_old_partial _ _ W.newBooks _ (books_fit W hP hc false country) rfl _ _ _ h after
    refine ⟨0, fun fuel _ => ⟨gs, ?_, hg⟩⟩
    obtain ⟨rest, hr⟩ := oldFile_starts h
    rw [openWorkbook_stream ⟨rest ++ after, by rw [hr]; rfl⟩]
    exact congrArg some e

/-- C80 within the limits of C70, C77, C78 and C81. -/
theorem C80_file_partial : FullFileRead true := by
  intro W codec hE hP hc height file mode sheets h hd
  exact (fullFile_opens W hE hP hc h hd).packs

/-- The same for a sheet as a whole, as in C71. -/
theorem C80_whole_sheet_partial (W : PyEnv) {codec : List Char → List UInt8 → Option (List Char)} (hE : XlLaws W.xlsx) (hP : RndOk W.num)
    (hc : CodecsFit W codec) {height : Nat} {file : Bytes} {mode : Nat} {sheets : List (List Char × List CellOp)}
    (h : FullFileIs true W.xlsx W.zip W.rnd codec (dget funcDefs) height file mode sheets) (hd : height < W.depth) (M : XlMul) {k : Nat}
    {name : List Char} {ops : List CellOp} (hs : sheets[k]? = some (name, ops))
    (hne : ops.any (fun op => 0 < op.rows) ∧ ops.any fun op => 0 < op.cols) (hdates : (sheetOf mode ops).DatesOk M) :
    ∃ fuel0, ∀ fuel, fuel0 ≤ fuel → ∃ data names, packFile W.reader M fuel file (.index k) .yes none none none = some (.ok (data, names)) ∧
      (∀ x, (∃ col, dget data x = some col) ↔ 0 ≤ x ∧ x < largestOf CellOp.cols ops) ∧
      (∀ x col, dget data x = some col → ReadsColumn M (sheetOf mode ops) 1 (largestOf CellOp.rows ops - 1) x col) ∧
      (∀ x v, dget names x = some v ↔ 0 ≤ x ∧ x < largestOf CellOp.cols ops ∧ v = (cellOf ops 0 x.toNat).value) :=
  (fullFile_opens W hE hP hc h hd).whole M hs hne hdates

/-- A sheet that is not there, as in C71. -/
theorem C80_no_sheet_partial (W : PyEnv) {codec : List Char → List UInt8 → Option (List Char)} (hE : XlLaws W.xlsx) (hP : RndOk W.num)
    (hc : CodecsFit W codec) {height : Nat} {file : Bytes} {mode : Nat} {sheets : List (List Char × List CellOp)}
    (h : FullFileIs true W.xlsx W.zip W.rnd codec (dget funcDefs) height file mode sheets) (hd : height < W.depth) (M : XlMul)
    (header : Header) (usecols : Option Usecols) : ∃ fuel0, ∀ fuel, fuel0 ≤ fuel →
      (∀ i : Int, (sheets.length ≤ i ∨ i < -sheets.length) →
        packFile W.reader M fuel file (.index i) header none none usecols = some (.error .indexError)) ∧
      (∀ name, (∀ s ∈ sheets, s.1 ≠ name) →
        packFile W.reader M fuel file (.name name) header none none usecols = some (.error .xlrdError)) :=
  (fullFile_opens W hE hP hc h hd).noSheet M header usecols

/-! ## Examples, and where the full statement is false -/

/-- Python with exact numbers and codecs of ASCII, where all zip files are the one of C79. -/
def exPyEnv : PyEnv where
  xlsx := exNoteXl
  rnd := id
  codec := fun _ b => .ok (asciiText b)
  num := exPyOps
  zip := fun _ => .ok exNoteZip
  depth := 2

theorem exCodecs_fit : CodecsFit exPyEnv fun _ b => some (asciiText b) :=
  ⟨fun _ _ _ h => congrArg Except.ok (Option.some.inj h), fun _ _ => rfl⟩

-- an xlsx file with names and a comment
example : FullFileIs true exNoteXl exPyEnv.zip id (fun _ b => some (asciiText b)) (dget funcDefs) 1 [0x50, 0x4B, 3, 4, 0] 0 [("A".toList, exOps [' ', 'a'])] :=
  .inl ⟨true, (1, 1), .inl ⟨⟨[0], rfl⟩, exNoteZip, rfl, exNoteZip_book⟩⟩

-- an xls file with names
example : FullFileIs true exNoteXl exPyEnv.zip id (fun _ b => some (asciiText b)) (dget funcDefs) 1 (exNameBook 193 exGoodNames) 0 [(['S'], [])] :=
  .inl ⟨true, (exNamesCtx true true).country, .inr (.inl exGoodBook_is)⟩

-- a file of Excel 3 or 4
example (v4 : Bool) : FullFileIs true exNoteXl exPyEnv.zip id (fun _ b => some (asciiText b)) (dget funcDefs) 1 (exOld34 v4 ++ [0]) 0
    [("Sheet 1".toList, [.put 0 0 ⟨3, .flt 1, 0⟩])] :=
  .inr ⟨(1, 1), _, [0], rfl, .inl ⟨_, _, none, exOld34_sheet (fun _ _ => rfl) v4 none 0, rfl⟩⟩

/-- Whether the outcome is a ZeroDivisionError. -/
def divided {α : Type} : Except Exc α → Bool
  | .error e => e = .zeroDivisionError
  | .ok _ => false

/-- The full statement is false: with the name `1/0` of C78 in it, nothing of a file can be had. -/
theorem C80_counterexample : ¬ FullFileRead false := by
  intro h
  obtain ⟨h1, _⟩ := C78_unreadable ([0x1E, 1, 0, 0x1E, 0, 0, 6], .zeroDivisionError) (by decide)
  obtain ⟨f, hf⟩ := h exPyEnv _ exNoteXl_laws exPyOps_ok exCodecs_fit 1 _ 0 [(['S'], [])]
    (.inl ⟨true, (exNamesCtx true true).country, .inr (.inl (h1 false fun tx => ObjectGroup false true tx))⟩) (by decide)
  have h3 := (hf f (Nat.le_refl _) exactMul .no none none none).1 0 _ ⟨0, rfl, .inl rfl⟩
  have h5 : divided (openStream exPyEnv.books false
      (exNameBook (exNameStart 0 [[0x1E, 1, 0, 0x1E, 0, 0, 6]]).length [[0x1E, 1, 0, 0x1E, 0, 0, 6]]) 0) = true := by decide +kernel
  obtain ⟨rest, hr⟩ := xlsBook_ne (h1 true fun _ _ => False)
  generalize hfile : exNameBook (exNameStart 0 [[0x1E, 1, 0, 0x1E, 0, 0, 6]]).length [[0x1E, 1, 0, 0x1E, 0, 0, 6]] = file at h3 h5 hr
  have e := openWorkbook_stream (W := exPyEnv.reader) (fuel := f) ⟨_, hr⟩
  have h6 : ∀ x, openStream exPyEnv.reader.xls false file 0 = x → divided x = true := fun x hx => hx ▸ h5
  unfold packFile at h3
  rw [show cellreference exPyEnv.reader.xlsx.up 0 0 none = .ok (0, 0) from rfl] at h3
  dsimp only at h3
  rw [e] at h3
  generalize openStream exPyEnv.reader.xls false file 0 = x at h3 h6
  cases x with
  | ok y => cases h6 _ rfl
  | error y =>
    dsimp only at h3
    have h7 : divided (sheetpack exPyEnv.xlsx.up exactMul (sheetOf 0 []) .no none none none) = true := by
      have := Option.some.inj h3
      rw [← this]
      exact h6 _ rfl
    revert h7
    decide +kernel

end CP
