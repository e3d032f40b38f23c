import Verif.Lemmas.XlsObjects
import Verif.Props.XlsBook
/-!
# C77: hyperlinks, objects and notes do not keep the cells from being read
-/

namespace CP
open CP.Spec

/-- C77 as it ought to be (`whole := false`): a sheet with hyperlinks, drawing objects, texts and notes among
its records is read without an exception, with the cells that its other records stand for.  Beyond the
limits of C67, `whole := true` is limited to hyperlinks to URLs of characters of one code unit, to those
with a display name if their creator gave one, to those without a location if their moniker is neither a
URL nor a file, and to texts of objects where no record ends between the units of a character. -/
def ObjectsRead (whole : Bool) : Prop :=
  ∀ (E : XlsEnv ObjSt) (ctx : XlsCtx), XlsFits E { ctx with object := fun _ => False } → E.obj = handleObject E.bv E.text →
    ctx.object = ObjectGroup whole ctx.v8 ctx.text → ∀ (obj : ObjSt) (countries : Nat × Nat),
    countries = (0, 0) ∨ countries = ctx.country →
    ∀ (rs : List XRec) (ops : List CellOp), (∀ r ∈ rs, RecordOk r) → SheetRecs true ctx true rs ops →
      (∀ op ∈ ops, CellOp.Fits false (xlsRows ctx.v8) 256 op) →
      ∀ pre post : List UInt8, ∃ g c,
        readSheet E false obj countries (recordsAt (pre ++ (rs.flatMap recordBytes ++ post)) pre.length) = .ok (g, c) ∧
        GridHolds ops g ∧ (c = (0, 0) ∨ c = ctx.country)

theorem C77_objects_partial : ObjectsRead true := by
  intro E ctx hf ho hc
  have hfit : XlsFits E ctx := by
    refine ⟨hf.bv, hf.three, hf.rnd, hf.sst, hf.xfType, hf.text, fun rs hr s after => ?_⟩
    rw [hc] at hr
    rw [ho]
    exact objectGroup_steps hf.bv hf.text hr s after
  exact C67_worksheet_partial ObjSt E ctx hfit

/-- The same for the stream of a book. -/
theorem C77_book {τ : Type} (E : BookEnv ObjSt τ) (c : BookCtx) (hf : BookFits E { c with object := fun _ _ => False })
    (ho : E.obj = handleObject) (hc : c.object = fun tx => ObjectGroup true c.v8 tx)
    (stream : List UInt8) (mode : Nat) (sheets : List (List Char × List CellOp)) (h : XlsBookIs true c stream mode sheets)
    (pre post : List UInt8) : ∃ gs, openStream E false (pre ++ (stream ++ post)) pre.length = .ok (mode, gs) ∧
      Each (fun (s : List Char × List CellOp) (b : BookSheet) => b.name = s.1 ∧ GridHolds s.2 b.grid) sheets gs := by
  refine C68_stream_partial ObjSt τ E c ⟨hf.rnd, hf.codec, hf.latin, ?_, hf.names⟩ stream mode sheets h pre post
  intro tx rs hr bv text hb ht s after
  rw [hc] at hr
  rw [ho]
  exact objectGroup_steps hb ht hr s after

/-! ## Examples -/

def exObjCtx (whole v8 : Bool) (text : List UInt8 → Option (List Char)) : XlsCtx :=
  { exXlsCtx v8 text with object := ObjectGroup whole v8 text }

def exObjEnv (v8 : Bool) (text : List UInt8 → Option (List Char)) : XlsEnv ObjSt where
  bv := if v8 then 80 else 70
  rnd := id
  sst := [['a', 'b']]
  xfType := fun n => if n = 1 then some 3 else if n = 0 then some 2 else none
  text := (exXlsEnv v8 text).text
  obj := handleObject (if v8 then 80 else 70) (exXlsEnv v8 text).text

theorem exObj_fits (whole v8 : Bool) (text : List UInt8 → Option (List Char)) :
    XlsFits (exObjEnv v8 text) { exObjCtx whole v8 text with object := fun _ => False } where
  bv := (exXls_fits v8 text).bv
  three := (exXls_fits v8 text).three
  rnd := rfl
  sst := rfl
  xfType := rfl
  text := (exXls_fits v8 text).text
  obj := fun _ h => h.elim

/-- The flags of hyperlinks. -/
def exFlags (moniker siteName location name : Bool) : LinkFlags :=
  ⟨moniker, false, siteName, location, name, false, false, false, false, 0⟩

/-- A hyperlink with the display name "n", the URL "u" and the location "l", and its tip "t". -/
def exRange : List UInt8 := [0, 0, 1, 0, 0, 0, 2, 0]
def exLink : List UInt8 :=
  exRange ++ stdLink ++ [2, 0, 0, 0] ++ leBytes 4 (exFlags true true true true).value ++ [2, 0, 0, 0, 0x6E, 0, 0, 0] ++ [] ++
    (urlMonikerId ++ leBytes 4 4 ++ ([0x75, 0] ++ [0, 0] ++ [])) ++ [2, 0, 0, 0, 0x6C, 0, 0, 0] ++ []
def exTip : List UInt8 := leBytes 2 0x800 ++ exRange ++ [0x74, 0] ++ [0, 0]

theorem exLink_is : LinkIs true exRange exLink := by
  refine ⟨rfl, exFlags true true true true, [2, 0, 0, 0, 0x6E, 0, 0, 0], [], urlMonikerId ++ leBytes 4 4 ++ ([0x75, 0] ++ [0, 0] ++ []),
    [2, 0, 0, 0, 0x6C, 0, 0, 0], [], by decide, ?_, rfl, ?_, ?_, fun _ _ => rfl, rfl⟩
  · exact ⟨['n'], by decide, by decide⟩
  · exact .url (t := ['u']) (extra := []) rfl rfl (by decide) (by decide) (.inl rfl) (by decide)
  · exact ⟨['l'], by decide, by decide⟩

/-- A number, a hyperlink with its tip, a drawing with an object, the text "é" of the object in one
record and its formatting runs, a note by "a", another number. -/
def exObjRecs : List XRec :=
  [(0x27E, [0, 0, 0, 0, 0, 0, 0x0E, 0, 0, 0]), (0x1B8, exLink), (0x800, exTip), (0xEC, [1, 2, 3]),
   (0x5D, leBytes 2 0x15 ++ leBytes 2 18 ++ [0x19, 0, 1, 0] ++ leBytes 2 0x4011 ++ List.replicate 12 0 ++ List.replicate 4 0),
   (0xEC, [4]), (0x1B6, List.replicate 10 0 ++ leBytes 2 1 ++ leBytes 2 16 ++ [0, 0, 0, 0]),
   (0x3C, [0, 0xE9]), (0x3C, List.replicate 16 0), (0x1C, [0, 0, 0, 0, 0, 0, 1, 0, 1, 0, 0, 0x61, 0]),
   (0x27E, [0, 0, 1, 0, 0, 0, 0x0A, 0, 0, 0]), (0xA, [])]

theorem exObj_recs (text : List UInt8 → Option (List Char)) :
    SheetRecs true (exObjCtx true true text) true exObjRecs [.put 0 0 ⟨2, .flt 3, 0⟩, .put 0 1 ⟨2, .flt 2, 0⟩] := by
  have rk : ∀ (n : Nat) (v : Val), n < 2 ^ 32 → unpackRK id (leBytes 4 n) = .ok v → RkIs id n v := fun n v h e =>
    (C65_rk id h v).1 e
  refine .cells (rs := [_]) (ops := [.put 0 0 ⟨2, .flt 3, 0⟩])
    (.rk (n := 0x0E) (more := []) (exHead 0 0 0 (by omega) (by omega) (by omega)) (by omega) (rk _ _ (by omega) (by decide +kernel)) rfl) ?_
  refine .object (rs := [_, _]) (.linkTip exLink_is ⟨['t'], by decide⟩) ?_
  refine .aside (by unfold Aside structural; simp) ?_
  refine .object (rs := [_, _, _, _, _]) (.object (fun _ => .inl ⟨[0x19, 0, 1, 0], 0x4011, List.replicate 12 0, List.replicate 4 0, rfl, by omega,
    rfl, .zeros (by omega), rfl⟩) (.aside (by unfold Aside structural; simp)
      (.text8 (conts := [[0, 0xE9], List.replicate 16 0]) rfl ?_ .nil))) ?_
  · refine ⟨List.replicate 10 0, [0, 0, 0, 0], [[0, 0xE9]], [List.replicate 16 0], [Char.ofNat 0xE9], rfl, by decide, ?_, by decide, by decide,
      by decide, by decide, rfl⟩
    exact .cons (us := [0xE9]) (us' := []) (.inl rfl) (by decide) (by unfold UnitBytes; decide)
      (fun _ => ⟨[Char.ofNat 0xE9], by decide⟩) .nil
  refine .object (rs := [_]) (.note8 rfl ⟨[0, 0, 0, 0, 0, 0, 1, 0], [1, 0, 0, 0x61], [0], rfl, by decide, rfl,
    .inr ⟨0, 0, 0, [1, 0, 0], ['a'], [0x61], [], ⟨by decide, by decide, by decide, fun _ => rfl, fun _ => rfl, by decide⟩,
      by unfold UnitBytes; decide, rfl, rfl⟩⟩) ?_
  exact .cells (rs := [_]) (ops := [.put 0 1 ⟨2, .flt 2, 0⟩])
    (.rk (n := 0x0A) (more := []) (exHead 0 1 0 (by omega) (by omega) (by omega)) (by omega) (rk _ _ (by omega) (by decide +kernel)) rfl) .eof


example : ∃ g c, readSheet (exObjEnv true fun _ => none) false ⟨none, false⟩ (0, 0) (recordsAt (exObjRecs.flatMap recordBytes) 0) = .ok (g, c) ∧
    GridHolds [.put 0 0 ⟨2, .flt 3, 0⟩, .put 0 1 ⟨2, .flt 2, 0⟩] g := by
  obtain ⟨g, c, e, h, _⟩ := C77_objects_partial _ _ (exObj_fits true true fun _ => none) rfl rfl ⟨none, false⟩ (0, 0) (.inl rfl) exObjRecs _
    (by unfold RecordOk; decide) (exObj_recs fun _ => none) (by simp [CellOp.Fits, exObjCtx, exXlsCtx, xlsRows]) [] []
  exact ⟨g, c, by simpa using e, h⟩

/-- A note before BIFF 8, in two records. -/
example : ObjectGroup true false (fun b => if b = [1, 2, 3] then some ['x'] else none)
    [(0x1C, [0, 0, 0, 0, 3, 0, 1, 2]), (0x1C, [0xFF, 0xFF, 0, 0, 1, 0, 3])] :=
  .note5 rfl ⟨[0, 0, 0, 0], [1, 2], [([0, 0], [3])], ['x'], rfl, by decide, by simp, rfl, rfl⟩

/-- A link to a file, with its long name. -/
example : LinkTarget true (exFlags true false false false) (fileMonikerId ++ (leBytes 2 0 ++ leBytes 4 1) ++ [0] ++ List.replicate 24 0 ++
    leBytes 4 (2 + 6) ++ leBytes 4 2 ++ [3, 0] ++ [0x61, 0]) :=
  .longFile (t := ['a']) (ansi := [0]) rfl rfl (by omega) (by decide) rfl (by decide) rfl

def exObjBookCtx (v8 : Bool) : BookCtx := { exBookCtx v8 with object := fun tx => ObjectGroup true v8 tx }

def exObjBookEnv : BookEnv ObjSt Unit where
  rnd := id
  codec := fun _ b => .ok (asciiText b)
  obj := handleObject
  obj0 := ⟨none, false⟩
  names := fun _ _ _ _ _ => .error .generic
  names0 := ()
  namesEnd := fun _ _ _ _ => .ok ()
  old := fun _ _ _ => .error .generic

theorem exObjBook_fits (v8 : Bool) : BookFits exObjBookEnv { exObjBookCtx v8 with object := fun _ _ => False } where
  rnd := rfl
  codec := fun _ _ _ h => congrArg Except.ok (Option.some.inj h)
  latin := fun _ _ => rfl
  obj := fun _ _ h => h.elim
  names := ⟨fun _ _ => True, trivial, fun _ h => h.elim, fun _ _ _ _ _ _ _ _ _ _ => rfl⟩

/-- A book of version 5: the sheet "S" with the text "ab", and with the note "n" in two records. -/
def exObjBook5 : List UInt8 :=
  recordBytes (0x809, exBof 0x500 5) ++
    (([(0x42, leBytes 2 1252 ++ []), (0x85, leBytes 4 34 ++ [0, 0] ++ (leBytes 1 1 ++ [0x53] ++ [])), (0xA, [])] : List XRec).flatMap recordBytes ++
     (recordBytes (0x809, exBof 0x500 0x10) ++
      ([(0x204, leBytes 2 0 ++ leBytes 2 0 ++ leBytes 2 0 ++ (leBytes 2 2 ++ [0x61, 0x62] ++ [])),
        (0x1C, [0, 0, 0, 0, 2, 0, 0x6E]), (0x1C, [0xFF, 0xFF, 0, 0, 1, 0, 0x6F]), (0xA, [])] : List XRec).flatMap recordBytes))

theorem exObjBook5_is : XlsBookIs true (exObjBookCtx false) exObjBook5 0 [(['S'], [.put 0 0 ⟨1, .str ['a', 'b'], 0⟩])] := by
  refine ⟨exBof 0x500 5, _, [.page 1252, .sheet ['S'] 34 0], fun i => if i = 0 then some 2 else none, _, rfl,
    ⟨by simp [exObjBookCtx, exBookCtx], by decide, [0, 0, 0, 0], rfl⟩, by unfold RecordOk; decide +kernel, ?_, trivial, fun _ => ?_, ?_, rfl, .cons ⟨rfl, ?_⟩ .nil⟩
  · refine .page (by omega) ?_ ?_
    · unfold PageOk pageName
      exact .inr fun _ _ => rfl
    · exact .sheet (kind := 0) (by omega) ⟨[0x53], [], by decide, rfl, rfl⟩ .eof
  · intro a k b hab
    have : k ∈ xfKeys [.page 1252, .sheet ['S'] 34 0] := by rw [hab, xfKeys_append]; simp [xfKeys]
    simp [xfKeys] at this
  · intro i typ
    unfold XfTypeIs
    constructor
    · intro h
      dsimp only at h
      split at h
      · rename_i h0
        exact .inr ⟨rfl, h0, (Option.some.inj h).symm⟩
      · cases h
    · rintro (⟨k, e, _⟩ | ⟨_, rfl, rfl⟩)
      · simp [xfKeys] at e
      · rfl
  · refine ⟨_, 0x500, exBof 0x500 0x10, _, [], (List.append_assoc _ _ _).symm.trans (congrArg _ (congrArg _ (List.append_nil _).symm)),
      by decide +kernel, ⟨by omega, by decide, [0, 0, 0, 0], rfl⟩, by unfold RecordOk; decide, ?_, ?_⟩
    · refine .cells (ops := [.put 0 0 ⟨1, .str ['a', 'b'], 0⟩]) (rs := [_])
        (.label (exHead 0 0 0 (by omega) (by omega) (by omega)) ⟨[0x61, 0x62], [], by decide, rfl, rfl⟩) ?_
      exact .object (rs := [_, _]) (.note5 rfl ⟨[0, 0, 0, 0], [0x6E], [([0, 0], [0x6F])], ['n', 'o'], rfl, by decide, by simp, by decide, rfl⟩) .eof
    · intro row col v hv
      simp only [List.mem_cons, CellOp.put.injEq, List.not_mem_nil, or_false] at hv
      obtain ⟨rfl, rfl, _⟩ := hv
      exact ⟨by decide, by decide⟩

example : ∃ gs, openStream exObjBookEnv false exObjBook5 0 = .ok (0, gs) := by
  obtain ⟨gs, e, _⟩ := C77_book exObjBookEnv (exObjBookCtx false) (exObjBook_fits false) rfl rfl _ _ _ exObjBook5_is [] []
  simp only [List.nil_append, List.append_nil, List.length_nil] at e
  exact ⟨gs, e⟩

/-! ## What cannot be read -/

/-- A hyperlink to the URL "😀". -/
def exAstralUrl : List UInt8 :=
  exRange ++ stdLink ++ [2, 0, 0, 0] ++ leBytes 4 (exFlags true false false false).value ++ [] ++ [] ++
    (urlMonikerId ++ leBytes 4 6 ++ ([0x3D, 0xD8, 0, 0xDE] ++ [0, 0] ++ [])) ++ [] ++ []

theorem exAstralUrl_is : LinkIs false exRange exAstralUrl := by
  refine ⟨rfl, exFlags true false false false, [], [], urlMonikerId ++ leBytes 4 6 ++ ([0x3D, 0xD8, 0, 0xDE] ++ [0, 0] ++ []),
    [], [], by decide, rfl, rfl, ?_, rfl, nofun, rfl⟩
  exact .url (t := [Char.ofNat 0x1F600]) (extra := []) rfl rfl (by decide) nofun (.inl rfl) (by decide)

/-- The end of the URL is looked for with the length in characters: the assertion that the record
has nothing more fails. -/
theorem C77_astral_url (text : List UInt8 → Option (List Char)) :
    readSheet (exObjEnv true text) false ⟨none, false⟩ (0, 0) (recordsAt ([(0x1B8, exAstralUrl), (0xA, [])].flatMap recordBytes) 0) =
      .error .assertionError := by
  have : recordsAt ([(0x1B8, exAstralUrl), (0xA, [])].flatMap recordBytes) 0 = [(0x1B8, exAstralUrl), (0xA, [])].map toRec := by decide +kernel
  rw [this]
  rfl

/-- A hyperlink to the URL "u", whose creator gave a display name that is not in the record. -/
def exSiteName : List UInt8 :=
  exRange ++ stdLink ++ [2, 0, 0, 0] ++ leBytes 4 (exFlags true true false false).value ++ [] ++ [] ++
    (urlMonikerId ++ leBytes 4 4 ++ ([0x75, 0] ++ [0, 0] ++ [])) ++ [] ++ []

theorem exSiteName_is : LinkIs false exRange exSiteName := by
  refine ⟨rfl, exFlags true true false false, [], [], urlMonikerId ++ leBytes 4 4 ++ ([0x75, 0] ++ [0, 0] ++ []),
    [], [], by decide, rfl, rfl, ?_, rfl, nofun, rfl⟩
  exact .url (t := ['u']) (extra := []) rfl rfl (by decide) nofun (.inl rfl) (by decide)

/-- Either of two flags is taken for a display name. -/
theorem C77_site_name (text : List UInt8 → Option (List Char)) :
    ∃ x, readSheet (exObjEnv true text) false ⟨none, false⟩ (0, 0) (recordsAt ([(0x1B8, exSiteName), (0xA, [])].flatMap recordBytes) 0) = .error x := by
  have : recordsAt ([(0x1B8, exSiteName), (0xA, [])].flatMap recordBytes) 0 = [(0x1B8, exSiteName), (0xA, [])].map toRec := by decide +kernel
  rw [this]
  exact ⟨_, rfl⟩

/-- A hyperlink with an item moniker (a delimiter of 20 characters, the item "i") and the location "l". -/
def exItemLink : List UInt8 :=
  exRange ++ stdLink ++ [2, 0, 0, 0] ++ leBytes 4 (exFlags true false true false).value ++ [] ++ [] ++
    ([4, 3, 0, 0, 0, 0, 0, 0, 0xC0, 0, 0, 0, 0, 0, 0, 0x46] ++ (leBytes 4 20 ++ List.replicate 20 0x21 ++ [1, 0, 0, 0, 0x69])) ++
    [2, 0, 0, 0, 0x6C, 0, 0, 0] ++ []

theorem exItemLink_is : LinkIs false exRange exItemLink := by
  refine ⟨rfl, exFlags true false true false, [], [], [4, 3, 0, 0, 0, 0, 0, 0, 0xC0, 0, 0, 0, 0, 0, 0, 0x46] ++
    (leBytes 4 20 ++ List.replicate 20 0x21 ++ [1, 0, 0, 0, 0x69]), [2, 0, 0, 0, 0x6C, 0, 0, 0], [], by decide, rfl, rfl, ?_,
    ⟨['l'], by decide, by decide⟩, nofun, rfl⟩
  exact .other rfl rfl rfl (by decide) (by decide) nofun

/-- The moniker is taken for the location. -/
theorem C77_other_moniker (text : List UInt8 → Option (List Char)) :
    ∃ x, readSheet (exObjEnv true text) false ⟨none, false⟩ (0, 0) (recordsAt ([(0x1B8, exItemLink), (0xA, [])].flatMap recordBytes) 0) = .error x := by
  have : recordsAt ([(0x1B8, exItemLink), (0xA, [])].flatMap recordBytes) 0 = [(0x1B8, exItemLink), (0xA, [])].map toRec := by decide +kernel
  rw [this]
  exact ⟨_, rfl⟩

/-- The text of an object, "😀", with its two units in two records. -/
def exSplit : List XRec :=
  [(0x5D, []), (0x1B6, List.replicate 10 0 ++ leBytes 2 2 ++ leBytes 2 0 ++ [0, 0, 0, 0]), (0x3C, [1, 0x3D, 0xD8]), (0x3C, [1, 0, 0xDE]), (0xA, [])]

theorem exSplit_recs (text : List UInt8 → Option (List Char)) : SheetRecs true (exObjCtx false true text) true exSplit [] := by
  refine .object (rs := exSplit.take 4) (.object (fun _ => .inr (.inl rfl))
    (.text8 (conts := [[1, 0x3D, 0xD8], [1, 0, 0xDE]]) rfl ?_ .nil)) .eof
  refine ⟨List.replicate 10 0, [0, 0, 0, 0], [[1, 0x3D, 0xD8], [1, 0, 0xDE]], [], [Char.ofNat 0x1F600], rfl, by decide, ?_, by decide, by decide,
    by decide, by decide, rfl⟩
  exact .cons (us := [0xD83D]) (us' := [0xDE00]) (.inr rfl) (by decide) (by unfold UnitBytes; decide) nofun
    (.cons (us := [0xDE00]) (us' := []) (.inr rfl) (by decide) (by unfold UnitBytes; decide) nofun .nil)

/-- The records of a text are decoded one by one. -/
theorem C77_split_text (text : List UInt8 → Option (List Char)) :
    readSheet (exObjEnv true text) false ⟨none, false⟩ (0, 0) (recordsAt (exSplit.flatMap recordBytes) 0) = .error .unicodeError := by
  have : recordsAt (exSplit.flatMap recordBytes) 0 = exSplit.map toRec := by decide +kernel
  rw [this]
  rfl

theorem C77_counterexample : ¬ ObjectsRead false := by
  intro h
  obtain ⟨g, c, e, _⟩ := h _ _ (exObj_fits false true fun _ => none) rfl rfl ⟨none, false⟩ (0, 0) (.inl rfl) exSplit _
    (by unfold RecordOk; decide) (exSplit_recs fun _ => none) (by simp) [] []
  have := C77_split_text fun _ => none
  simp only [List.nil_append, List.append_nil, List.length_nil] at e
  rw [show ((0 : Nat) : Int) = 0 from rfl, this] at e
  cases e

end CP
