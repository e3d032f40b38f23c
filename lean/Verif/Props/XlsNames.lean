import Verif.Lemmas.PyNum
import Verif.Props.XlsObjects
/-!
# C78: names and external references do not keep a book from being read
-/

namespace CP
open CP.Spec

/-- C78 as it ought to be (`whole := false`): a book with defined names and external references among its globals is
read without an exception, with the names and cells of its sheets as in C68, whatever the names stand for.  `whole := true`
is limited to names that the reader can work out: see `NamesAre`, `OpOk`, `SignOk`, `Rpn`.  The functions are those
that the reader knows. -/
def NamesRead (whole : Bool) : Prop :=
  ∀ (σ : Type) (P : PyOps), RndOk P → ∀ (E : BookEnv σ NameSt) (c : BookCtx),
    BookFits E { c with names := fun _ => False, named := fun _ gs _ => gs = [] } →
    E.names = handleNames → E.names0 = .init → E.namesEnd = namesEpilogue (pyNum P) →
    c.names = (fun g => ∃ d, NameGroupIs c.v8 g d) → c.named = NameGroupsAre whole c.v8 (dget funcDefs) →
    ∀ (stream : List UInt8) (mode : Nat) (sheets : List (List Char × List CellOp)), XlsBookIs true c stream mode sheets →
      ∀ pre post : List UInt8, ∃ gs, openStream E false (pre ++ (stream ++ post)) pre.length = .ok (mode, gs) ∧
        Each (fun (s : List Char × List CellOp) (b : BookSheet) => b.name = s.1 ∧ GridHolds s.2 b.grid) sheets gs

theorem namesFit_book {σ : Type} {P : PyOps} (hP : RndOk P) {E : BookEnv σ NameSt} {c : BookCtx}
    (hf : BookFits E { c with names := fun _ => False, named := fun _ gs _ => gs = [] })
    (h1 : E.names = handleNames) (h2 : E.names0 = .init) (h3 : E.namesEnd = namesEpilogue (pyNum P))
    (h4 : c.names = (fun g => ∃ d, NameGroupIs c.v8 g d)) (h5 : c.named = NameGroupsAre true c.v8 (dget funcDefs)) : BookFits E c := by
  refine ⟨hf.rnd, hf.codec, hf.latin, hf.obj, XlsNamesInv c.v8, by rw [h2]; exact xlsNamesInv_nil _, ?_, ?_⟩
  · intro g hg
    rw [h4] at hg
    obtain ⟨d, hd⟩ := hg
    refine ⟨(recIs_code hd).1, ?_⟩
    intro bv text gs later s after tx all hn hb ht hs
    rw [h5] at hn
    rw [h1]
    exact names_step hb ht hs hn after
  · intro tx gs all hn bv text s hb ht hs
    rw [h5] at hn
    rw [h3]
    exact names_end (pyNum_fits P hP) hb hs ht hn

theorem C78_names_partial : NamesRead true := by
  intro σ P hP E c hf h1 h2 h3 h4 h5
  exact C68_stream_partial σ NameSt E c (namesFit_book hP hf h1 h2 h3 h4 h5)

/-- The same with the objects of C77. -/
theorem C78_book (P : PyOps) (hP : RndOk P) (E : BookEnv ObjSt NameSt) (c : BookCtx)
    (hf : BookFits E { c with object := fun _ _ => False, names := fun _ => False, named := fun _ gs _ => gs = [] })
    (ho : E.obj = handleObject) (h1 : E.names = handleNames) (h2 : E.names0 = .init) (h3 : E.namesEnd = namesEpilogue (pyNum P))
    (hc : c.object = fun tx => ObjectGroup true c.v8 tx)
    (h4 : c.names = (fun g => ∃ d, NameGroupIs c.v8 g d)) (h5 : c.named = NameGroupsAre true c.v8 (dget funcDefs))
    (stream : List UInt8) (mode : Nat) (sheets : List (List Char × List CellOp)) (h : XlsBookIs true c stream mode sheets)
    (pre post : List UInt8) : ∃ gs, openStream E false (pre ++ (stream ++ post)) pre.length = .ok (mode, gs) ∧
      Each (fun (s : List Char × List CellOp) (b : BookSheet) => b.name = s.1 ∧ GridHolds s.2 b.grid) sheets gs :=
  C77_book E c (namesFit_book (c := { c with object := fun _ _ => False }) hP hf h1 h2 h3 h4 h5) ho hc stream mode sheets h pre post

/-! ## Examples -/

/-- Exact numbers. -/
def exPyOps : PyOps where
  rnd := .flt
  pow := fun _ _ => .error .overflowError
  parse := fun _ => .error .valueError
  str := fun _ => []
  cmpText := fun _ _ _ => false
  odd := fun _ _ _ => .error .typeError

theorem exPyOps_ok : RndOk exPyOps := ⟨fun _ => trivial⟩

def exNamesCtx (whole v8 : Bool) : BookCtx :=
  { exObjBookCtx v8 with
    names := fun g => ∃ d, NameGroupIs v8 g d
    named := NameGroupsAre whole v8 (dget funcDefs) }

def exNamesEnv : BookEnv ObjSt NameSt where
  rnd := id
  codec := fun _ b => .ok (asciiText b)
  obj := handleObject
  obj0 := ⟨none, false⟩
  names := handleNames
  names0 := .init
  namesEnd := namesEpilogue (pyNum exPyOps)
  old := fun _ _ _ => .error .generic

theorem exNames_fits (v8 : Bool) :
    BookFits exNamesEnv { exNamesCtx true v8 with object := fun _ _ => False, names := fun _ => False, named := fun _ gs _ => gs = [] } where
  rnd := rfl
  codec := fun _ _ _ h => congrArg Except.ok (Option.some.inj h)
  latin := fun _ _ => rfl
  obj := fun _ _ h => h.elim
  names := ⟨fun gs s => gs = [] → s = .init, fun _ => rfl, fun _ h => h.elim, fun _ gs all h bv text s _ _ hs => by
    rw [hs h]
    rfl⟩

/-- A NAME record for a name of one letter. -/
def exNameRec (f : List UInt8) : XRec :=
  (0x18, leBytes 2 0 ++ [0, UInt8.ofNat 1] ++ leBytes 2 f.length ++ leBytes 2 0 ++ leBytes 2 0 ++ [0, 0, 0, 0] ++ [0, 0x6E] ++ f)

/-- A book of version 8: the sheet "S", SUPBOOK records for the book itself and for add-ins, the reference to its sheet,
and names with these formulas. -/
def exNameGlobals (offset : Nat) (fs : List (List UInt8)) : List XRec :=
  [(0x85, leBytes 4 offset ++ [0, 0] ++ [1, 0, 0x53]), (0x1AE, leBytes 2 1 ++ [1, 4] ++ []), (0x1AE, [1, 0, 1, 0x3A] ++ []),
   (0x23, [0, 0, 0, 0, 0, 0] ++ [1, 0, 0x66] ++ []), (0x17, leBytes 2 1 ++ xtiBytes [(0, 0, 0)])] ++ (fs.map exNameRec ++ [(0xA, [])])

def exNameStart (offset : Nat) (fs : List (List UInt8)) : List UInt8 :=
  recordBytes (0x809, exBof 0x600 5) ++ (exNameGlobals offset fs).flatMap recordBytes

def exNameBook (offset : Nat) (fs : List (List UInt8)) : List UInt8 :=
  exNameStart offset fs ++ (recordBytes (0x809, exBof 0x600 0x10) ++ recordBytes (0xA, []))

def exNameDs (fs : List (List UInt8)) : List NameRec :=
  [.supbook .own, .supbook .addIns, .externName, .sheets [(0, 0, 0)]] ++ fs.map fun f => .name ⟨false, 0, f⟩

theorem exString8 {lenlen : Nat} {b text : Bytes} {t : List Char} (h1 : (textUnits t).length < 256 ^ lenlen)
    (h3 : UnitBytes false (textUnits t) text) (hb : b = leBytes lenlen (textUnits t).length ++ [0] ++ text) : ExactString lenlen b t :=
  ⟨0, 0, 0, leBytes lenlen (textUnits t).length ++ [0], text, [],
    ⟨h1, by decide, by decide, fun _ => rfl, fun _ => rfl, by simp [Rich, Phonetic]⟩, h3, rfl, by rw [hb]; simp⟩

theorem exNameRec_is (tx : List UInt8 → Option (List Char)) (f : List UInt8) (hf : f.length < 65536) :
    NameRecIs true tx (.name ⟨false, 0, f⟩) (exNameRec f) [] := by
  have := NameRecIs.name (v8 := true) (tx := tx) (flags := 0) (key := 0) (n := 1) (fl := f.length) (ext := 0) (sheet := 0) (texts := [0, 0, 0, 0])
    (b := [0, 0x6E]) (raw := f) (by omega) (by omega) (by omega) (by omega) rfl
    (by unfold NameText; exact ⟨0, [0x6E], ['n'], .inl rfl, by decide, by unfold UnitBytes; decide, rfl⟩) (Nat.le_refl _) hf
  simpa [exNameRec] using this

/-- The items of the globals. -/
def exNameItems (offset : Nat) (fs : List (List UInt8)) (tx : List UInt8 → Option (List Char)) : List GItem :=
  .sheet ['S'] offset 0 :: ([(0x1AE, leBytes 2 1 ++ [1, 4] ++ []), (0x1AE, [1, 0, 1, 0x3A] ++ []),
   (0x23, [0, 0, 0, 0, 0, 0] ++ [1, 0, 0x66] ++ []), (0x17, leBytes 2 1 ++ xtiBytes [(0, 0, 0)])] ++ fs.map exNameRec).map fun r => .names ⟨tx, r, []⟩

theorem exNames_are (w whole : Bool) (obj : (List UInt8 → Option (List Char)) → List XRec → Prop) (offset : Nat) (ho : offset < 2 ^ 31) (fs : List (List UInt8)) (hfs : ∀ f ∈ fs, f.length < 65536) :
    GlobalRecs w { exNamesCtx whole true with object := obj } none (exNameGlobals offset fs)
      (exNameItems offset fs (pageText { exNamesCtx whole true with object := obj } none)) ∧
    Each (NameGroupIs true) (nameGroups (exNameItems offset fs (pageText { exNamesCtx whole true with object := obj } none))) (exNameDs fs) := by
  generalize htx : pageText { exNamesCtx whole true with object := obj } none = tx
  have step : ∀ {r : XRec} {d : NameRec} {rest : List XRec} {items : List GItem}, NameRecIs true tx d r [] →
      GlobalRecs w { exNamesCtx whole true with object := obj } none rest items →
      GlobalRecs w { exNamesCtx whole true with object := obj } none (r :: rest) (.names ⟨tx, r, []⟩ :: items) := by
    intro r d rest items hr h
    have := GlobalRecs.names (page := none) (r := r) (rs := []) (c := { exNamesCtx whole true with object := obj }) ⟨d, by rw [htx]; exact hr⟩ h
    rw [htx] at this
    exact this
  have r1 : NameRecIs true tx (.supbook .own) (0x1AE, leBytes 2 1 ++ [1, 4] ++ []) [] := .own rfl (by omega)
  have r2 : NameRecIs true tx (.supbook .addIns) (0x1AE, [1, 0, 1, 0x3A] ++ []) [] := .addIns rfl
  have r3 : NameRecIs true tx .externName (0x23, [0, 0, 0, 0, 0, 0] ++ [1, 0, 0x66] ++ []) [] :=
    .externName rfl rfl (exString8 (t := ['f']) (text := [0x66]) (by decide) (by unfold UnitBytes; decide) (by decide))
  have r4 : NameRecIs true tx (.sheets [(0, 0, 0)]) (0x17, leBytes 2 1 ++ xtiBytes [(0, 0, 0)]) [] :=
    .sheets (conts := []) (more := []) rfl (by decide) (by decide) (by decide) (by decide) (by simp)
  constructor
  · refine .sheet (kind := 0) ho (exString (lenlen := 1) (head := [1, 0]) (text := [0x53]) (by decide) (by decide) (by unfold UnitBytes; decide)) ?_
    refine step r1 (step r2 (step r3 (step r4 ?_)))
    clear step
    induction fs with
    | nil => exact .eof
    | cons f fs ih =>
      have := GlobalRecs.names (page := none) (r := exNameRec f) (rs := []) (c := { exNamesCtx whole true with object := obj })
        ⟨_, by rw [htx]; exact exNameRec_is tx f (hfs f (by simp))⟩ (ih fun f hf => hfs f (by simp [hf]))
      rw [htx] at this
      exact this
  · refine .cons r1 (.cons r2 (.cons r3 (.cons r4 ?_)))
    clear step
    induction fs with
    | nil => exact .nil
    | cons f fs ih => exact .cons (exNameRec_is tx f (hfs f (by simp))) (ih fun f hf => hfs f (by simp [hf]))

theorem exNameBook_is (w whole : Bool) (obj : (List UInt8 → Option (List Char)) → List XRec → Prop) {offset : Nat} (ho : offset < 2 ^ 31) {fs : List (List UInt8)} (hfs : ∀ f ∈ fs, f.length < 65536)
    (hoff : (exNameStart offset fs).length = offset) (hok : ∀ r ∈ exNameGlobals offset fs, RecordOk r)
    (h : NamesAre whole true (pageText { exNamesCtx whole true with object := obj } none) (dget funcDefs) (exNameDs fs) [(['S'], 0)]) :
    XlsBookIs w { exNamesCtx whole true with object := obj } (exNameBook offset fs) 0 [(['S'], [])] := by
  obtain ⟨h1, h2⟩ := exNames_are w whole obj offset ho fs hfs
  generalize htx : pageText { exNamesCtx whole true with object := obj } none = tx at h1 h2 h
  have hit : ∀ items, items = exNameItems offset fs tx → lastPage none items = none ∧ xfKeys items = [] ∧ lastMode 0 items = 0 ∧
      worksheets items = [(['S'], offset)] ∧ sheetKinds items = [(['S'], 0)] := by
    intro items e
    have : ∀ rs : List XRec, (∀ p, lastPage p (rs.map fun r => GItem.names ⟨tx, r, []⟩) = p) ∧ xfKeys (rs.map fun r => GItem.names ⟨tx, r, []⟩) = [] ∧
        (∀ m, lastMode m (rs.map fun r => GItem.names ⟨tx, r, []⟩) = m) ∧ worksheets (rs.map fun r => GItem.names ⟨tx, r, []⟩) = [] ∧
        sheetKinds (rs.map fun r => GItem.names ⟨tx, r, []⟩) = [] := by
      intro rs
      induction rs with
      | nil => exact ⟨fun _ => rfl, rfl, fun _ => rfl, rfl, rfl⟩
      | cons r rs ih => exact ⟨fun p => ih.1 p, ih.2.1, fun m => ih.2.2.1 m, ih.2.2.2.1, ih.2.2.2.2⟩
    obtain ⟨a1, a2, a3, a4, a5⟩ := this ([(0x1AE, leBytes 2 1 ++ [1, 4] ++ []), (0x1AE, [1, 0, 1, 0x3A] ++ []),
      (0x23, [0, 0, 0, 0, 0, 0] ++ [1, 0, 0x66] ++ []), (0x17, leBytes 2 1 ++ xtiBytes [(0, 0, 0)])] ++ fs.map exNameRec)
    subst e
    refine ⟨a1 none, a2, a3 0, ?_, ?_⟩
    · exact congrArg (List.cons (['S'], offset)) a4
    · exact congrArg (List.cons (['S'], 0)) a5
  obtain ⟨i1, i2, i3, i4, i5⟩ := hit _ rfl
  refine ⟨exBof 0x600 5, exNameGlobals offset fs, exNameItems offset fs tx, fun i => if i = 0 then some 2 else none,
    recordBytes (0x809, exBof 0x600 0x10) ++ recordBytes (0xA, []), by simp [exNameBook, exNameStart],
    ⟨by simp [exNamesCtx, exObjBookCtx, exBookCtx], by decide, [0, 0, 0, 0], rfl⟩, hok, h1, ?_, fun _ => ?_, ?_, i3.symm, ?_⟩
  · rw [i1, i5, htx]
    exact ⟨_, h2, h⟩
  · intro a k b hab
    have : k ∈ xfKeys (exNameItems offset fs tx) := by rw [hab, xfKeys_append]; simp [xfKeys]
    rw [i2] at this
    cases this
  · intro i typ
    unfold XfTypeIs
    rw [i2]
    constructor
    · intro h
      dsimp only at h
      split at h
      · rename_i h0
        exact .inr ⟨rfl, h0, (Option.some.inj h).symm⟩
      · cases h
    · rintro (⟨k, e, _⟩ | ⟨_, rfl, rfl⟩)
      · cases e
      · rfl
  · rw [i4]
    refine .cons ⟨rfl, exNameStart offset fs, 0x600, exBof 0x600 0x10, [(0xA, [])], [], by simp [exNameBook], hoff, ⟨by omega, by decide, [0, 0, 0, 0], rfl⟩,
      by unfold RecordOk; decide, .eof, ?_⟩ .nil
    intro row col v hv
    cases hv

/-- `n = S!A1`, `n = 2 + 3 * 4`, a name that is twice the second, and the sum of an area and a number. -/
def exGoodNames : List (List UInt8) :=
  [[0x3A, 0, 0, 0, 0, 0, 0], [0x1E, 2, 0, 0x1E, 3, 0, 0x1E, 4, 0, 5, 3], [0x23, 2, 0, 0, 0, 0x1E, 2, 0, 5],
   [0x25, 0, 0, 1, 0, 0, 0, 1, 0, 0x1E, 1, 0, 0x22, 2, 4, 0]]

theorem exGoodNames_are (tx : List UInt8 → Option (List Char)) :
    NamesAre true true tx (dget funcDefs) (exNameDs exGoodNames) [(['S'], 0)] := by
  have hn : nameDefs (exNameDs exGoodNames) = exGoodNames.map fun f => ⟨false, 0, f⟩ := rfl
  refine ⟨?_, fun o ho => (by rw [hn] at ho; simp at ho; obtain ⟨f, _, rfl⟩ := ho; simp),
    fun i => if i = 1 then some (0, [.num 3]) else none, ?_, ?_⟩
  · intro a b e _
    match a, e with
    | [], e => cases e
    | _ :: a, e =>
      obtain ⟨rfl, _⟩ := List.cons.inj e
      simp [supKinds]
  · intro i l ks h
    dsimp only at h
    split at h
    · rename_i h1
      subst h1
      decide
    · cases h
  · generalize hΓ : (fun i => if i = 1 then some (0, [.num 3]) else none : Levels) = Γ
    have h1 : Γ 1 = some (0, [.num 3]) := by rw [← hΓ]; rfl
    have e : ∀ n, n < 65536 → ∀ C, Leaf true C [.num 1] (0x1E :: leBytes 2 n) := fun n h C => .int h
    have f1 : ∀ l, Fmla true (fmlaCtx true tx (dget funcDefs) (exNameDs exGoodNames) Γ l) [[.num 3]] [0x1E, 2, 0, 0x1E, 3, 0, 0x1E, 4, 0, 5, 3] := fun l =>
      .rpn (.op (as := [.num 1]) (bs := [.num 2]) (.op (as := [.num 1]) (bs := [.num 1]) (ks := [.num 2])
        (.leaf (.leaf (.leaf .nil (e 2 (by omega) _)) (e 3 (by omega) _)) (e 4 (by omega) _))
        (by decide) (by decide) (fun _ => by unfold OpOk; decide)) (by decide) (by decide) (fun _ => by unfold OpOk; decide))
    intro i o hi
    rw [hn] at hi
    match i, hi with
    | 0, hi =>
      cases hi
      refine ⟨fun l ks _ h => (by rw [← hΓ] at h; cases h), fun _ => .inr ⟨0, [[.ref]], by omega, ?_⟩⟩
      refine .rpn (.leaf .nil (.cell3d (op := 0x3A) (sh := [0, 0]) (b := [0, 0, 0, 0]) (by unfold Token; decide) ?_ rfl))
      exact ⟨0, by omega, (fun s a b h1 h2 => by cases h1; cases h2), rfl⟩
    | 1, hi =>
      cases hi
      refine ⟨fun l ks _ h => ?_, fun h => by rw [h1] at h; simp at h⟩
      rw [h1] at h
      cases h
      exact ⟨by omega, .inl rfl, .inr ⟨by simp, f1 0⟩⟩
    | 2, hi =>
      cases hi
      refine ⟨fun l ks _ h => (by rw [← hΓ] at h; cases h), fun _ => .inr ⟨1, [[.unum, .num 4]], by omega, ?_⟩⟩
      refine .rpn (.op (as := [.unk, .num 3]) (bs := [.num 1]) (.leaf (.leaf .nil
        (.name (op := 0x23) (i := 1) (more := [0, 0]) (by unfold Token; decide) ⟨(by decide : 1 < (nameDefs (exNameDs exGoodNames)).length), by omega⟩ (fun _ => ?_) rfl)) (e 2 (by omega) _))
        (by decide) (by decide) (fun _ => by unfold OpOk; decide))
      simp [fmlaCtx, h1]
    | 3, hi =>
      cases hi
      refine ⟨fun l ks _ h => (by rw [← hΓ] at h; cases h), fun _ => .inr ⟨0, [[.unk]], by omega, ?_⟩⟩
      exact .rpn (.funcVar (args := [[.num 1], [.ref]]) (op := 0x22) (k := 2) (f := 4) (s := []) (n := 0) (m := 30)
        (.leaf (.leaf .nil (.area (op := 0x25) (b := [0, 0, 1, 0, 0, 0, 1, 0]) (by unfold Token; decide) rfl)) (e 1 (by omega) _))
        (by unfold Token; decide) (by omega) (by decide) (by decide)
        (by decide +kernel : dget funcDefs (4 % 32768) = some (0, 30)) rfl (by decide) (by decide) (by simp))

theorem exGoodBook_is : XlsBookIs true (exNamesCtx true true) (exNameBook 193 exGoodNames) 0 [(['S'], [])] :=
  exNameBook_is true true _ (by decide) (by decide) (by decide +kernel) (by unfold RecordOk; decide +kernel) (exGoodNames_are _)

example (pre post : List UInt8) : ∃ gs, openStream exNamesEnv false (pre ++ (exNameBook 193 exGoodNames ++ post)) pre.length = .ok (0, gs) ∧
    Each (fun (s : List Char × List CellOp) (b : BookSheet) => b.name = s.1 ∧ GridHolds s.2 b.grid) [(['S'], [])] gs :=
  C78_book exPyOps exPyOps_ok exNamesEnv (exNamesCtx true true) (exNames_fits true) rfl rfl rfl rfl rfl rfl rfl _ _ _ exGoodBook_is pre post

/-! ## Functions

Some functions with their least and largest numbers of arguments, so that theorem C78_names_partial is known to be
about formulas with them. -/

/-- From the documentation of the format: COUNT, IF, SUM, AVERAGE, MIN, MAX, ROW, NA, SIN, ROUND, INDEX, LEN, AND, OR, CHOOSE,
HLOOKUP, VLOOKUP, LEFT, SUBSTITUTE, INDIRECT, OFFSET, MATCH, COUNTIF, SUMIF, CONCATENATE. -/
def commonFuncs : List (Nat × Nat × Nat) :=
  [(0, 0, 30), (1, 2, 3), (4, 0, 30), (5, 1, 30), (6, 1, 30), (7, 1, 30), (8, 0, 1), (10, 0, 0), (15, 1, 1), (27, 2, 2), (29, 2, 4), (32, 1, 1),
   (36, 1, 30), (37, 1, 30), (100, 2, 30), (101, 3, 4), (102, 3, 4), (115, 1, 2), (120, 3, 4), (148, 1, 2), (78, 3, 5), (64, 2, 3), (346, 2, 2),
   (345, 2, 3), (336, 0, 30)]

theorem C78_functions : ∀ p ∈ commonFuncs, dget funcDefs p.1 = some p.2 := by decide +kernel

/-! ## Names that keep a book from being read -/

/-- The formulas of names, one to a book, and the exceptions: `1 / 0`; `"a" + 1`; `"a" < 1`; `-"a"`; `-A1`; `CHOOSE(A1 + 1, 1)`; `1 + SUM()`;
`SUM({...})`, an array of constants; a name for itself; the union of an area with a union; a range from an error, and its sum with 1. -/
def exBadNames : List (List UInt8 × Exc) :=
  [([0x1E, 1, 0, 0x1E, 0, 0, 6], .zeroDivisionError),
   ([0x17, 1, 0, 0x61, 0x1E, 1, 0, 3], .valueError),
   ([0x17, 1, 0, 0x61, 0x1E, 1, 0, 9], .typeError),
   ([0x17, 1, 0, 0x61, 0x13], .typeError),
   ([0x24, 0, 0, 0, 0, 0x13], .typeError),
   ([0x44, 0, 0, 0, 0, 0x1E, 1, 0, 3, 0x1E, 1, 0, 0x22, 2, 100, 0], .typeError),
   ([0x1E, 1, 0, 0x22, 0, 4, 0, 3], .assertionError),
   ([0x20, 0, 0, 0, 0, 0, 0, 0, 0x22, 1, 4, 0], .generic),
   ([0x23, 1, 0, 0, 0], .xlrdError),
   ([0x24, 0, 0, 0, 0, 0x24, 0, 0, 0, 0, 0x24, 0, 0, 0, 0, 0x10, 0x10], .assertionError),
   ([0x1C, 0, 0x24, 0, 0, 0, 0, 0x11, 0x1E, 1, 0, 3], .attributeError)]

theorem exBadNames_fmla (C : FmlaCtx) (h8 : C.v8 = true) (hc : C.count = 1) (hf : C.funcs = dget funcDefs) :
    ∀ p ∈ exBadNames, ∃ s, Fmla false C s p.1 := by
  have e : ∀ n, n < 65536 → Leaf false C [.num 1] (0x1E :: leBytes 2 n) := fun n h => .int h
  have a : Leaf false C [.text] [0x17, 1, 0, 0x61] :=
    .text h8 (exString8 (t := ['a']) (text := [0x61]) (by decide) (by unfold UnitBytes; decide) (by decide))
  have c : Leaf false C [.ref] [0x24, 0, 0, 0, 0] := .cell (op := 0x24) (b := [0, 0, 0, 0]) (by unfold Token; decide) (by rw [h8]; rfl)
  have cv : Leaf false C [.unk] [0x44, 0, 0, 0, 0] := .cell (op := 0x44) (b := [0, 0, 0, 0]) (by unfold Token; decide) (by rw [h8]; rfl)
  have op : ∀ {s b as bs}, Rpn false C (bs :: as :: s) b → ∀ o : UInt8, 3 ≤ o.toNat → o.toNat ≤ 0x11 → Rpn false C ([.unk] :: s) (b ++ [o]) :=
    fun h o h1 h2 => .op h h1 h2 (fun h => nomatch h)
  intro p hp
  simp only [exBadNames, List.mem_cons, List.not_mem_nil, or_false] at hp
  rcases hp with rfl | rfl | rfl | rfl | rfl | rfl | rfl | rfl | rfl | rfl | rfl
  · exact ⟨_, .rpn (op (.leaf (.leaf .nil (e 1 (by omega))) (e 0 (by omega))) 6 (by decide) (by decide))⟩
  · exact ⟨_, .rpn (op (.leaf (.leaf .nil a) (e 1 (by omega))) 3 (by decide) (by decide))⟩
  · exact ⟨_, .rpn (op (.leaf (.leaf .nil a) (e 1 (by omega))) 9 (by decide) (by decide))⟩
  · exact ⟨_, .rpn (.sign (ks := []) (op := 0x13) (.leaf .nil a) (by decide) (fun h => nomatch h))⟩
  · exact ⟨_, .rpn (.sign (ks := []) (op := 0x13) (.leaf .nil c) (by decide) (fun h => nomatch h))⟩
  · exact ⟨_, .rpn (.choose (args := [[.num 1]]) (index := [.unk]) (op := 0x22) (k := 2) (f := 100) (n := 2) (m := 30) (s := [])
      (ks := [.unk, .num 1])
      (.leaf (op (.leaf (.leaf .nil cv) (e 1 (by omega))) 3 (by decide) (by decide)) (e 1 (by omega)))
      (by unfold Token; decide) (by omega) (by decide) (by rw [hf]; decide +kernel) (by decide) (by decide) (by simp) rfl
      (fun h => nomatch h) (by rintro x (h | ⟨_, h⟩) <;> simp_all))⟩
  · exact ⟨_, .rpn (op (.funcVar0 (op := 0x22) (k := 0) (f := 4) (m := 30) (.leaf .nil (e 1 (by omega))) (fun h => nomatch h) (by unfold Token; decide)
      (by omega) (by decide) (by decide) (by rw [hf]; decide +kernel) rfl) 3 (by decide) (by decide))⟩
  · exact ⟨_, .rpn (.funcVar (args := [[.unk]]) (op := 0x22) (k := 1) (f := 4) (s := []) (n := 0) (m := 30)
      (.array (op := 0x20) (more := [0, 0, 0, 0, 0, 0, 0]) .nil rfl (by unfold Token; decide) rfl)
      (by unfold Token; decide) (by omega) (by decide) (by decide) (by rw [hf]; decide +kernel) rfl (by decide) (by decide) (by simp))⟩
  · exact ⟨_, .rpn (.leaf .nil (.name (op := 0x23) (i := 0) (ks := []) (more := [0, 0]) (by unfold Token; decide) ⟨by omega, by omega⟩
      (fun h => nomatch h) (by rw [h8]; rfl)))⟩
  · exact ⟨_, .rpn (op (op (.leaf (.leaf (.leaf .nil c) c) c) 0x10 (by decide) (by decide)) 0x10 (by decide) (by decide))⟩
  · exact ⟨_, .rpn (op (.leaf (op (.leaf (.leaf .nil (.error (x := 0) (by decide))) c) 0x11 (by decide) (by decide)) (e 1 (by omega))) 3
      (by decide) (by decide))⟩

theorem exBadNames_are (tx : List UInt8 → Option (List Char)) :
    ∀ p ∈ exBadNames, NamesAre false true tx (dget funcDefs) (exNameDs [p.1]) [(['S'], 0)] := by
  intro p hp
  refine ⟨?_, fun o ho _ => ?_, fun _ => none, (fun _ _ _ h => by cases h), ?_⟩
  · intro a b e _
    match a, e with
    | [], e => cases e
    | _ :: a, e =>
      obtain ⟨rfl, _⟩ := List.cons.inj e
      simp [supKinds]
  · have : nameDefs (exNameDs [p.1]) = [⟨false, 0, p.1⟩] := rfl
    rw [this] at ho
    simp only [List.mem_cons, List.not_mem_nil, or_false] at ho
    exact .inl (by rw [ho])
  · intro i o hi
    refine ⟨(fun _ _ h => by cases h), fun _ => .inr ?_⟩
    match i, hi with
    | 0, hi =>
      cases hi
      obtain ⟨s, hs⟩ := exBadNames_fmla (fmlaCtx true tx (dget funcDefs) (exNameDs [p.1]) (fun _ => none) 0) rfl rfl rfl p hp
      exact ⟨0, s, by omega, hs⟩
    | i + 1, hi => cases hi

/-- Each of these names makes the book unreadable: nothing of its sheet can be had. -/
theorem C78_unreadable : ∀ p ∈ exBadNames,
    (∀ w obj, XlsBookIs w { exNamesCtx false true with object := obj } (exNameBook (exNameStart 0 [p.1]).length [p.1]) 0 [(['S'], [])]) ∧
    openStream exNamesEnv false (exNameBook (exNameStart 0 [p.1]).length [p.1]) 0 = .error p.2 := by
  intro p hp
  have h1 : ∀ p ∈ exBadNames, (exNameStart (exNameStart 0 [p.1]).length [p.1]).length = (exNameStart 0 [p.1]).length ∧
      (exNameStart 0 [p.1]).length < 2 ^ 31 ∧ (∀ f ∈ [p.1], f.length < 65536) ∧
      (∀ r ∈ exNameGlobals (exNameStart 0 [p.1]).length [p.1], r.1 < 65536 ∧ r.2.length < 65536) ∧
      (match openStream exNamesEnv false (exNameBook (exNameStart 0 [p.1]).length [p.1]) 0 with
        | .ok _ => false
        | .error e => e = p.2) = true := by decide +kernel
  obtain ⟨a1, a2, a3, a4, a5⟩ := h1 p hp
  refine ⟨fun w obj => exNameBook_is w false obj a2 a3 a1 a4 (exBadNames_are _ p hp), ?_⟩
  split at a5
  · cases a5
  · rename_i e he
    rw [he, of_decide_eq_true a5]

theorem C78_counterexample : ¬ NamesRead false := by
  intro h
  obtain ⟨h1, h2⟩ := C78_unreadable ([0x1E, 1, 0, 0x1E, 0, 0, 6], .zeroDivisionError) (by decide)
  have hf : BookFits exNamesEnv { exNamesCtx false true with names := fun _ => False, named := fun _ gs _ => gs = [] } :=
    ⟨rfl, (exNames_fits true).codec, (exNames_fits true).latin, (fun tx rs hr bv text hb ht s after => objectGroup_steps hb ht hr s after), (exNames_fits true).names⟩
  obtain ⟨gs, e, _⟩ := h ObjSt exPyOps exPyOps_ok exNamesEnv (exNamesCtx false true) hf rfl rfl rfl rfl rfl _ _ _ (h1 _ _) [] []
  simp only [List.nil_append, List.append_nil, List.length_nil] at e
  have := h2.symm.trans e
  cases this

end CP
