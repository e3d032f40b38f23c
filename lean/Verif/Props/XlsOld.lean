import Verif.Lemmas.XlsOld
/-!
# C81: .xls files of Excel 2, 3 and 4
-/

namespace CP
open Spec

/-- C81: a file of Excel 2, 3 or 4 is read: a single sheet (named "Sheet 1", since it has no name in the file) or a book of
Excel 4, whose sheets have their names; each sheet has the cells that its records stand for, and numbers are dates if the
format of the cell says so. -/
def OldFileRead (whole : Bool) : Prop :=
  ∀ (σ τ : Type) (E : BookEnv σ τ) (c : BookCtx), BookFits E c → c.v8 = false →
    ∀ (file : List UInt8) (mode : Nat) (sheets : List (List Char × List CellOp)), OldFileIs whole c file mode sheets →
      ∀ post : List UInt8, ∃ gs, openStream E.withOld false (file ++ post) 0 = .ok (mode, gs) ∧
        Each (fun (s : List Char × List CellOp) (b : BookSheet) => b.name = s.1 ∧ GridHolds s.2 b.grid) sheets gs

section

variable {σ τ : Type} {E : BookEnv σ τ} {c : BookCtx}

theorem baseInv_init (h8 : c.v8 = false) : BaseInv c none 0 (Globals.init E.names0) := by
  refine ⟨?_, fun u hu => (nomatch hu), rfl, .inl rfl, rfl⟩
  unfold EncOk
  rw [if_neg (by rw [h8]; simp)]
  exact ⟨rfl, fun n hn => (nomatch hn), .inr ⟨rfl, rfl⟩⟩

theorem openStream_old {mem : Bytes} {base pos : Int} {bv : Nat} {ragged : Bool} (h : getbof mem base 5 = .ok (bv, pos)) (h0 : bv ≠ 0)
    (h1 : bv < 50) : openStream E.withOld ragged mem base = oldBook E bv mem base := by
  unfold openStream
  rw [h]
  dsimp only
  rw [if_neg h0, if_pos h1]
  rfl

end

/-- C81 for files where the texts of formulas have one byte for each character (as all have in code pages of one byte). -/
theorem C81_old_partial : OldFileRead true := by
  intro σ τ E c hf h8 file mode sheets h post
  rcases h with ⟨v, ops, page, ⟨version, bof, rs, rfl, hbof, hrs, hold, hfit⟩, rfl⟩ | ⟨version, bof, recs, rfl, hbof, hrecs⟩
  · have hop : oldBof v = 0x9 ∨ oldBof v = 0x209 ∨ oldBof v = 0x409 := by cases v <;> simp [oldBof]
    have b1 := fun rqd => getbof_old (rqd := rqd) hop hbof (.inl rfl) [] (rs.flatMap recordBytes ++ post)
    generalize hbv : (if oldBof v = 0x9 then 21 else if oldBof v = 0x209 then 30 else if (0x10 : Nat) = 0x100 then 45 else 40) = bv at b1
    have hver : VerOk v bv ∧ bv ≠ 45 ∧ bv ≠ 0 ∧ bv < 50 := by
      subst hbv
      cases v <;> simp [oldBof, VerOk]
    obtain ⟨G', g, hread, hg, hbase, _⟩ := readOldSheet_sound hf h8 hver.1 (baseInv_init (E := E) h8) rfl rfl rfl hrs hold hfit
      (recordBytes (oldBof v, bof)) post
    have hmem : recordBytes (oldBof v, bof) ++ rs.flatMap recordBytes ++ post =
      recordBytes (oldBof v, bof) ++ (rs.flatMap recordBytes ++ post) := by simp
    simp only [List.nil_append, List.length_nil] at b1
    rw [hmem]
    have e : oldBook E bv (recordBytes (oldBof v, bof) ++ (rs.flatMap recordBytes ++ post)) 0 =
        .ok (mode, [⟨"Sheet 1".toList, g⟩]) := by
      unfold oldBook
      rw [if_neg hver.2.1, show (0 : Int) = ((0 : Nat) : Int) from rfl, b1]
      dsimp only
      rw [hread]
      show Except.ok _ = _
      rw [← hbase.mode]
    exact ⟨_, (openStream_old (b1 5) hver.2.2.1 hver.2.2.2).trans e, .cons ⟨rfl, hg⟩ .nil⟩
  · have b1 := getbof_old (rqd := 5) (.inr (.inr rfl)) hbof (.inr ⟨rfl, rfl, rfl⟩) [] (recs ++ post)
    rw [if_neg (by omega), if_neg (by omega), if_pos rfl] at b1
    simp only [List.nil_append, List.length_nil] at b1
    have hinit : Old4Inv E c ⟨none, 0, false, [], 0⟩ ⟨Globals.init E.names0, 0, none, []⟩ :=
      ⟨baseInv_init h8, fun h => (nomatch h), rfl, rfl, rfl, rfl⟩
    obtain ⟨st', gs, hl, hm, hd, he⟩ := loop4_sound hf h8 (base := 0) hrecs ((recordBytes (0x409, bof) ++ (recs ++ post)).length + 1) _
      (recordBytes (0x409, bof)) post (by simp; omega) hinit
    rw [List.append_assoc]
    refine ⟨gs, (openStream_old b1 (by omega) (by omega)).trans ?_, he⟩
    unfold oldBook
    rw [if_pos rfl, b1]
    dsimp only
    have hl' : loop4 E ((0 : Nat) : Int) (recordBytes (0x409, bof) ++ (recs ++ post)) ((recordBytes (0x409, bof) ++ (recs ++ post)).length + 1)
        ⟨Globals.init E.names0, 0, none, []⟩ (recordBytes (0x409, bof)).length = .ok st' := hl
    rw [hl']
    show Except.ok (st'.G.datemode, st'.done) = _
    rw [hm, hd]
    rfl

/-! ## Examples -/

def exOldBof (typ : Nat) : List UInt8 := leBytes 2 0 ++ leBytes 2 typ ++ [0, 0]

theorem exOldBof_is {typ : Nat} : BofIs 0 typ (exOldBof typ) := ⟨by omega, by simp [exOldBof, leBytes_length], [0, 0], rfl⟩

/-- A book with a codec of ASCII. -/
def AsciiCtx (c : BookCtx) : Prop := ∀ name b, c.codec name b = some (asciiText b)

theorem exOldText {c : BookCtx} (hc : AsciiCtx c) (page : Option Nat) (t : Bytes) (h : t.length < 256) :
    OldTextIs c page (leBytes 1 t.length ++ t ++ []) (asciiText t) := ⟨t, [], h, rfl, hc _ _⟩

theorem exBook_ascii : AsciiCtx (exBookCtx false) := fun _ _ => rfl

/-- Excel 2: formats "0" and "yyyy" and XF records for them; IXFE 1; the integer 7 with XF 0, the date 1.0 with XF 1 (by
number 63), the text "a", a formula with the text "bc". -/
def exOld2Recs : List XRec :=
  [(0x0, List.replicate 8 0), (0x42, leBytes 2 1252 ++ []), (0x22, leBytes 2 1 ++ []), (0x1E, leBytes 1 1 ++ [0x30] ++ []),
   (0x1E, leBytes 1 4 ++ [0x79, 0x79, 0x79, 0x79] ++ []), (0x43, [0, 0, 0, 0]), (0x43, [0, 0, 0x41, 0]),
   (0x2, leBytes 2 0 ++ leBytes 2 0 ++ [0x40, 0, 0] ++ leBytes 2 7), (0x44, leBytes 2 1),
   (0x3, leBytes 2 0 ++ leBytes 2 1 ++ [0x3F, 0, 0] ++ leBytes 8 0x3FF0000000000000),
   (0x4, leBytes 2 1 ++ leBytes 2 0 ++ [0, 0, 0] ++ (leBytes 1 1 ++ [0x61] ++ [])),
   (0x6, leBytes 2 1 ++ leBytes 2 1 ++ [0, 0, 0] ++ [0, 0, 0, 0, 0, 0, 0xFF, 0xFF] ++ [0]), (0x7, leBytes 1 2 ++ [0x62, 0x63]), (0xA, [])]

def exOld2 : List UInt8 := recordBytes (0x9, exOldBof 0x10) ++ exOld2Recs.flatMap recordBytes

def exOld2Ops : List CellOp :=
  [.put 0 0 ⟨2, .flt 7, 0⟩, .put 0 1 ⟨3, .flt 1, 0⟩, .put 1 0 ⟨1, .str ['a'], 0⟩, .put 1 1 ⟨1, .str ['b', 'c'], 0⟩]

theorem exOld_single (s : OldInfo) : SingleByte (oldCtx (exBookCtx false) s fun _ => none) := by
  refine ⟨fun b => some (Char.ofNat b.toNat), fun b => ?_⟩
  show some (asciiText b) = _
  induction b with
  | nil => rfl
  | cons x b ih => rw [List.mapM_cons, ← ih]; rfl

theorem exOld_page : PageOk (exBookCtx false) 1252 := by
  unfold PageOk pageName
  simp [exBookCtx, AsciiOk]

theorem exYear : FormatType "yyyy".toList 3 := .inl ⟨(C52_date_format _).1 (by decide +kernel), rfl⟩
theorem exZero : FormatType "0".toList 2 := .inr ⟨fun h => absurd ((C52_date_format _).2 h) (by decide +kernel), rfl⟩

theorem exOld2_is : OldFileIs true (exBookCtx false) exOld2 1 [("Sheet 1".toList, exOld2Ops)] := by
  refine .inl ⟨.v2, exOld2Ops, some 1252, ⟨0, exOldBof 0x10, exOld2Recs, rfl, exOldBof_is, by unfold RecordOk; decide +kernel, ?_, ?_⟩, rfl⟩
  · refine .dimensions (v := .v2) (by simp) (.page (by omega) exOld_page (.mode (.inr rfl) ?_))
    refine .format (code := "0".toList) (fun _ => rfl) ⟨rfl, exOldText exBook_ascii _ [0x30] (by decide)⟩ ?_
    refine .format (code := "yyyy".toList) (fun _ => rfl) ⟨rfl, exOldText exBook_ascii _ [0x79, 0x79, 0x79, 0x79] (by decide)⟩ ?_
    refine .xf (key := 0) (fun _ => rfl) ⟨rfl, 0, 0, 0, 0, rfl, rfl⟩ (by decide) ?_
    refine .xf (key := 1) (fun _ => rfl) ⟨rfl, 0, 0, 0x41, 0, rfl, rfl⟩ (by decide) ?_
    refine .cells2 (rs := [_]) (ops := [_]) rfl (.integer (n := 7)
      ⟨by omega, by omega, [0x40, 0, 0], ⟨0x40, 0, 0, rfl, .inl ⟨by simp, by decide, .inl ⟨0, _, rfl, rfl, exZero⟩⟩⟩, rfl⟩ (by omega)) ?_
    refine .ixfe (by omega) ?_
    refine .cells2 (rs := [_]) (ops := [_]) rfl (.number (n := 0x3FF0000000000000)
      ⟨by omega, by omega, [0x3F, 0, 0], ⟨0x3F, 0, 0, rfl, .inr (.inl ⟨by simp, by decide, 1, rfl, .inl ⟨1, _, rfl, rfl, exYear⟩⟩)⟩, rfl⟩
      (by omega) ((C65_double (by omega) _).1 (by decide +kernel))) ?_
    refine .cells2 (rs := [_]) (ops := [_]) rfl (.label (t := ['a'])
      ⟨by omega, by omega, [0, 0, 0], ⟨0, 0, 0, rfl, .inl ⟨by simp, by decide, .inl ⟨0, _, rfl, rfl, exZero⟩⟩⟩, rfl⟩
      (exOldText exBook_ascii _ [0x61] (by decide))) ?_
    refine .cells2 (rs := [_, _]) (ops := [_]) rfl (.fmlaText (more := [0]) (between := []) (first := leBytes 1 2 ++ [0x62, 0x63]) (conts := []) (t := ['b', 'c'])
      ⟨by omega, by omega, [0, 0, 0], ⟨0, 0, 0, rfl, .inl ⟨by simp, by decide, .inl ⟨0, _, rfl, rfl, exZero⟩⟩⟩, rfl⟩ (by simp) (.inl rfl)
      ⟨2, [0x62, 0x63], [0x62, 0x63], by omega, rfl, .last (b := [_, _]), rfl, fun _ => .last rfl rfl⟩) ?_
    exact .eof
  · intro row col x hx
    simp only [exOld2Ops, List.mem_cons, CellOp.put.injEq, List.not_mem_nil, or_false] at hx
    omega

example : ∃ gs, openStream exBookEnv.withOld false (exOld2 ++ [1, 2, 3]) 0 = .ok (1, gs) ∧
    Each (fun (s : List Char × List CellOp) (b : BookSheet) => b.name = s.1 ∧ GridHolds s.2 b.grid) [("Sheet 1".toList, exOld2Ops)] gs :=
  C81_old_partial Unit Unit exBookEnv _ (exBook_fits false) rfl _ _ _ exOld2_is [1, 2, 3]

/-- Excel 2.0, without XF records: the format is in the cell. -/
def exOld20Recs : List XRec :=
  [(0x1E, leBytes 1 1 ++ [0x30] ++ []), (0x1E, leBytes 1 4 ++ [0x79, 0x79, 0x79, 0x79] ++ []),
   (0x2, leBytes 2 0 ++ leBytes 2 0 ++ [0x40, 0xC1, 0] ++ leBytes 2 7), (0x2, leBytes 2 0 ++ leBytes 2 1 ++ [0, 0, 0] ++ leBytes 2 8), (0xA, [])]

example : OldFileIs true (exBookCtx false) (recordBytes (0x9, exOldBof 0x10) ++ exOld20Recs.flatMap recordBytes) 0
    [("Sheet 1".toList, [.put 0 0 ⟨3, .flt 7, 0⟩, .put 0 1 ⟨2, .flt 8, 0⟩])] := by
  refine .inl ⟨.v2, _, none, ⟨0, exOldBof 0x10, exOld20Recs, rfl, exOldBof_is, by unfold RecordOk; decide +kernel, ?_, ?_⟩, rfl⟩
  · refine .format (code := "0".toList) (fun _ => rfl) ⟨rfl, exOldText exBook_ascii _ [0x30] (by decide)⟩ ?_
    refine .format (code := "yyyy".toList) (fun _ => rfl) ⟨rfl, exOldText exBook_ascii _ [0x79, 0x79, 0x79, 0x79] (by decide)⟩ ?_
    refine .cells2 (rs := [_]) (ops := [_]) rfl (.integer (n := 7)
      ⟨by omega, by omega, [0x40, 0xC1, 0], ⟨0x40, 0xC1, 0, rfl, .inr (.inr ⟨rfl, by decide, .inl ⟨_, rfl, exYear⟩⟩)⟩, rfl⟩ (by omega)) ?_
    refine .cells2 (rs := [_]) (ops := [_]) rfl (.integer (n := 8)
      ⟨by omega, by omega, [0, 0, 0], ⟨0, 0, 0, rfl, .inr (.inr ⟨rfl, by decide, .inl ⟨_, rfl, exZero⟩⟩)⟩, rfl⟩ (by omega)) ?_
    exact .eof
  · intro row col x hx
    simp only [List.mem_cons, CellOp.put.injEq, List.not_mem_nil, or_false] at hx
    omega

theorem exOldXf {s : OldInfo} (h1 : s.xfs = [1]) (h2 : s.formats = ["0".toList, "yyyy".toList]) (i typ : Nat) :
    (if i = 0 then some 3 else none) = some typ ↔ OldXfType s i typ := by
  unfold OldXfType
  rw [h1, h2]
  constructor
  · intro h
    split at h
    · rename_i hi
      cases Option.some.inj h
      subst hi
      exact .inl ⟨1, _, rfl, rfl, exYear⟩
    · cases h
  · rintro (⟨k, code, hk, hc, ht⟩ | ⟨h, _⟩)
    · match i with
      | 0 =>
        cases Option.some.inj hk
        cases Option.some.inj hc
        rcases ht with ⟨_, rfl⟩ | ⟨hn, _⟩
        · rfl
        · exact absurd ((C52_date_format _).1 (by decide +kernel)) hn
      | i + 1 => cases hk
    · cases h

/-- Excel 3 and 4: formats, one XF record for dates, the date 1.0. -/
def exOld34Recs (v4 : Bool) : List XRec :=
  [if v4 then (0x41E, [0, 0] ++ (leBytes 1 1 ++ [0x30] ++ [])) else (0x1E, leBytes 1 1 ++ [0x30] ++ []),
   if v4 then (0x41E, [0, 0] ++ (leBytes 1 4 ++ [0x79, 0x79, 0x79, 0x79] ++ [])) else (0x1E, leBytes 1 4 ++ [0x79, 0x79, 0x79, 0x79] ++ []),
   (if v4 then 0x443 else 0x243, 0 :: 1 :: List.replicate 10 0), (0x200, List.replicate 8 0),
   (0x203, leBytes 2 0 ++ leBytes 2 0 ++ leBytes 2 0 ++ leBytes 8 0x3FF0000000000000 ++ []), (0xA, [])]

def exOld34 (v4 : Bool) : List UInt8 :=
  recordBytes (if v4 then 0x409 else 0x209, exOldBof 0x10) ++ (exOld34Recs v4).flatMap recordBytes

theorem exOld34_sheet {c : BookCtx} (hc : AsciiCtx c) (v4 : Bool) (page : Option Nat) (mode : Nat) : OldSheetIs true c (if v4 then .v4 else .v3)
    ⟨page, mode, [], [], none⟩ (exOld34 v4) [.put 0 0 ⟨3, .flt 1, 0⟩] page mode := by
  refine ⟨0, exOldBof 0x10, exOld34Recs v4, by cases v4 <;> rfl, exOldBof_is, by unfold RecordOk; cases v4 <;> decide +kernel, ?_, ?_⟩
  · refine .format (code := "0".toList) (by cases v4 <;> simp) ?_ ?_
    · cases v4
      · exact ⟨rfl, exOldText hc _ [0x30] (by decide)⟩
      · exact ⟨rfl, [0, 0], _, rfl, rfl, exOldText hc _ [0x30] (by decide)⟩
    refine .format (code := "yyyy".toList) (by cases v4 <;> simp) ?_ ?_
    · cases v4
      · exact ⟨rfl, exOldText hc _ [0x79, 0x79, 0x79, 0x79] (by decide)⟩
      · exact ⟨rfl, [0, 0], _, rfl, rfl, exOldText hc _ [0x79, 0x79, 0x79, 0x79] (by decide)⟩
    refine .xf (key := 1) (by cases v4 <;> simp) ?_ (by simp) ?_
    · cases v4 <;> exact ⟨rfl, 0, 1, _, rfl, by simp, rfl⟩
    have hd : ∀ rest : List XRec, (0x200, List.replicate 8 (0 : UInt8)) :: rest =
      (if (if v4 then OldVer.v4 else .v3) = .v2 then 0x0 else 0x200, List.replicate 8 0) :: rest := by cases v4 <;> simp
    rw [hd]
    refine .dimensions (by simp) ?_
    refine .cells (rs := [_]) (ops := [_]) (xfType := fun i => if i = 0 then some 3 else none) (by cases v4 <;> simp) (exOldXf rfl rfl)
      (.number (more := []) (exHead 0 0 0 (by omega) (by omega) (by omega)) (by omega)
        ((C65_double (by omega) _).1 (by decide +kernel)) rfl) ?_
    exact .eof
  · intro row col x hx
    simp only [List.mem_cons, CellOp.put.injEq, List.not_mem_nil, or_false] at hx
    omega

example (v4 : Bool) : OldFileIs true (exBookCtx false) (exOld34 v4) 0 [("Sheet 1".toList, [.put 0 0 ⟨3, .flt 1, 0⟩])] :=
  .inl ⟨_, _, none, exOld34_sheet exBook_ascii v4 none 0, rfl⟩

/-- A book of Excel 4 with the sheets "A" and "B"; there are 3 bytes of no matter after the first. -/
def exOld4W : List UInt8 :=
  recordBytes (0x409, exOldBof 0x100) ++ (recordBytes (0x42, leBytes 2 1252 ++ []) ++ (recordBytes (0x8E, [0, 0, 0, 0]) ++
    (recordBytes (0x85, leBytes 1 1 ++ [0x41] ++ []) ++ (recordBytes (0x85, leBytes 1 1 ++ [0x42] ++ []) ++
      (recordBytes (0x8F, leBytes 4 (exOld34 true ++ [7, 7, 7]).length ++ (leBytes 1 1 ++ [0x41] ++ [])) ++ (exOld34 true ++ [7, 7, 7] ++
        (recordBytes (0x8F, leBytes 4 (exOld34 true ++ []).length ++ (leBytes 1 1 ++ [0x42] ++ [])) ++ (exOld34 true ++ [] ++
          recordBytes (0xA, [])))))))))

theorem exOld4W_is : OldFileIs true (exBookCtx false) exOld4W 0
    [(['A'], [.put 0 0 ⟨3, .flt 1, 0⟩]), (['B'], [.put 0 0 ⟨3, .flt 1, 0⟩])] := by
  refine .inr ⟨0, exOldBof 0x100, _, rfl, exOldBof_is, ?_⟩
  refine .page (by unfold RecordOk; decide +kernel) (by omega) exOld_page (.offset rfl ?_)
  refine .bound (name := ['A']) (by unfold RecordOk; decide +kernel) rfl (exOldText exBook_ascii _ [0x41] (by decide)) ?_
  refine .bound (name := ['B']) (by unfold RecordOk; decide +kernel) rfl (exOldText exBook_ascii _ [0x42] (by decide)) ?_
  refine .sheet (by unfold RecordOk; decide +kernel) (by decide +kernel) (exOldText exBook_ascii _ [0x41] (by decide)) rfl (exOld34_sheet exBook_ascii true _ _) ?_
  refine .sheet (by unfold RecordOk; decide +kernel) (by decide +kernel) (exOldText exBook_ascii _ [0x42] (by decide)) rfl (exOld34_sheet exBook_ascii true _ _) ?_
  exact .eof (by unfold RecordOk; decide +kernel) rfl trivial

example : ∃ gs, openStream exBookEnv.withOld false (exOld4W ++ []) 0 = .ok (0, gs) ∧
    Each (fun (s : List Char × List CellOp) (b : BookSheet) => b.name = s.1 ∧ GridHolds s.2 b.grid)
      [(['A'], [.put 0 0 ⟨3, .flt 1, 0⟩]), (['B'], [.put 0 0 ⟨3, .flt 1, 0⟩])] gs :=
  C81_old_partial Unit Unit exBookEnv _ (exBook_fits false) rfl _ _ _ exOld4W_is []

/-! ## The limit -/

/-- A code page where the bytes 0x82 0xA0 are one character. -/
def exKana (b : List UInt8) : List Char := if b = [0x82, 0xA0] then ['あ'] else asciiText b

def exKanaCtx : BookCtx := { exBookCtx false with codec := fun _ b => some (exKana b) }
def exKanaEnv : BookEnv Unit Unit := { exBookEnv with codec := fun _ b => .ok (exKana b) }

theorem exKana_ascii (name : List Char) : AsciiOk exKanaCtx name := by
  intro text h
  show some (exKana text) = _
  unfold exKana
  split
  · rename_i e
    subst e
    exact absurd (h 0x82 (by simp)) (by decide)
  · rfl

theorem exKana_fits : BookFits exKanaEnv exKanaCtx where
  rnd := rfl
  codec := fun _ b t h => congrArg Except.ok (Option.some.inj h)
  latin := exKana_ascii _
  obj := fun _ _ h => h.elim
  names := ⟨fun _ _ => True, trivial, fun _ h => h.elim, fun _ _ _ _ _ _ _ _ _ _ => rfl⟩

/-- A formula with this text. -/
def exKanaRecs : List XRec :=
  [(0x42, leBytes 2 932 ++ []),
   (0x6, leBytes 2 0 ++ leBytes 2 0 ++ [0, 0, 0] ++ [0, 0, 0, 0, 0, 0, 0xFF, 0xFF] ++ [0]), (0x7, leBytes 1 2 ++ [0x82, 0xA0]), (0xA, [])]

def exKanaFile : List UInt8 := recordBytes (0x9, exOldBof 0x10) ++ exKanaRecs.flatMap recordBytes

theorem exKana_is : OldFileIs false exKanaCtx exKanaFile 0 [("Sheet 1".toList, [.put 0 0 ⟨1, .str ['あ'], 0⟩])] := by
  refine .inl ⟨.v2, _, some 932, ⟨0, exOldBof 0x10, exKanaRecs, rfl, exOldBof_is, by unfold RecordOk; decide +kernel, ?_, ?_⟩, rfl⟩
  · refine .page (by omega) ?_ ?_
    · unfold PageOk
      rw [show pageName 932 = some "cp932".toList by decide +kernel]
      exact .inr (exKana_ascii _)
    refine .cells2 (rs := [_, _]) (ops := [_]) rfl (.fmlaText (more := [0]) (between := []) (first := leBytes 1 2 ++ [0x82, 0xA0]) (conts := []) (t := ['あ'])
      ⟨by omega, by omega, [0, 0, 0], ⟨0, 0, 0, rfl, .inr (.inr ⟨rfl, by decide, .inr ⟨by decide, rfl⟩⟩)⟩, rfl⟩ (by simp) (.inl rfl)
      ⟨2, [0x82, 0xA0], [0x82, 0xA0], by omega, rfl, .last (b := [_, _]), rfl, fun h => (nomatch h)⟩) ?_
    exact .eof
  · intro row col x hx
    simp only [List.mem_cons, CellOp.put.injEq, List.not_mem_nil, or_false] at hx
    omega

theorem C81_kana : (openStream exKanaEnv.withOld false exKanaFile 0).toOption = none := by
  have : (openStream exKanaEnv.withOld false exKanaFile 0).toOption.isNone = true := by decide +kernel
  simpa using this

theorem C81_counterexample : ¬ OldFileRead false := by
  intro h
  obtain ⟨gs, e, _⟩ := h Unit Unit exKanaEnv _ exKana_fits rfl _ _ _ exKana_is []
  have := C81_kana
  rw [List.append_nil] at e
  rw [e] at this
  cases this

end CP
