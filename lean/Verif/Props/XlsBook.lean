import Verif.Lemmas.XlsBook
import Verif.Props.XlsSheet
/-!
# C68: the stream of an .xls book
-/

namespace CP
open CP.Spec

variable {σ τ : Type}

theorem rkItems_puts {ctx : XlsCtx} {row col : Nat} {b : List UInt8} {ops : List CellOp} (h : RkItems ctx row col b ops) :
    ∀ op ∈ ops, ∃ r c v, op = .put r c v := by
  induction h with
  | nil => simp
  | cons _ _ _ _ _ ih =>
    intro op ho
    rcases List.mem_cons.1 ho with rfl | ho
    · exact ⟨_, _, _, rfl⟩
    · exact ih op ho

theorem sheetRecs_puts {whole fresh : Bool} {ctx : XlsCtx} {rs : List XRec} {ops : List CellOp} (h : SheetRecs whole ctx fresh rs ops) :
    ∀ op ∈ ops, ∃ r c v, op = .put r c v := by
  induction h with
  | eof => simp
  | cells hc _ ih =>
    intro op ho
    rcases List.mem_append.1 ho with ho | ho
    · cases hc with
      | mulRk _ _ _ h => exact rkItems_puts h op ho
      | _ => exact ⟨_, _, _, List.mem_singleton.1 ho⟩
    · exact ih op ho
  | _ => assumption

/-- The sheets of a stream are read one after the other. -/
theorem getSheets_sound {E : BookEnv σ τ} {c : BookCtx} (hf : BookFits E c) {bv : Nat} (hb : (bv < 80) = (c.v8 = false))
    {G : Globals τ} {ctx : XlsCtx} (hctx : XlsFits (sheetEnv E bv G) ctx) (pre post stream : Bytes)
    {ws : List (List Char × Nat)} {sheets : List (List Char × List CellOp)}
    (h : Each (fun (w : List Char × Nat) (s : List Char × List CellOp) => w.1 = s.1 ∧ SheetAt true ctx stream w.2 s.2) ws sheets) :
    ∀ countries : Nat × Nat, countries = (0, 0) ∨ countries = ctx.country →
      ∃ gs, getSheets E bv G false (pre ++ (stream ++ post)) countries (ws.map fun w => (w.1, (w.2 : Int) + pre.length)) = .ok gs ∧
        Each (fun (s : List Char × List CellOp) (b : BookSheet) => b.name = s.1 ∧ GridHolds s.2 b.grid) sheets gs := by
  induction h with
  | nil => exact fun _ _ => ⟨[], rfl, .nil⟩
  | @cons w s ws sheets hw _ ih =>
    intro countries hc
    obtain ⟨name, offset⟩ := w
    obtain ⟨hn, before, version, bof, rs, after, hs, ho, hbof, hrs, hsr, hfit⟩ := hw
    dsimp only at hn ho
    have hmem : pre ++ (stream ++ post) = (pre ++ before) ++ (recordBytes (0x809, bof) ++ (rs.flatMap recordBytes ++ (after ++ post))) := by
      rw [hs]; simp
    have hmem' : pre ++ (stream ++ post) = (pre ++ before ++ recordBytes (0x809, bof)) ++ (rs.flatMap recordBytes ++ (after ++ post)) := by
      rw [hmem]; simp
    have hpos : (offset : Int) + pre.length = (pre ++ before).length := by rw [List.length_append]; omega
    obtain ⟨build, year, eb⟩ := getbof_sound hbof (.inr rfl) (pre ++ before) (rs.flatMap recordBytes ++ (after ++ post))
    rw [← hmem, ← hpos] at eb
    have hfits : ∀ op ∈ s.2, CellOp.Fits false (xlsRows ctx.v8) 256 op := by
      intro op hop
      obtain ⟨r, k, v, rfl⟩ := sheetRecs_puts hsr op hop
      exact ⟨(hfit r k v hop).1, (hfit r k v hop).2, by simp⟩
    obtain ⟨g, cs, eg, hg, hcs⟩ := C67_worksheet_partial σ _ ctx hctx E.obj0 countries hc rs s.2 hrs hsr hfits
      (pre ++ before ++ recordBytes (0x809, bof)) (after ++ post)
    rw [← hmem'] at eg
    obtain ⟨gs, e2, h2⟩ := ih cs hcs
    refine ⟨⟨name, g⟩ :: gs, ?_, .cons ⟨hn, hg⟩ h2⟩
    rw [List.map_cons, getSheets, eb]
    dsimp only
    rw [eg]
    dsimp only
    rw [e2]

/-- C68 as it ought to be (`whole := false`): the stream of a book, whatever is before and after
it in memory, is read without an exception: the date mode is as the globals say, and the
sheets are its work sheets, in order, with their names, each with the cells that its records
stand for, where strings are those of the shared strings, and numbers are dates if the format
of their XF record says so. -/
def XlsStreamRead (whole : Bool) : Prop :=
  ∀ (σ τ : Type) (E : BookEnv σ τ) (c : BookCtx), BookFits E c →
    ∀ (stream : List UInt8) (mode : Nat) (sheets : List (List Char × List CellOp)), XlsBookIs whole c stream mode sheets →
      ∀ pre post : List UInt8, ∃ gs, openStream E false (pre ++ (stream ++ post)) pre.length = .ok (mode, gs) ∧
        Each (fun (s : List Char × List CellOp) (b : BookSheet) => b.name = s.1 ∧ GridHolds s.2 b.grid) sheets gs

/-- A book with its formats in any place is read, and numbers are dates by the format key that
the reader goes by. -/
theorem C68_any_formats (σ τ : Type) (E : BookEnv σ τ) (c : BookCtx) (hf : BookFits E c) (stream : List UInt8)
    (items : List GItem) (sheets : List (List Char × List CellOp)) (h : AnyFormatsBook c stream items sheets ReadTypeIs)
    (pre post : List UInt8) : ∃ gs, openStream E false (pre ++ (stream ++ post)) pre.length = .ok (lastMode 0 items, gs) ∧
      Each (fun (s : List Char × List CellOp) (b : BookSheet) => b.name = s.1 ∧ GridHolds s.2 b.grid) sheets gs := by
  obtain ⟨bof, rs, xfType, after, hs, hbof, hrs, hg, hnamed, hxf, hsheets⟩ := h
  obtain ⟨build, year, eb⟩ := getbof_sound hbof (.inl rfl) pre (rs.flatMap recordBytes ++ (after ++ post))
  obtain ⟨more, hm⟩ := recordsAt_sound hrs (pre ++ recordBytes (0x809, bof)) (after ++ post)
  have hmem : pre ++ (stream ++ post) = pre ++ (recordBytes (0x809, bof) ++ (rs.flatMap recordBytes ++ (after ++ post))) := by
    rw [hs]; simp
  have hmem' : pre ++ (stream ++ post) = (pre ++ recordBytes (0x809, bof)) ++ (rs.flatMap recordBytes ++ (after ++ post)) := by
    rw [hs]; simp
  rw [← hmem] at eb
  rw [← hmem'] at hm
  generalize hbv : bofVersion 0x809 (if c.v8 then 0x600 else 0x500) 5 build year = bv at eb
  have hb : (bv < 80) = (c.v8 = false) ∧ 50 ≤ bv := by
    subst hbv
    cases c.v8
    · by_cases hy : year < 1994 ∨ build ∈ [2412, 3218, 3321]
      · have : bofVersion 0x809 0x500 5 build year = 50 := by unfold bofVersion; simp only [if_pos hy]; rfl
        simp [this]
      · have : bofVersion 0x809 0x500 5 build year = 70 := by unfold bofVersion; simp only [if_neg hy]; rfl
        simp [this]
    · have : bofVersion 0x809 0x600 5 build year = 80 := rfl
      simp [this]
  obtain ⟨Inv, n1, n2, n3⟩ := hf.names
  have hinit : GInv c Inv (pre.length : Int) items [] none (Globals.init E.names0) := by
    refine ⟨?_, fun u hu => (nomatch hu), rfl, .inl rfl, ?_, rfl, ?_, rfl, rfl, ⟨n1, rfl, ?_⟩, rfl⟩
    · unfold EncOk
      split
      · exact .inl rfl
      · exact ⟨rfl, fun n hn => (nomatch hn), .inr ⟨rfl, rfl⟩⟩
    · intro k; rfl
    · intro i _
      show dget [(0, 2)] i = _
      simp only [dget]
      by_cases h0 : i = 0
      · subst h0; rfl
      · rw [if_neg (Ne.symm h0), if_neg h0]
    · rintro _ ⟨g, hg, _⟩
      cases hg
  obtain ⟨page, G, hG, el⟩ := globalsLoop_sound hf hb.1 n2 hnamed hg (by simp) hinit ((rs.map toRec ++ more).length + 1) more (by simp; omega)
  have hfin : ∃ G', globalsEnd E bv G = .ok G' ∧ G'.datemode = G.datemode ∧ G'.countries = G.countries ∧ G'.sheets = G.sheets ∧
      G'.sst = G.sst ∧ G'.xfTypes = xfEpilogue G.formats 0 G.xfs G.xfTypes ∧ (c.v8 = false → G'.encoding = some (textName page)) := by
    unfold globalsEnd
    dsimp only
    rw [show E.namesEnd bv (E.decode G.encoding) G.names G.allSheets = .ok () from hG.names.all ▸ n3 _ _ _ hnamed bv (E.decode G.encoding) G.names hb.1 (by
      intro hc b t hbt
      unfold pageText at hbt
      by_cases h8 : c.v8 = true
      · rw [if_pos h8] at hbt
        cases hbt
      · rw [if_neg h8, ← hG.page] at hbt
        rw [hG.names.coded (by simpa using h8) hc]
        exact hf.codec _ _ _ hbt) hG.names.inv]
    dsimp only
    split
    · obtain ⟨cp, enc, ed, _, he⟩ := derive_sound hf hb.1
        (G := { G with xfTypes := xfEpilogue G.formats 0 G.xfs G.xfTypes }) (page := page) hG.enc hG.user
      rw [ed]
      exact ⟨_, rfl, rfl, rfl, rfl, rfl, rfl, he⟩
    · rename_i hn
      refine ⟨_, rfl, rfl, rfl, rfl, rfl, rfl, fun h8 => ?_⟩
      have he := hG.enc
      unfold EncOk at he
      rw [if_neg (by rw [h8]; simp)] at he
      exact he.2.2.resolve_right fun x => hn x.1
  obtain ⟨G', ee, g1, g2, g3, g4, g5, g6⟩ := hfin
  have hctx : XlsFits (sheetEnv E bv G') (sheetCtx c items xfType) := by
    have htext : ∀ b t, (sheetCtx c items xfType).text b = some t → E.decode G'.encoding b = .ok t := by
      intro b t hb'
      simp only [sheetCtx, pageText] at hb'
      by_cases h8 : c.v8 = true
      · rw [if_pos h8] at hb'
        cases hb'
      · have h8' : c.v8 = false := by simpa using h8
        rw [if_neg h8, ← hG.page] at hb'
        rw [g6 h8']
        exact hf.codec _ _ _ hb'
    refine ⟨hb.1, (by show 30 ≤ bv; omega), hf.rnd, g4.trans hG.sst, ?_, htext, ?_⟩
    · funext i
      apply Option.ext
      intro typ
      show dget G'.xfTypes i = some typ ↔ xfType i = some typ
      rw [g5, xfTypes_final hG i typ, hxf]
    · exact fun rs hr s after => hf.obj _ rs hr _ _ hb.1 htext s after
  obtain ⟨gs, es, hgs⟩ := getSheets_sound hf hb.1 hctx pre post stream hsheets G'.countries (by rw [g2]; exact hG.countries)
  refine ⟨gs, ?_, hgs⟩
  unfold openStream
  rw [eb]
  dsimp only
  rw [if_neg (by omega), if_neg (by omega), hm, el, ee]
  dsimp only
  rw [g3, hG.sheets, es, g1, hG.mode]

/-- The types that the reader has are right exactly if XF records whose formats come late are
for dates just as format 0 is. -/
theorem C68_types (items : List GItem) : (∀ i typ, ReadTypeIs items i typ ↔ XfTypeIs items i typ) ↔ FormatsAgree items := by
  have hsplit : ∀ a k b, items = a ++ .xf k :: b → (xfKeys items)[(xfKeys a).length]? = some k := by
    intro a k b e
    rw [e, xfKeys_append, List.getElem?_append_right (by omega), Nat.sub_self]
    rfl
  constructor
  · intro h a k b hi
    by_cases h1 : StandardKey k ∨ k ∈ (formatsOf a).map Prod.fst
    · exact h1.imp_right .inl
    · refine .inr (.inr ?_)
      have hk := hsplit a k b hi
      have hne : xfKeys items ≠ [] := by intro e; rw [e] at hk; simp at hk
      have hr : ReadKey items (xfKeys a).length 0 := ⟨a, k, b, hi, rfl, .inr ⟨h1, rfl⟩⟩
      constructor
      · intro hd
        refine Classical.byContradiction fun hn => ?_
        rcases (h (xfKeys a).length 2).1 (.inl ⟨0, hr, .inr ⟨hn, rfl⟩⟩) with ⟨k', e, h2⟩ | h2
        · rw [hk] at e
          cases e
          rcases h2 with h2 | h2
          · cases h2.2
          · exact h2.1 hd
        · exact hne h2.1
      · intro hd
        rcases (h (xfKeys a).length 3).1 (.inl ⟨0, hr, .inl ⟨hd, rfl⟩⟩) with ⟨k', e, h2⟩ | h2
        · rw [hk] at e
          cases e
          rcases h2 with h2 | h2
          · exact h2.1
          · cases h2.2
        · exact absurd h2.1 hne
  · intro h i typ
    unfold ReadTypeIs XfTypeIs
    refine or_congr ⟨?_, ?_⟩ Iff.rfl
    · rintro ⟨k, ⟨a, key, b, hi, hl, hk⟩, ht⟩
      refine ⟨key, hl ▸ hsplit a key b hi, ?_⟩
      rcases hk with ⟨_, rfl⟩ | ⟨hn, rfl⟩
      · exact ht
      · have := ((h a key b hi).resolve_left fun x => hn (.inl x)).resolve_left fun x => hn (.inr x)
        rw [this]
        exact ht
    · rintro ⟨key, hk, ht⟩
      obtain ⟨a, b, hi, hl⟩ := xfKeys_split hk
      by_cases h1 : StandardKey key ∨ key ∈ (formatsOf a).map Prod.fst
      · exact ⟨key, ⟨a, key, b, hi, hl, .inl ⟨h1, rfl⟩⟩, ht⟩
      · have := ((h a key b hi).resolve_left fun x => h1 (.inl x)).resolve_left fun x => h1 (.inr x)
        rw [this] at ht
        exact ⟨0, ⟨a, key, b, hi, hl, .inr ⟨h1, rfl⟩⟩, ht⟩

theorem formatsFirst_agree {items : List GItem} (h : FormatsFirst items) : FormatsAgree items := by
  intro a k b hi
  by_cases hk : StandardKey k
  · exact .inl hk
  refine .inr ((h a k b hi).resolve_left hk |>.imp_right fun hn => ⟨fun hd => ?_, fun hd => ?_⟩)
  · rcases hd with ⟨a, code, b, e, _⟩ | ⟨_, hd⟩
    · exact absurd (by rw [e]; simp) hn.1
    · exact absurd (by unfold StandardDate at hd; unfold StandardKey; omega) hk
  · rcases hd with ⟨a, code, b, e, _⟩ | ⟨_, hd⟩
    · exact absurd (by rw [e]; simp) hn.2
    · unfold StandardDate at hd
      omega

/-- C68 for books where XF records whose formats come late are for dates just as format 0 is. -/
theorem C68_agree (σ τ : Type) (E : BookEnv σ τ) (c : BookCtx) (hf : BookFits E c) (stream : List UInt8)
    (items : List GItem) (sheets : List (List Char × List CellOp)) (h : AnyFormatsBook c stream items sheets XfTypeIs)
    (ha : FormatsAgree items) (pre post : List UInt8) :
    ∃ gs, openStream E false (pre ++ (stream ++ post)) pre.length = .ok (lastMode 0 items, gs) ∧
      Each (fun (s : List Char × List CellOp) (b : BookSheet) => b.name = s.1 ∧ GridHolds s.2 b.grid) sheets gs := by
  obtain ⟨bof, rs, xfType, after, hs, hbof, hrs, hg, hnamed, hxf, hsheets⟩ := h
  exact C68_any_formats σ τ E c hf stream items sheets ⟨bof, rs, xfType, after, hs, hbof, hrs, hg, hnamed,
    fun i typ => (hxf i typ).trans ((C68_types items).2 ha i typ).symm, hsheets⟩ pre post

/-- C68 for books where formats are defined before XF records use them, within the limits of
C66 and C67. -/
theorem C68_stream_partial : XlsStreamRead true := by
  intro σ τ E c hf stream mode sheets h pre post
  obtain ⟨bof, rs, items, xfType, after, hs, hbof, hrs, hg, hnamed, hord, hxf, rfl, hsheets⟩ := h
  exact C68_agree σ τ E c hf stream items sheets ⟨bof, rs, xfType, after, hs, hbof, hrs, hg, hnamed, hxf, hsheets⟩
    (formatsFirst_agree (hord rfl)) pre post

/-! ## Examples -/

def exBookCtx (v8 : Bool) : BookCtx where
  v8 := v8
  rnd := id
  codec := fun _ b => some (asciiText b)
  country := (1, 46)
  object := fun _ _ => False
  names := fun _ => False
  named := fun _ _ _ => True

def exBookEnv : BookEnv Unit Unit where
  rnd := id
  codec := fun _ b => .ok (asciiText b)
  obj := fun _ _ _ _ _ => .error .generic
  obj0 := ()
  names := fun _ _ _ _ _ => .error .generic
  names0 := ()
  namesEnd := fun _ _ _ _ => .ok ()
  old := fun _ _ _ => .error .generic

theorem exBook_fits (v8 : Bool) : BookFits exBookEnv (exBookCtx v8) where
  rnd := rfl
  codec := fun _ b t h => congrArg Except.ok (Option.some.inj h)
  latin := fun _ _ => rfl
  obj := fun _ _ h => h.elim
  names := ⟨fun _ _ => True, trivial, fun _ h => h.elim, fun _ _ _ _ _ _ _ _ _ _ => rfl⟩

/-- A book of version 8: code page, user, date mode 1, the format 164 "yyyy", XF records for
the formats 0 and 164, the sheet "S" and a chart, country, the strings of `exSst`. -/
def exGlobals (offset : Nat) : List XRec :=
  [(0x42, leBytes 2 1200 ++ []), (0x5C, [1, 0, 0, 0x61]), (0x22, leBytes 2 1 ++ []), (0x31, [7]),
   (0x41E, leBytes 2 164 ++ [4, 0, 0, 0x79, 0x79, 0x79, 0x79]),
   (0xE0, leBytes 2 0 ++ leBytes 2 0 ++ List.replicate 16 0), (0xE0, leBytes 2 0 ++ leBytes 2 164 ++ List.replicate 16 0),
   (0x85, leBytes 4 offset ++ [0, 0] ++ [1, 0, 0x53]), (0x85, leBytes 4 9 ++ [0, 2] ++ [1, 0, 0x43]),
   (0x8C, leBytes 2 1 ++ leBytes 2 46 ++ []), (0xFC, exSst.1)] ++ (exSst.2.map fun d => (0x3C, d)) ++ [(0xA, [])]

def exBof (version typ : Nat) : List UInt8 := leBytes 2 version ++ leBytes 2 typ ++ [0, 0, 0, 0]

/-- The date 1.0 and the string "c". -/
def exSheetRecs : List XRec :=
  [(0x203, leBytes 2 0 ++ leBytes 2 0 ++ leBytes 2 1 ++ leBytes 8 0x3FF0000000000000 ++ []),
   (0xFD, leBytes 2 0 ++ leBytes 2 1 ++ leBytes 2 0 ++ leBytes 4 1), (0xA, [])]

def exBookStart (offset : Nat) : List UInt8 := recordBytes (0x809, exBof 0x600 5) ++ (exGlobals offset).flatMap recordBytes

def exBook : List UInt8 := exBookStart 181 ++ (recordBytes (0x809, exBof 0x600 0x10) ++ exSheetRecs.flatMap recordBytes)

def exItems : List GItem :=
  [.page 1200, .mode 1, .format 164 "yyyy".toList, .xf 0, .xf 164, .sheet ['S'] 181 0, .sheet ['C'] 9 2,
   .strings [['a', 'b', 'µ'], ['c']]]

theorem exString {lenlen : Nat} {head text : Bytes} {t : List Char} (h1 : (textUnits t).length < 256 ^ lenlen)
    (h2 : head = leBytes lenlen (textUnits t).length ++ [0]) (h3 : UnitBytes false (textUnits t) text) :
    StringIs lenlen (head ++ text) t :=
  .inr ⟨0, 0, 0, head, text, [], ⟨h1, by decide, by decide, fun _ => rfl, fun _ => rfl, by rw [h2]; simp [Rich, Phonetic]⟩, h3, by simp⟩

theorem exGlobals_are : GlobalRecs true (exBookCtx true) none (exGlobals 181) exItems := by
  refine .page (by omega) ?_ ?_
  · unfold PageOk pageName
    simp [exBookCtx]
  refine .user (t := ['a']) (exString (lenlen := 2) (head := [1, 0, 0]) (text := [0x61]) (by decide) rfl (by unfold UnitBytes; decide)) ?_
  refine .mode (.inr rfl) (.other (by decide) ?_)
  refine .format (by omega) (exString (lenlen := 2) (head := [4, 0, 0]) (text := [0x79, 0x79, 0x79, 0x79]) (by decide) (by decide)
    (by unfold UnitBytes; decide)) ?_
  refine .xf (by omega) (by omega) (by simp [exBookCtx]) (.xf (by omega) (by omega) (by simp [exBookCtx]) ?_)
  refine .sheet (kind := 0) (by omega) (exString (lenlen := 1) (head := [1, 0]) (text := [0x53]) (by decide) (by decide)
    (by unfold UnitBytes; decide)) ?_
  refine .sheet (kind := 2) (by omega) (exString (lenlen := 1) (head := [1, 0]) (text := [0x43]) (by decide) (by decide)
    (by unfold UnitBytes; decide)) ?_
  refine .country (c := exBookCtx true) (more := []) (show 1 < 65536 by omega) (show 46 < 65536 by omega) ?_
  exact .strings (rest := [(0xA, [])]) exSst_is (by simp) .eof

def exXfType (i : Nat) : Option Nat := if i = 0 then some 2 else if i = 1 then some 3 else none

/-- The types of two XF records with the formats 0 and 164, the latter for dates. -/
theorem exXfType_is {items : List GItem} {k0 k1 : Nat} (h1 : xfKeys items = [k0, k1]) (h2 : ¬ DateKey (formatsOf items) k0)
    (h3 : DateKey (formatsOf items) k1) (i typ : Nat) : exXfType i = some typ ↔ XfTypeIs items i typ := by
  unfold XfTypeIs exXfType
  rw [h1]
  match i with
  | 0 =>
    refine ⟨fun e => .inl ⟨k0, rfl, .inr ⟨h2, (Option.some.inj e).symm⟩⟩, ?_⟩
    rintro (⟨k, e, h⟩ | ⟨e, _⟩)
    · cases Option.some.inj e
      rcases h with h | h
      · exact absurd h.1 h2
      · rw [h.2]; rfl
    · cases e
  | 1 =>
    refine ⟨fun e => .inl ⟨k1, rfl, .inl ⟨h3, (Option.some.inj e).symm⟩⟩, ?_⟩
    rintro (⟨k, e, h⟩ | ⟨e, _⟩)
    · cases Option.some.inj e
      rcases h with h | h
      · rw [h.2]; rfl
      · exact absurd h3 h.1
    · cases e
  | i + 2 =>
    refine ⟨fun e => (nomatch e), ?_⟩
    rintro (⟨k, e, h⟩ | ⟨e, _⟩)
    · cases e
    · cases e

theorem exSheet_at (whole : Bool) {ctx : XlsCtx} {before stream : Bytes} {typ : Nat} (h : ctx.xfType 1 = some typ)
    (hs : ctx.sst[1]? = some ['c']) (hstream : stream = before ++ (recordBytes (0x809, exBof 0x600 0x10) ++ exSheetRecs.flatMap recordBytes))
    {offset : Nat} (ho : before.length = offset) :
    SheetAt whole ctx stream offset [.put 0 0 ⟨typ, .flt 1, 1⟩, .put 0 1 ⟨1, .str ['c'], 0⟩] := by
  refine ⟨before, 0x600, exBof 0x600 0x10, exSheetRecs, [], by rw [hstream]; simp, ho, ⟨by omega, by decide, [0, 0, 0, 0], rfl⟩,
    by unfold RecordOk; decide, ?_, ?_⟩
  · refine .cells (ops := [.put 0 0 ⟨typ, .flt 1, 1⟩]) (rs := [_])
      (.number (more := []) (exHead 0 0 1 (by omega) (by omega) (by omega)) (by omega)
        ((C65_double (by omega) _).1 (by decide +kernel)) h) ?_
    exact .cells (ops := [.put 0 1 ⟨1, .str ['c'], 0⟩]) (rs := [_])
      (.labelSst (i := 1) (exHead 0 1 0 (by omega) (by omega) (by omega)) (by omega) hs) .eof
  · intro row col v hv
    unfold bookRows
    simp only [List.mem_cons, CellOp.put.injEq, List.not_mem_nil, or_false] at hv
    split <;> omega

theorem exBook_is : XlsBookIs true (exBookCtx true) exBook 1 [(['S'], [.put 0 0 ⟨3, .flt 1, 1⟩, .put 0 1 ⟨1, .str ['c'], 0⟩])] := by
  refine ⟨exBof 0x600 5, exGlobals 181, exItems, exXfType, recordBytes (0x809, exBof 0x600 0x10) ++ exSheetRecs.flatMap recordBytes,
    by simp [exBook, exBookStart], ⟨by simp [exBookCtx], by decide, [0, 0, 0, 0], rfl⟩, by unfold RecordOk; decide +kernel, exGlobals_are,
    trivial, fun _ => ?_, exXfType_is (k0 := 0) (k1 := 164) rfl ?_ ?_, rfl, ?_⟩
  · intro a k b hab
    have hk : k ∈ xfKeys exItems := by rw [hab, xfKeys_append]; simp [xfKeys]
    have : k = 0 ∨ k = 164 := by simpa [exItems, xfKeys] using hk
    rcases this with rfl | rfl
    · exact .inl (by unfold StandardKey; omega)
    · refine .inr (.inl ?_)
      match a, hab with
      | [], hab => simp [exItems] at hab
      | [_], hab => simp [exItems] at hab
      | [_, _], hab => simp [exItems] at hab
      | x :: y :: z :: a, hab =>
        simp only [exItems, List.cons_append, List.cons.injEq] at hab
        obtain ⟨_, _, rfl, _⟩ := hab
        rw [show x :: y :: .format 164 "yyyy".toList :: a = [x, y] ++ .format 164 "yyyy".toList :: a from rfl, formatsOf_append]
        simp [formatsOf]
  · rw [dateKey_iff]
    show ¬ StandardDate 0
    unfold StandardDate
    omega
  · rw [dateKey_iff]
    show isDateFormat "yyyy".toList = true
    decide +kernel
  · exact .cons ⟨rfl, exSheet_at true rfl rfl (before := exBookStart 181) (by rfl) (by decide +kernel)⟩ .nil

/-- The hypotheses of C68 can be met, and the cells are those to be expected. -/
example (pre post : List UInt8) : ∃ g, openStream exBookEnv false (pre ++ (exBook ++ post)) pre.length = .ok (1, [⟨['S'], g⟩]) ∧
    g.nrows = 1 ∧ g.ncols = 2 ∧ HasAt g.types 0 0 3 ∧ HasAt g.values 0 1 (.str ['c']) := by
  obtain ⟨gs, e, h⟩ := C68_stream_partial Unit Unit exBookEnv _ (exBook_fits true) _ _ _ exBook_is pre post
  cases h with
  | @cons _ b _ bs h1 h2 =>
    cases h2
    obtain ⟨hn, k1, k2, _, _, k5⟩ := h1
    have hr : b.grid.nrows = 1 := by
      have a := k1.2 1 (by decide +kernel)
      have b := k1.1 (.put 0 0 ⟨3, .flt 1, 1⟩) (by simp)
      simp only [CellOp.rows] at b
      omega
    have hc : b.grid.ncols = 2 := by
      have a := k2.2 2 (by decide +kernel)
      have b := k2.1 (.put 0 1 ⟨1, .str ['c'], 0⟩) (by simp)
      simp only [CellOp.cols] at b
      omega
    obtain ⟨name, g⟩ := b
    dsimp only at hn
    subst hn
    exact ⟨g, e, hr, hc, (k5 0 0 (by omega) (by omega)).1, (k5 0 1 (by omega) (by omega)).2⟩

/-- A book of version 5: user name, code page 1252, the sheet "S" with the text "ab"; no XF
records. -/
def exBook5 : List UInt8 :=
  recordBytes (0x809, exBof 0x500 5) ++
    (([(0x5C, leBytes 1 1 ++ [0x61] ++ []), (0x42, leBytes 2 1252 ++ []), (0x85, leBytes 4 40 ++ [0, 0] ++ (leBytes 1 1 ++ [0x53] ++ [])),
       (0xA, [])] : List XRec).flatMap recordBytes ++
     (recordBytes (0x809, exBof 0x500 0x10) ++
      ([(0x204, leBytes 2 0 ++ leBytes 2 0 ++ leBytes 2 0 ++ (leBytes 2 2 ++ [0x61, 0x62] ++ [])), (0xA, [])] : List XRec).flatMap recordBytes))

theorem exBook5_is : XlsBookIs true (exBookCtx false) exBook5 0 [(['S'], [.put 0 0 ⟨1, .str ['a', 'b'], 0⟩])] := by
  refine ⟨exBof 0x500 5, _, [.page 1252, .sheet ['S'] 40 0], fun i => if i = 0 then some 2 else none, _, rfl,
    ⟨by simp [exBookCtx], by decide, [0, 0, 0, 0], rfl⟩, by unfold RecordOk; decide +kernel, ?_, trivial, fun _ => ?_, ?_, rfl, .cons ⟨rfl, ?_⟩ .nil⟩
  · refine .user (t := ['a']) ⟨[0x61], [], by decide, by decide, rfl⟩ (.page (by omega) ?_ ?_)
    · unfold PageOk pageName
      exact .inr fun _ _ => rfl
    · exact .sheet (kind := 0) (by omega) ⟨[0x53], [], by decide, rfl, rfl⟩ .eof
  · intro a k b hab
    have : k ∈ xfKeys [.page 1252, .sheet ['S'] 40 0] := by rw [hab, xfKeys_append]; simp [xfKeys]
    simp [xfKeys] at this
  · intro i typ
    unfold XfTypeIs
    constructor
    · intro h
      dsimp only at h
      split at h
      · rename_i h0
        exact .inr ⟨rfl, h0, (Option.some.inj h).symm⟩
      · cases h
    · rintro (⟨k, e, _⟩ | ⟨_, rfl, rfl⟩)
      · simp [xfKeys] at e
      · rfl
  · refine ⟨_, 0x500, exBof 0x500 0x10, _, [], (List.append_assoc _ _ _).symm.trans (congrArg _ (congrArg _ (List.append_nil _).symm)),
      by decide +kernel, ⟨by omega, by decide, [0, 0, 0, 0], rfl⟩, by unfold RecordOk; decide, ?_, ?_⟩
    · exact .cells (ops := [.put 0 0 ⟨1, .str ['a', 'b'], 0⟩]) (rs := [_])
        (.label (exHead 0 0 0 (by omega) (by omega) (by omega)) ⟨[0x61, 0x62], [], by decide, rfl, rfl⟩) .eof
    · intro row col v hv
      simp only [List.mem_cons, CellOp.put.injEq, List.not_mem_nil, or_false] at hv
      obtain ⟨rfl, rfl, _⟩ := hv
      exact ⟨by decide, by decide⟩

example : ∃ gs, openStream exBookEnv false exBook5 0 = .ok (0, gs) := by
  obtain ⟨gs, e, _⟩ := C68_stream_partial Unit Unit exBookEnv _ (exBook_fits false) _ _ _ exBook5_is [] []
  simp only [List.nil_append, List.append_nil, List.length_nil] at e
  exact ⟨gs, e⟩

/-- In BIFF 8 all text is in Unicode, but a book that names a code page unknown to python
cannot be opened. -/
theorem C68_unused_page : ∃ e, openStream { exBookEnv with codec := fun _ _ => .error .keyError } false
    (recordBytes (0x809, exBof 0x600 5) ++ (recordBytes (0x42, [0xE7, 0x03]) ++ recordBytes (0xA, []))) 0 = .error e := by
  cases h : openStream { exBookEnv with codec := fun _ _ => .error .keyError } false
    (recordBytes (0x809, exBof 0x600 5) ++ (recordBytes (0x42, [0xE7, 0x03]) ++ recordBytes (0xA, []))) 0 with
  | error e => exact ⟨e, rfl⟩
  | ok p =>
    have : (openStream { exBookEnv with codec := fun _ _ => .error .keyError } false
      (recordBytes (0x809, exBof 0x600 5) ++ (recordBytes (0x42, [0xE7, 0x03]) ++ recordBytes (0xA, []))) 0).isOk = false := by decide +kernel
    rw [h] at this
    cases this

/-! ## Where the full statement is false -/

/-- The format 164 "yyyy" is defined after the XF record that uses it. -/
def exLate : List XRec :=
  [(0xE0, leBytes 2 0 ++ leBytes 2 0 ++ List.replicate 16 0), (0xE0, leBytes 2 0 ++ leBytes 2 164 ++ List.replicate 16 0),
   (0x41E, leBytes 2 164 ++ [4, 0, 0, 0x79, 0x79, 0x79, 0x79]), (0x85, leBytes 4 90 ++ [0, 0] ++ [1, 0, 0x53]), (0xA, [])]

def exLateItems : List GItem := [.xf 0, .xf 164, .format 164 "yyyy".toList, .sheet ['S'] 90 0]

/-- The number 1.0 with this XF record. -/
def exLateSheet : List XRec :=
  [(0x203, leBytes 2 0 ++ leBytes 2 0 ++ leBytes 2 1 ++ leBytes 8 0x3FF0000000000000 ++ []), (0xA, [])]

def exLateBook : List UInt8 :=
  recordBytes (0x809, exBof 0x600 5) ++ (exLate.flatMap recordBytes ++
    (recordBytes (0x809, exBof 0x600 0x10) ++ exLateSheet.flatMap recordBytes))

theorem exLate_is : XlsBookIs false (exBookCtx true) exLateBook 0 [(['S'], [.put 0 0 ⟨3, .flt 1, 1⟩])] := by
  refine ⟨exBof 0x600 5, exLate, exLateItems, exXfType, recordBytes (0x809, exBof 0x600 0x10) ++ exLateSheet.flatMap recordBytes,
    rfl, ⟨by simp [exBookCtx], by decide, [0, 0, 0, 0], rfl⟩, by unfold RecordOk; decide +kernel, ?_, trivial,
    fun h => (nomatch h), exXfType_is (k0 := 0) (k1 := 164) rfl ?_ ?_, rfl, .cons ⟨rfl, ?_⟩ .nil⟩
  · refine .xf (by omega) (by omega) (by simp [exBookCtx]) (.xf (by omega) (by omega) (by simp [exBookCtx]) ?_)
    refine .format (by omega) (exString (lenlen := 2) (head := [4, 0, 0]) (text := [0x79, 0x79, 0x79, 0x79]) (by decide) (by decide)
      (by unfold UnitBytes; decide)) ?_
    exact .sheet (kind := 0) (by omega) (exString (lenlen := 1) (head := [1, 0]) (text := [0x53]) (by decide) (by decide)
      (by unfold UnitBytes; decide)) .eof
  · rw [dateKey_iff]
    show ¬ StandardDate 0
    unfold StandardDate
    omega
  · rw [dateKey_iff]
    show isDateFormat "yyyy".toList = true
    decide +kernel
  · refine ⟨recordBytes (0x809, exBof 0x600 5) ++ exLate.flatMap recordBytes, 0x600, exBof 0x600 0x10, exLateSheet, [],
      by simp [exLateBook], by decide +kernel, ⟨by omega, by decide, [0, 0, 0, 0], rfl⟩, by unfold RecordOk; decide, ?_, ?_⟩
    · exact .cells (ops := [.put 0 0 ⟨3, .flt 1, 1⟩]) (rs := [_])
        (.number (more := []) (exHead 0 0 1 (by omega) (by omega) (by omega)) (by omega)
          ((C65_double (by omega) _).1 (by decide +kernel)) rfl) .eof
    · intro row col v hv
      simp only [List.mem_cons, CellOp.put.injEq, List.not_mem_nil, or_false] at hv
      obtain ⟨rfl, rfl, _⟩ := hv
      exact ⟨by decide, by decide⟩

/-- A format that comes after an XF record with its key is ignored for it: the date is read as
a number. -/
theorem C68_late_format : ∃ g, openStream exBookEnv false exLateBook 0 = .ok (0, [⟨['S'], g⟩]) ∧ HasAt g.types 0 0 2 := by
  cases h : openStream exBookEnv false exLateBook 0 with
  | error e =>
    have : (openStream exBookEnv false exLateBook 0).isOk = true := by decide +kernel
    rw [h] at this
    cases this
  | ok p =>
    have h1 : (openStream exBookEnv false exLateBook 0).toOption.map (fun p => (p.1, p.2.map fun b => (b.name, b.grid.types))) =
        some (0, [(['S'], [[2]])]) := by decide +kernel
    rw [h] at h1
    obtain ⟨m, bs⟩ := p
    simp only [Except.toOption, Option.map_some, Option.some.injEq, Prod.mk.injEq] at h1
    obtain ⟨rfl, h1⟩ := h1
    obtain ⟨⟨n, g⟩, rest, rfl, h2, h3⟩ := List.map_eq_cons_iff.1 h1
    obtain rfl := List.map_eq_nil_iff.1 h3
    simp only [Prod.mk.injEq] at h2
    obtain ⟨rfl, h2⟩ := h2
    exact ⟨g, rfl, [2], by rw [h2]; rfl, rfl⟩

theorem C68_late_none : ¬ ∃ gs, openStream exBookEnv false exLateBook 0 = .ok (0, gs) ∧
    Each (fun (s : List Char × List CellOp) (b : BookSheet) => b.name = s.1 ∧ GridHolds s.2 b.grid)
      [(['S'], [.put 0 0 ⟨3, .flt 1, 1⟩])] gs := by
  rintro ⟨gs, e, hg⟩
  obtain ⟨g, e', ht⟩ := C68_late_format
  rw [e'] at e
  cases e
  cases hg with
  | cons h1 _ =>
    obtain ⟨_, k1, k2, _, _, k5⟩ := h1
    dsimp only at k1 k2 k5
    have a := k1.1 (.put 0 0 ⟨3, .flt 1, 1⟩) (by simp)
    have b := k2.1 (.put 0 0 ⟨3, .flt 1, 1⟩) (by simp)
    simp only [CellOp.rows, CellOp.cols] at a b
    have := (k5 0 0 (by omega) (by omega)).1
    obtain ⟨r1, x1, y1⟩ := ht
    obtain ⟨r2, x2, y2⟩ := this
    rw [x1] at x2
    cases x2
    rw [y1] at y2
    revert y2
    decide +kernel

theorem C68_counterexample : ¬ XlsStreamRead false := by
  intro h
  obtain ⟨gs, e, hg⟩ := h Unit Unit exBookEnv _ (exBook_fits true) _ _ _ exLate_is [] []
  simp only [List.nil_append, List.append_nil, List.length_nil] at e
  exact C68_late_none ⟨gs, e, hg⟩

end CP
