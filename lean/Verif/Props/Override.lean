import Verif.Model.Override
import Verif.Props.XlsBook
/-!
# C108: with `encoding_override` all texts are in that encoding, whatever the code page
-/

namespace CP

variable {σ τ : Type}

/-- A machine on which all encodings are this one. -/
def Spec.AllIn (E : BookEnv σ τ) (o : List Char) : BookEnv σ τ := { E with codec := fun _ b => E.codec o b }

open Spec

/-- Globals that differ only in the name of the encoding. -/
def EncAlike (o : List Char) (G G' : Globals τ) : Prop :=
  ∃ e, G' = { G with encoding := e } ∧ ((G.encoding = none ∧ e = none) ∨ (G.encoding = some o ∧ e.isSome))

/-- Results that differ only in this. -/
inductive SameOut {α : Type} (R : α → α → Prop) : Except Exc α → Except Exc α → Prop
  | error {e} : SameOut R (.error e) (.error e)
  | ok {x y} : R x y → SameOut R (.ok x) (.ok y)

def AlikeStep (o : List Char) (p q : Globals τ × Nat) : Prop := EncAlike o p.1 q.1 ∧ p.2 = q.2

section
variable {E : BookEnv σ τ} {o : List Char} {bv : Nat}

theorem decode_alike {G G' : Globals τ} (h : EncAlike o G G') : E.decode G.encoding = (AllIn E o).decode G'.encoding := by
  obtain ⟨e, rfl, ⟨h1, rfl⟩ | ⟨h1, h2⟩⟩ := h
  · rw [h1]; rfl
  · rw [h1]
    obtain ⟨e', rfl⟩ := Option.isSome_iff_exists.1 h2
    rfl

theorem choose_old (h : bv < 80) (cp : Option Nat) (enc : Option (List Char)) :
    (chooseEncoding bv cp enc).1 = cp ∧ (chooseEncoding bv cp enc).2.isSome := by
  unfold chooseEncoding
  cases cp with
  | none => dsimp only; rw [if_pos h]; exact ⟨rfl, rfl⟩
  | some cp =>
    dsimp only
    cases dget codepages cp with
    | some e => exact ⟨rfl, rfl⟩
    | none =>
      dsimp only
      split
      · exact ⟨rfl, rfl⟩
      · rw [if_neg (by omega)]; exact ⟨rfl, rfl⟩

theorem derive_alike (h : bv < 80) {G G' : Globals τ} (hg : EncAlike o G G') :
    SameOut (EncAlike o) (deriveOver E o G) (deriveEncoding (AllIn E o) bv G') := by
  obtain ⟨e, rfl, _⟩ := hg
  unfold deriveOver deriveEncoding
  dsimp only
  obtain ⟨h1, h2⟩ := choose_old h G.codepage e
  generalize chooseEncoding bv G.codepage e = p at h1 h2
  obtain ⟨cp, enc⟩ := p
  dsimp only at h1 h2 ⊢
  subst h1
  obtain ⟨e', rfl⟩ := Option.isSome_iff_exists.1 h2
  have ht : tryCodec (AllIn E o) G.codepage (some e') = tryCodec E G.codepage (some o) := rfl
  have hd : (AllIn E o).decode (some e') = E.decode (some o) := rfl
  rw [ht, hd]
  cases tryCodec E G.codepage (some o) with
  | error x => exact .error
  | ok u =>
    dsimp only
    cases G.rawUser with
    | none => exact .ok ⟨some e', rfl, .inr ⟨rfl, rfl⟩⟩
    | some u =>
      dsimp only
      cases unpackString (E.decode (some o)) u 0 1 with
      | error x => exact .error
      | ok s => exact .ok ⟨some e', rfl, .inr ⟨rfl, rfl⟩⟩

theorem need_alike (h : bv < 80) {G G' : Globals τ} (hg : EncAlike o G G') :
    SameOut (EncAlike o) (if G.encoding = none then deriveOver E o G else .ok G)
      (if G'.encoding = none then deriveEncoding (AllIn E o) bv G' else .ok G') := by
  have hi : G.encoding = none ↔ G'.encoding = none := by
    obtain ⟨e, rfl, ⟨h1, rfl⟩ | ⟨h1, h2⟩⟩ := hg
    · simp [h1]
    · rw [h1]
      obtain ⟨e', rfl⟩ := Option.isSome_iff_exists.1 h2
      simp
  by_cases hn : G.encoding = none
  · rw [if_pos hn, if_pos (hi.1 hn)]; exact derive_alike h hg
  · rw [if_neg hn, if_neg (mt hi.2 hn)]; exact .ok hg

theorem SameOut.one {x y : Except Exc (Globals τ)} (h : SameOut (EncAlike o) x y) :
    SameOut (AlikeStep o) (x.map fun G => (G, 0)) (y.map fun G => (G, 0)) := by
  cases h with
  | error => exact .error
  | ok h => exact .ok ⟨h, rfl⟩

theorem format_alike (h : bv < 80) {G G' : Globals τ} (hg : EncAlike o G G') (data : Bytes) :
    SameOut (EncAlike o) (formatOver E o bv G data) (handleFormat (AllIn E o) bv G' data) := by
  unfold formatOver handleFormat
  have hn := need_alike (E := E) h hg
  revert hn
  generalize (if G.encoding = none then deriveOver E o G else .ok G) = x
  generalize (if G'.encoding = none then deriveEncoding (AllIn E o) bv G' else .ok G') = y
  intro hn
  cases hn with
  | error => exact .error
  | @ok G G' hg =>
    dsimp only
    rw [decode_alike (E := E) hg]
    cases unpackNat 2 (data.take 2) with
    | error e => exact .error
    | ok key =>
      dsimp only
      cases (if 80 ≤ bv then unpackUnicode data 2 2 else unpackString ((AllIn E o).decode G'.encoding) data 2 1) with
      | error e => exact .error
      | ok s =>
        obtain ⟨e, rfl, he⟩ := hg
        exact .ok ⟨e, rfl, he⟩

theorem boundsheet_alike (h : bv < 80) (base : Int) {G G' : Globals τ} (hg : EncAlike o G G') (data : Bytes) :
    SameOut (EncAlike o) (boundsheetOver E o bv base G data) (handleBoundsheet (AllIn E o) bv base G' data) := by
  unfold boundsheetOver handleBoundsheet
  have hn := derive_alike (E := E) h hg
  revert hn
  generalize deriveOver E o G = x
  generalize deriveEncoding (AllIn E o) bv G' = y
  intro hn
  cases hn with
  | error => exact .error
  | @ok G G' hg =>
    dsimp only
    rw [decode_alike (E := E) hg]
    split
    · rename_i a b c d _ typ heq
      rw [heq]
      dsimp only
      cases (if bv < 80 then unpackString ((AllIn E o).decode G'.encoding) data 6 1 else unpackUnicode data 6 1) with
      | error e => exact .error
      | ok name =>
        obtain ⟨e, rfl, he⟩ := hg
        dsimp only
        by_cases ht : typ ≠ 0
        · rw [if_pos ht, if_pos ht]; exact .ok ⟨e, rfl, he⟩
        · rw [if_neg ht, if_neg ht]; exact .ok ⟨e, rfl, he⟩
    · rename_i hne
      split
      · rename_i heq
        exact absurd heq (hne _ _ _ _ _ _)
      · exact .error

theorem step_alike (h : bv < 80) (base : Int) {G G' : Globals τ} (hg : EncAlike o G G') (r : Rec) (after : List Rec) :
    SameOut (AlikeStep o) (stepOver E o bv base G r after) (globalsStep (AllIn E o) bv base G' r after) := by
  have hdec := decode_alike (E := E) hg
  unfold stepOver globalsStep
  dsimp only
  by_cases c1 : r.code = xlFormat
  · rw [if_pos c1, if_neg (by rw [c1]; decide), if_pos c1]
    exact (format_alike h hg r.data).one
  by_cases c2 : r.code = xlBoundsheet
  · rw [if_neg c1, if_pos c2, if_neg (by rw [c2]; decide), if_neg c1, if_neg (by rw [c2]; decide), if_pos c2]
    exact (boundsheet_alike h base hg r.data).one
  by_cases c3 : r.code = xlCodepage
  · rw [if_neg c1, if_neg c2, if_pos c3, if_neg (by rw [c3]; decide), if_neg c1, if_neg (by rw [c3]; decide), if_neg c2,
      if_neg (by rw [c3]; decide), if_pos c3]
    refine SameOut.one ?_
    unfold codepageOver handleCodepage
    cases unpackNat 2 (r.data.take 2) with
    | error e => exact .error
    | ok n =>
      obtain ⟨e, rfl, he⟩ := hg
      exact derive_alike h ⟨e, rfl, he⟩
  by_cases c4 : r.code ∈ xlNamesEnc
  · have hne : r.code = 0x17 ∨ r.code = 0x18 := by simpa [xlNamesEnc] using c4
    have n1 : r.code ≠ xlSst := by rcases hne with e | e <;> rw [e] <;> decide
    have n2 : r.code ≠ xlXf := by rcases hne with e | e <;> rw [e] <;> decide
    have n3 : r.code ≠ xlDatemode := by rcases hne with e | e <;> rw [e] <;> decide
    have n4 : r.code ≠ xlCountry := by rcases hne with e | e <;> rw [e] <;> decide
    rw [if_neg c1, if_neg c2, if_neg c3, if_pos c4, if_neg n1, if_neg c1, if_neg n2, if_neg c2, if_neg n3, if_neg c3, if_neg n4, if_pos c4]
    have hn := derive_alike (E := E) h hg
    revert hn
    generalize deriveOver E o G = x
    generalize deriveEncoding (AllIn E o) bv G' = y
    intro hn
    cases hn with
    | error => exact .error
    | @ok G G' hg =>
      dsimp only
      rw [decode_alike (E := E) hg]
      obtain ⟨e, rfl, he⟩ := hg
      show SameOut _ ((E.names bv _ G.names r after).map _) ((E.names bv _ G.names r after).map _)
      dsimp only
      cases E.names bv ((AllIn E o).decode e) G.names r after with
      | error x => exact .error
      | ok p => exact .ok ⟨⟨e, rfl, he⟩, rfl⟩
  simp only [if_neg c1, if_neg c2, if_neg c3, if_neg c4]
  by_cases d1 : r.code = xlSst
  · simp only [if_pos d1]
    unfold handleSst
    obtain ⟨e, rfl, he⟩ := hg
    cases sstConts after with
    | error x => exact .error
    | ok conts =>
      dsimp only
      cases readSST r.data conts with
      | error x => exact .error
      | ok ss => exact .ok ⟨⟨e, rfl, he⟩, rfl⟩
  by_cases d2 : r.code = xlXf
  · simp only [if_neg d1, if_pos d2]
    refine SameOut.one ?_
    unfold handleXf
    obtain ⟨e, rfl, he⟩ := hg
    dsimp only
    generalize (if 80 ≤ bv then 20 else 16) = size
    by_cases hs : (r.data.take size).length = size
    · rw [if_pos hs, if_pos hs]; exact .ok ⟨e, rfl, he⟩
    · rw [if_neg hs, if_neg hs]; exact .error
  by_cases d3 : r.code = xlDatemode
  · simp only [if_neg d1, if_neg d2, if_pos d3]
    refine SameOut.one ?_
    unfold handleDatemode
    obtain ⟨e, rfl, he⟩ := hg
    cases unpackNat 2 (r.data.take 2) with
    | error x => exact .error
    | ok n =>
      dsimp only
      by_cases hs : n = 0 ∨ n = 1
      · rw [if_pos hs, if_pos hs]; exact .ok ⟨e, rfl, he⟩
      · rw [if_neg hs, if_neg hs]; exact .error
  by_cases d4 : r.code = xlCountry
  · simp only [if_neg d1, if_neg d2, if_neg d3, if_pos d4]
    refine SameOut.one ?_
    obtain ⟨e, rfl, he⟩ := hg
    dsimp only
    cases handleCountry G.countries r.data with
    | error x => exact .error
    | ok c => exact .ok ⟨e, rfl, he⟩
  simp only [if_neg d1, if_neg d2, if_neg d3, if_neg d4]
  by_cases d5 : r.code ∈ xlNamesOther
  · simp only [if_pos d5]
    rw [hdec]
    obtain ⟨e, rfl, he⟩ := hg
    show SameOut _ ((E.names bv _ G.names r after).map _) ((E.names bv _ G.names r after).map _)
    dsimp only
    cases E.names bv ((AllIn E o).decode e) G.names r after with
    | error x => exact .error
    | ok p => exact .ok ⟨⟨e, rfl, he⟩, rfl⟩
  by_cases d6 : r.code = xlFilepass
  · simp only [if_neg d5, if_pos d6]; exact .error
  by_cases d7 : r.code = xlWriteaccess
  · simp only [if_neg d5, if_neg d6, if_pos d7]
    refine SameOut.one ?_
    unfold handleWriteaccess
    rw [if_pos h, if_pos h, hdec]
    obtain ⟨e, rfl, he⟩ := hg
    rcases he with ⟨h1, rfl⟩ | ⟨h1, h2⟩
    · rw [if_pos h1, if_pos rfl]
      exact .ok ⟨none, rfl, .inl ⟨h1, rfl⟩⟩
    · obtain ⟨e', rfl⟩ := Option.isSome_iff_exists.1 h2
      rw [if_neg (by rw [h1]; simp), if_neg (by simp)]
      dsimp only
      cases unpackString ((AllIn E o).decode (some e')) r.data 0 1 with
      | error x => exact .error
      | ok p => exact .ok ⟨some e', rfl, .inr ⟨h1, rfl⟩⟩
  by_cases d8 : r.code = xlSheetsoffset
  · simp only [if_neg d5, if_neg d6, if_neg d7, if_pos d8]
    by_cases hs : r.data.length = 4
    · rw [if_pos hs, if_pos hs]; exact .ok ⟨hg, rfl⟩
    · rw [if_neg hs, if_neg hs]; exact .error
  by_cases d9 : r.code = xlSheethdr
  · simp only [if_neg d5, if_neg d6, if_neg d7, if_neg d8, if_pos d9]; exact .error
  · simp only [if_neg d5, if_neg d6, if_neg d7, if_neg d8, if_neg d9]
    exact .ok ⟨hg, rfl⟩

theorem end_alike (h : bv < 80) {G G' : Globals τ} (hg : EncAlike o G G') :
    SameOut (EncAlike o) (endOver E o bv G) (globalsEnd (AllIn E o) bv G') := by
  unfold endOver globalsEnd
  dsimp only
  have hg' : EncAlike o { G with xfTypes := xfEpilogue G.formats 0 G.xfs G.xfTypes }
      { G' with xfTypes := xfEpilogue G'.formats 0 G'.xfs G'.xfTypes } := by
    obtain ⟨e, rfl, he⟩ := hg
    exact ⟨e, rfl, he⟩
  have hn := need_alike (E := E) h hg'
  have hd := decode_alike (E := E) hg
  have hsame : G'.names = G.names ∧ G'.allSheets = G.allSheets := by
    obtain ⟨e, rfl, he⟩ := hg
    exact ⟨rfl, rfl⟩
  rw [hsame.1, hsame.2, hd]
  rw [show (AllIn E o).namesEnd = E.namesEnd from rfl]
  cases E.namesEnd bv ((AllIn E o).decode G'.encoding) G.names G.allSheets with
  | error e => exact .error
  | ok u =>
    dsimp only
    rw [hsame.1, hsame.2] at hn
    exact hn

theorem loop_alike (h : bv < 80) (base : Int) (n : Nat) : ∀ {G G' : Globals τ} (_ : EncAlike o G G') (recs : List Rec),
    SameOut (EncAlike o) (loopOver E o bv base n G recs) (globalsLoop (AllIn E o) bv base n G' recs) := by
  induction n with
  | zero => intro G G' _ recs; exact .error
  | succ n ih =>
    intro G G' hg recs
    cases recs with
    | nil => exact .error
    | cons r rest =>
      rw [loopOver, globalsLoop]
      by_cases he : r.code = xlEof
      · rw [if_pos he, if_pos he]; exact end_alike h hg
      · rw [if_neg he, if_neg he]
        have hs := step_alike (E := E) h base hg r rest
        revert hs
        generalize stepOver E o bv base G r rest = x
        generalize globalsStep (AllIn E o) bv base G' r rest = y
        intro hs
        cases hs with
        | error => exact .error
        | @ok p q hpq =>
          obtain ⟨G1, k⟩ := p
          obtain ⟨G2, k'⟩ := q
          obtain ⟨h1, h2⟩ := hpq
          dsimp only at h1 h2 ⊢
          subst h2
          exact ih h1 _

theorem getSheets_alike {G G' : Globals τ} (hg : EncAlike o G G') (ragged : Bool) (mem : Bytes) (l : List (List Char × Int)) :
    ∀ c, getSheets E bv G ragged mem c l = getSheets (AllIn E o) bv G' ragged mem c l := by
  have henv : sheetEnv E bv G = sheetEnv (AllIn E o) bv G' := by
    unfold sheetEnv
    rw [decode_alike (E := E) hg]
    obtain ⟨e, rfl, he⟩ := hg
    rfl
  induction l with
  | nil => intro c; rfl
  | cons p l ih =>
    intro c
    rw [getSheets, getSheets, henv]
    cases getbof mem p.2 0x10 with
    | error e => rfl
    | ok q =>
      dsimp only
      show _ = match readSheet (sheetEnv (AllIn E o) bv G') ragged E.obj0 c (recordsAt mem q.2) with
        | .error e => _
        | .ok (g, c) => _
      cases readSheet (sheetEnv (AllIn E o) bv G') ragged E.obj0 c (recordsAt mem q.2) with
      | error e => rfl
      | ok s =>
        dsimp only
        rw [ih]

end

/-- C108: a file of BIFF 5 or 7 opened with `encoding_override` is read as on a machine on which all encodings are that
one: all texts are in the encoding given, whatever code page the file says and wherever it says so. -/
theorem C108_override {E : BookEnv σ τ} {o : List Char} {ragged : Bool} {mem : Bytes} {base : Int} {bv : Nat} {pos : Int}
    (hb : getbof mem base 5 = .ok (bv, pos)) (h1 : 50 ≤ bv) (h2 : bv < 80) :
    openOver E o ragged mem base = openStream (AllIn E o) ragged mem base := by
  unfold openOver openStream
  rw [hb]
  dsimp only
  rw [if_neg (by omega), if_neg (by omega), if_neg (by omega), if_neg (by omega)]
  have hl := loop_alike (E := E) (o := o) h2 base ((recordsAt mem pos).length + 1) (G := Globals.init E.names0)
    (G' := Globals.init E.names0) ⟨none, rfl, .inl ⟨rfl, rfl⟩⟩ (recordsAt mem pos)
  show _ = match globalsLoop (AllIn E o) bv base _ (Globals.init E.names0) _ with
    | .error e => _
    | .ok G => _
  revert hl
  generalize loopOver E o bv base ((recordsAt mem pos).length + 1) (Globals.init E.names0) (recordsAt mem pos) = x
  generalize globalsLoop (AllIn E o) bv base ((recordsAt mem pos).length + 1) (Globals.init E.names0) (recordsAt mem pos) = y
  intro hl
  cases hl with
  | error => rfl
  | @ok G G' hg =>
    dsimp only
    rw [getSheets_alike hg]
    obtain ⟨e, rfl, he⟩ := hg
    rfl

/-- What a book depends on, when all its texts are in this encoding. -/
def Spec.CodecIn (c : BookCtx) (o : List Char) : BookCtx := { c with codec := fun _ b => c.codec o b }

/-- C108: so a book of BIFF 5 or 7 whose texts are in the encoding given is read with the cells and the names of sheets
that it has, in files with anything before and after it (within the limits of C68). -/
theorem C108_texts {E : BookEnv σ τ} {c : BookCtx} {o : List Char} (hf : BookFits (AllIn E o) (CodecIn c o)) (h8 : c.v8 = false)
    {stream : List UInt8} {mode : Nat} {sheets : List (List Char × List CellOp)} (h : XlsBookIs true (CodecIn c o) stream mode sheets)
    (pre post : List UInt8) : ∃ gs, openOver E o false (pre ++ (stream ++ post)) pre.length = .ok (mode, gs) ∧
      Each (fun (s : List Char × List CellOp) (b : BookSheet) => b.name = s.1 ∧ GridHolds s.2 b.grid) sheets gs := by
  have hr := C68_stream_partial σ τ (AllIn E o) (CodecIn c o) hf stream mode sheets h pre post
  obtain ⟨bof, rs, items, xfType, after, hs, hbof, _⟩ := h
  rw [show (CodecIn c o).v8 = false from h8, if_neg (by simp)] at hbof
  obtain ⟨build, year, eb⟩ := getbof_sound hbof (.inl rfl) pre (rs.flatMap recordBytes ++ (after ++ post))
  have hmem : pre ++ (stream ++ post) = pre ++ (recordBytes (0x809, bof) ++ (rs.flatMap recordBytes ++ (after ++ post))) := by
    rw [hs]; simp
  rw [← hmem] at eb
  have hb : bofVersion 0x809 0x500 5 build year = 50 ∨ bofVersion 0x809 0x500 5 build year = 70 := by
    by_cases hy : year < 1994 ∨ build ∈ [2412, 3218, 3321]
    · exact .inl (by unfold bofVersion; simp only [if_pos hy]; rfl)
    · exact .inr (by unfold bofVersion; simp only [if_neg hy]; rfl)
  rw [C108_override eb (by omega) (by omega)]
  exact hr

/-! ## Examples -/

/-- A python that has no codec but "koi8_r". -/
def exOnlyEnv : BookEnv Unit Unit :=
  { exBookEnv with codec := fun name b => if name = "koi8_r".toList then .ok (asciiText b) else .error .keyError }

/-- The hypotheses of C108 can be met. -/
example : ∃ gs, openOver exOnlyEnv "koi8_r".toList false exBook5 0 = .ok (0, gs) := by
  have hf : BookFits (AllIn exOnlyEnv "koi8_r".toList) (CodecIn (exBookCtx false) "koi8_r".toList) :=
    ⟨rfl, fun _ b t h => congrArg Except.ok (Option.some.inj h), fun _ _ => rfl, fun _ _ h => h.elim,
      ⟨fun _ _ => True, trivial, fun _ h => h.elim, fun _ _ _ _ _ _ _ _ _ _ => rfl⟩⟩
  obtain ⟨gs, e, _⟩ := C108_texts hf rfl exBook5_is [] []
  simp only [List.nil_append, List.append_nil, List.length_nil] at e
  exact ⟨gs, e⟩

/-- Without `encoding_override` that book, which says code page 1252, does not open there. -/
example : (openStream exOnlyEnv false exBook5 0).isOk = false := by decide +kernel

end CP
