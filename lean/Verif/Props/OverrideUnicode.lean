import Verif.Props.Override
import Verif.Model.FullFile
/-!
# C108 in BIFF 8: `encoding_override` changes nothing in files that open without it
-/

namespace CP

variable {σ τ : Type}

/-- From BIFF 8 on, names and objects do not depend on the encoding. -/
def Spec.TextsInUnicode (E : BookEnv σ τ) : Prop :=
  ∀ bv, 80 ≤ bv → ∀ t t' : Bytes → Except Exc (List Char),
    E.names bv t = E.names bv t' ∧ E.namesEnd bv t = E.namesEnd bv t' ∧ E.obj bv t = E.obj bv t'

open Spec

section
variable {E : XlsEnv σ} {t : Bytes → Except Exc (List Char)}

theorem strLoop_text8 (h : 80 ≤ E.bv) (after : List Rec) : ∀ need b, strLoop { E with text := t } need b after = strLoop E need b after := by
  have hc : ∀ b, strChunk { E with text := t } b = strChunk E b := by
    intro b
    unfold strChunk
    rw [if_neg (by show ¬ E.bv < 80; omega), if_neg (by omega)]
  induction after with
  | nil => intro need b; rw [strLoop, strLoop, hc]
  | cons r after ih =>
    intro need b
    rw [strLoop, strLoop, hc]
    simp only [ih]

theorem stringContents_text8 (h : 80 ≤ E.bv) (data : Bytes) (after : List Rec) :
    stringContents { E with text := t } data after = stringContents E data after := by
  unfold stringContents
  simp only [strLoop_text8 h]

theorem formulaText_text8 (h : 80 ≤ E.bv) (after : List Rec) : formulaText { E with text := t } after = formulaText E after := by
  unfold formulaText
  simp only [stringContents_text8 h]

theorem mulRkLoop_text8 (data : Bytes) (row n : Nat) : ∀ col pos g,
    mulRkLoop { E with text := t } data row n col pos g = mulRkLoop E data row n col pos g := by
  induction n with
  | zero => intro col pos g; rfl
  | succ n ih =>
    intro col pos g
    rw [mulRkLoop, mulRkLoop]
    simp only [ih]
    rfl

theorem sheetStep_text8 (h : 80 ≤ E.bv) (st : XlsSt σ) (r : Rec) (after : List Rec) :
    sheetStep { E with text := t } st r after = sheetStep E st r after := by
  have h1 : ∀ g d, readLabel { E with text := t } g d = readLabel E g d := by
    intro g d
    unfold readLabel
    simp only [if_neg (show ¬ E.bv < 80 by omega)]
  have h2 : ∀ g d, readRString { E with text := t } g d = readRString E g d := by
    intro g d
    unfold readRString
    simp only [if_neg (show ¬ E.bv < 80 by omega)]
  have h3 : ∀ g d, readMulRk { E with text := t } g d = readMulRk E g d := by
    intro g d
    unfold readMulRk
    simp only [mulRkLoop_text8]
  have h4 : ∀ g d after, readFormula { E with text := t } g d after = readFormula E g d after := by
    intro g d after
    unfold readFormula formulaCell
    simp only [formulaText_text8 h]
    rfl
  unfold sheetStep
  simp only [h1, h2, h3, h4]
  rfl

theorem readSheet_text8 (h : 80 ≤ E.bv) (ragged : Bool) (obj : σ) (countries : Nat × Nat) (recs : List Rec) :
    readSheet { E with text := t } ragged obj countries recs = readSheet E ragged obj countries recs := by
  have hl : ∀ n st recs, sheetLoop { E with text := t } n st recs = sheetLoop E n st recs := by
    intro n
    induction n with
    | zero => intro st recs; rfl
    | succ n ih =>
      intro st recs
      cases recs with
      | nil => rfl
      | cons r rest =>
        rw [sheetLoop, sheetLoop, sheetStep_text8 h]
        simp only [ih]
  unfold readSheet
  simp only [hl]

end

/-- Globals that differ only in code page and encoding. -/
def PageAlike (G G' : Globals τ) : Prop :=
  ∃ cp e, G' = { G with codepage := cp, encoding := e } ∧ G.rawUser = none

/-- What one gives the other gives, but for this. -/
def GivesToo {α : Type} (R : α → α → Prop) (x y : Except Exc α) : Prop := ∀ b, y = .ok b → ∃ a, x = .ok a ∧ R a b

def PageStep (p q : Globals τ × Nat) : Prop := PageAlike p.1 q.1 ∧ p.2 = q.2

section
variable {E : BookEnv σ τ} {o : List Char} {bv : Nat}

theorem derive_gives {s : List Char} (ht : E.codec o trial = .ok s) {G : Globals τ} (hr : G.rawUser = none) :
    deriveOver E o G = .ok { G with encoding := some o } := by
  have : tryCodec E G.codepage (some o) = .ok () := by
    unfold tryCodec
    split
    · rfl
    · show (match E.codec o trial with | .error e => Except.error e | .ok _ => .ok ()) = .ok ()
      rw [ht]
  unfold deriveOver
  rw [this, hr]

theorem PageAlike.derived {G G' b : Globals τ} (hg : PageAlike G G') (hb : deriveEncoding E bv G' = .ok b) : PageAlike G b := by
  obtain ⟨cp, e, rfl, hr⟩ := hg
  cases G
  dsimp only at hr
  subst hr
  unfold deriveEncoding at hb
  dsimp only at hb
  split at hb
  · cases hb
  · cases hb
    exact ⟨_, _, rfl, rfl⟩

theorem PageAlike.coded {G b : Globals τ} (hg : PageAlike G b) (x : Option (List Char)) : PageAlike { G with encoding := x } b := by
  obtain ⟨cp, e, rfl, hr⟩ := hg
  exact ⟨cp, e, rfl, hr⟩

theorem PageAlike.raw {G b : Globals τ} (hg : PageAlike G b) : G.rawUser = none := by
  obtain ⟨cp, e, rfl, hr⟩ := hg
  exact hr

theorem derive8 {s : List Char} (ht : E.codec o trial = .ok s) {G G' : Globals τ} (hg : PageAlike G G') :
    GivesToo PageAlike (deriveOver E o G) (deriveEncoding E bv G') :=
  fun _ hb => ⟨_, derive_gives ht hg.raw, (hg.derived hb).coded _⟩

theorem need8 {s : List Char} (ht : E.codec o trial = .ok s) {G G' : Globals τ} (hg : PageAlike G G') :
    GivesToo PageAlike (if G.encoding = none then deriveOver E o G else .ok G)
      (if G'.encoding = none then deriveEncoding E bv G' else .ok G') := by
  intro b hb
  have h : PageAlike G b := by
    by_cases hn' : G'.encoding = none
    · rw [if_pos hn'] at hb
      exact hg.derived hb
    · rw [if_neg hn'] at hb
      cases hb
      exact hg
  by_cases hn : G.encoding = none
  · rw [if_pos hn]
    exact ⟨_, derive_gives ht hg.raw, h.coded _⟩
  · rw [if_neg hn]
    exact ⟨_, rfl, h⟩

theorem GivesToo.one {x y : Except Exc (Globals τ)} (h : GivesToo PageAlike x y) :
    GivesToo PageStep (x.map fun G => (G, 0)) (y.map fun G => (G, 0)) := by
  intro b hb
  cases y with
  | error e => cases hb
  | ok y =>
    cases hb
    obtain ⟨a, rfl, hab⟩ := h y rfl
    exact ⟨_, rfl, hab, rfl⟩

theorem format8 {s : List Char} (h : 80 ≤ bv) (ht : E.codec o trial = .ok s) {G G' : Globals τ} (hg : PageAlike G G') (data : Bytes) :
    GivesToo PageAlike (formatOver E o bv G data) (handleFormat E bv G' data) := by
  intro b hb
  unfold handleFormat at hb
  unfold formatOver
  have hn := need8 (bv := bv) ht hg
  revert hn hb
  generalize (if G.encoding = none then deriveOver E o G else .ok G) = x
  generalize (if G'.encoding = none then deriveEncoding E bv G' else .ok G') = y
  intro hb hn
  cases y with
  | error e => cases hb
  | ok y =>
    obtain ⟨a, rfl, cp, e, rfl, hr⟩ := hn y rfl
    dsimp only at hb ⊢
    rw [if_pos h] at hb ⊢
    cases hk : unpackNat 2 (data.take 2) with
    | error x => rw [hk] at hb; cases hb
    | ok key =>
      rw [hk] at hb
      dsimp only at hb ⊢
      cases hs : unpackUnicode data 2 2 with
      | error x => rw [hs] at hb; cases hb
      | ok u =>
        rw [hs] at hb
        cases hb
        exact ⟨_, rfl, cp, e, rfl, hr⟩

theorem boundsheet8 {s : List Char} (h : 80 ≤ bv) (ht : E.codec o trial = .ok s) (base : Int) {G G' : Globals τ} (hg : PageAlike G G')
    (data : Bytes) : GivesToo PageAlike (boundsheetOver E o bv base G data) (handleBoundsheet E bv base G' data) := by
  intro b hb
  unfold handleBoundsheet at hb
  unfold boundsheetOver
  have hn := derive8 (bv := bv) ht hg
  revert hn hb
  generalize deriveOver E o G = x
  generalize deriveEncoding E bv G' = y
  intro hb hn
  cases y with
  | error e => cases hb
  | ok y =>
    obtain ⟨a, rfl, cp, e, rfl, hr⟩ := hn y rfl
    dsimp only at hb ⊢
    rw [if_neg (show ¬ bv < 80 by omega)] at hb ⊢
    split at hb
    · rename_i p q r s _ typ heq
      rw [heq]
      dsimp only
      cases hs : unpackUnicode data 6 1 with
      | error x => rw [hs] at hb; cases hb
      | ok name =>
        rw [hs] at hb
        dsimp only at hb ⊢
        by_cases ht : typ ≠ 0
        · rw [if_pos ht] at hb ⊢; cases hb; exact ⟨_, rfl, cp, e, rfl, hr⟩
        · rw [if_neg ht] at hb ⊢; cases hb; exact ⟨_, rfl, cp, e, rfl, hr⟩
    · cases hb

theorem names8 (h : 80 ≤ bv) (hE : TextsInUnicode E) {G G' : Globals τ} (hg : PageAlike G G') (r : Rec) (after : List Rec) :
    GivesToo PageStep ((E.names bv (E.decode G.encoding) G.names r after).map fun p => ({ G with names := p.1 }, p.2))
      ((E.names bv (E.decode G'.encoding) G'.names r after).map fun p => ({ G' with names := p.1 }, p.2)) := by
  obtain ⟨cp, e, rfl, hr⟩ := hg
  rw [(hE bv h (E.decode G.encoding) (E.decode e)).1]
  dsimp only
  cases E.names bv (E.decode e) G.names r after with
  | error x => intro b hb; cases hb
  | ok p => intro b hb; cases hb; exact ⟨_, rfl, ⟨cp, e, rfl, hr⟩, rfl⟩

theorem step8 {s : List Char} (h : 80 ≤ bv) (hE : TextsInUnicode E) (ht : E.codec o trial = .ok s) (base : Int) {G G' : Globals τ}
    (hg : PageAlike G G') (r : Rec) (after : List Rec) :
    GivesToo PageStep (stepOver E o bv base G r after) (globalsStep E bv base G' r after) := by
  unfold stepOver globalsStep
  dsimp only
  by_cases c1 : r.code = xlFormat
  · rw [if_pos c1, if_neg (by rw [c1]; decide), if_pos c1]
    exact (format8 h ht hg r.data).one
  by_cases c2 : r.code = xlBoundsheet
  · rw [if_neg c1, if_pos c2, if_neg (by rw [c2]; decide), if_neg c1, if_neg (by rw [c2]; decide), if_pos c2]
    exact (boundsheet8 h ht base hg r.data).one
  by_cases c3 : r.code = xlCodepage
  · rw [if_neg c1, if_neg c2, if_pos c3, if_neg (by rw [c3]; decide), if_neg c1, if_neg (by rw [c3]; decide), if_neg c2,
      if_neg (by rw [c3]; decide), if_pos c3]
    refine GivesToo.one ?_
    unfold codepageOver handleCodepage
    cases unpackNat 2 (r.data.take 2) with
    | error e => intro b hb; cases hb
    | ok n =>
      obtain ⟨cp, e, rfl, hr⟩ := hg
      exact derive8 ht ⟨some n, e, rfl, hr⟩
  by_cases c4 : r.code ∈ xlNamesEnc
  · have hne : r.code = 0x17 ∨ r.code = 0x18 := by simpa [xlNamesEnc] using c4
    have n1 : r.code ≠ xlSst := by rcases hne with e | e <;> rw [e] <;> decide
    have n2 : r.code ≠ xlXf := by rcases hne with e | e <;> rw [e] <;> decide
    have n3 : r.code ≠ xlDatemode := by rcases hne with e | e <;> rw [e] <;> decide
    have n4 : r.code ≠ xlCountry := by rcases hne with e | e <;> rw [e] <;> decide
    rw [if_neg c1, if_neg c2, if_neg c3, if_pos c4, if_neg n1, if_neg c1, if_neg n2, if_neg c2, if_neg n3, if_neg c3, if_neg n4, if_pos c4]
    have hn := derive8 (bv := bv) ht hg
    revert hn
    generalize deriveOver E o G = x
    generalize deriveEncoding E bv G' = y
    intro hn
    cases y with
    | error e => intro b hb; cases hb
    | ok y =>
      obtain ⟨a, rfl, hab⟩ := hn y rfl
      exact names8 h hE hab r after
  simp only [if_neg c1, if_neg c2, if_neg c3, if_neg c4]
  by_cases d1 : r.code = xlSst
  · simp only [if_pos d1]
    unfold handleSst
    obtain ⟨cp, e, rfl, hr⟩ := hg
    cases sstConts after with
    | error x => intro b hb; cases hb
    | ok conts =>
      dsimp only
      cases readSST r.data conts with
      | error x => intro b hb; cases hb
      | ok ss => intro b hb; cases hb; exact ⟨_, rfl, ⟨cp, e, rfl, hr⟩, rfl⟩
  by_cases d2 : r.code = xlXf
  · simp only [if_neg d1, if_pos d2]
    refine GivesToo.one ?_
    unfold handleXf
    obtain ⟨cp, e, rfl, hr⟩ := hg
    dsimp only
    generalize (if 80 ≤ bv then 20 else 16) = size
    by_cases hs : (r.data.take size).length = size
    · rw [if_pos hs, if_pos hs]; intro b hb; cases hb; exact ⟨_, rfl, cp, e, rfl, hr⟩
    · rw [if_neg hs, if_neg hs]; intro b hb; cases hb
  by_cases d3 : r.code = xlDatemode
  · simp only [if_neg d1, if_neg d2, if_pos d3]
    refine GivesToo.one ?_
    unfold handleDatemode
    obtain ⟨cp, e, rfl, hr⟩ := hg
    cases unpackNat 2 (r.data.take 2) with
    | error x => intro b hb; cases hb
    | ok n =>
      dsimp only
      by_cases hs : n = 0 ∨ n = 1
      · rw [if_pos hs, if_pos hs]; intro b hb; cases hb; exact ⟨_, rfl, cp, e, rfl, hr⟩
      · rw [if_neg hs, if_neg hs]; intro b hb; cases hb
  by_cases d4 : r.code = xlCountry
  · simp only [if_neg d1, if_neg d2, if_neg d3, if_pos d4]
    refine GivesToo.one ?_
    obtain ⟨cp, e, rfl, hr⟩ := hg
    dsimp only
    cases handleCountry G.countries r.data with
    | error x => intro b hb; cases hb
    | ok c => intro b hb; cases hb; exact ⟨_, rfl, cp, e, rfl, hr⟩
  simp only [if_neg d1, if_neg d2, if_neg d3, if_neg d4]
  by_cases d5 : r.code ∈ xlNamesOther
  · simp only [if_pos d5]
    exact names8 h hE hg r after
  by_cases d6 : r.code = xlFilepass
  · simp only [if_neg d5, if_pos d6]; intro b hb; cases hb
  by_cases d7 : r.code = xlWriteaccess
  · simp only [if_neg d5, if_neg d6, if_pos d7]
    refine GivesToo.one ?_
    unfold handleWriteaccess
    rw [if_neg (show ¬ bv < 80 by omega), if_neg (show ¬ bv < 80 by omega)]
    cases unpackUnicode r.data 0 2 with
    | ok u => intro b hb; cases hb; exact ⟨_, rfl, hg⟩
    | error x =>
      cases x with
      | unicodeError =>
        dsimp only
        cases unpackUnicode (stripB r.data) 0 2 with
        | ok u => intro b hb; cases hb; exact ⟨_, rfl, hg⟩
        | error x => intro b hb; cases hb
      | _ => intro b hb; cases hb
  by_cases d8 : r.code = xlSheetsoffset
  · simp only [if_neg d5, if_neg d6, if_neg d7, if_pos d8]
    by_cases hs : r.data.length = 4
    · rw [if_pos hs, if_pos hs]; intro b hb; cases hb; exact ⟨_, rfl, hg, rfl⟩
    · rw [if_neg hs, if_neg hs]; intro b hb; cases hb
  by_cases d9 : r.code = xlSheethdr
  · simp only [if_neg d5, if_neg d6, if_neg d7, if_neg d8, if_pos d9]; intro b hb; cases hb
  · simp only [if_neg d5, if_neg d6, if_neg d7, if_neg d8, if_neg d9]
    intro b hb; cases hb; exact ⟨_, rfl, hg, rfl⟩

theorem end8 {s : List Char} (h : 80 ≤ bv) (hE : TextsInUnicode E) (ht : E.codec o trial = .ok s) {G G' : Globals τ}
    (hg : PageAlike G G') : GivesToo PageAlike (endOver E o bv G) (globalsEnd E bv G') := by
  unfold endOver globalsEnd
  dsimp only
  have hg' : PageAlike { G with xfTypes := xfEpilogue G.formats 0 G.xfs G.xfTypes }
      { G' with xfTypes := xfEpilogue G'.formats 0 G'.xfs G'.xfTypes } := by
    obtain ⟨cp, e, rfl, hr⟩ := hg
    exact ⟨cp, e, rfl, hr⟩
  have hn := need8 (bv := bv) ht hg'
  have hsame : G'.names = G.names ∧ G'.allSheets = G.allSheets := by
    obtain ⟨cp, e, rfl, hr⟩ := hg
    exact ⟨rfl, rfl⟩
  rw [hsame.1, hsame.2, (hE bv h (E.decode G.encoding) (E.decode G'.encoding)).2.1]
  cases E.namesEnd bv (E.decode G'.encoding) G.names G.allSheets with
  | error e => intro b hb; cases hb
  | ok u =>
    dsimp only
    rw [hsame.1, hsame.2] at hn
    exact hn

theorem loop8 {s : List Char} (h : 80 ≤ bv) (hE : TextsInUnicode E) (ht : E.codec o trial = .ok s) (base : Int) (n : Nat) :
    ∀ {G G' : Globals τ} (_ : PageAlike G G') (recs : List Rec),
      GivesToo PageAlike (loopOver E o bv base n G recs) (globalsLoop E bv base n G' recs) := by
  induction n with
  | zero => intro G G' _ recs b hb; cases hb
  | succ n ih =>
    intro G G' hg recs
    cases recs with
    | nil => intro b hb; cases hb
    | cons r rest =>
      rw [loopOver, globalsLoop]
      by_cases he : r.code = xlEof
      · rw [if_pos he, if_pos he]; exact end8 h hE ht hg
      · rw [if_neg he, if_neg he]
        have hs := step8 h hE ht base hg r rest
        revert hs
        generalize stepOver E o bv base G r rest = x
        generalize globalsStep E bv base G' r rest = y
        intro hs
        cases y with
        | error e => intro b hb; cases hb
        | ok q =>
          obtain ⟨p, rfl, h1, h2⟩ := hs q rfl
          obtain ⟨G1, k⟩ := p
          obtain ⟨G2, k'⟩ := q
          dsimp only at h1 h2 ⊢
          subst h2
          exact ih h1 _

theorem getSheets8 (h : 80 ≤ bv) (hE : TextsInUnicode E) {G G' : Globals τ} (hg : PageAlike G G') (ragged : Bool) (mem : Bytes)
    (l : List (List Char × Int)) : ∀ c, getSheets E bv G ragged mem c l = getSheets E bv G' ragged mem c l := by
  have henv : sheetEnv E bv G' = { sheetEnv E bv G with text := E.decode G'.encoding } := by
    unfold sheetEnv
    rw [(hE bv h (E.decode G.encoding) (E.decode G'.encoding)).2.2]
    obtain ⟨cp, e, rfl, hr⟩ := hg
    rfl
  induction l with
  | nil => intro c; rfl
  | cons p l ih =>
    intro c
    rw [getSheets, getSheets, henv]
    simp only [readSheet_text8 (E := sheetEnv E bv G) h, ih]

end

/-- C108: in BIFF 8, where text is in Unicode, a file that opens without `encoding_override` gives the same with it, if
the encoding given is one that python knows. -/
theorem C108_unicode {E : BookEnv σ τ} (hE : TextsInUnicode E) {o s : List Char} (ht : E.codec o trial = .ok s) {ragged : Bool}
    {mem : Bytes} {base : Int} {bv : Nat} {pos : Int} (hb : getbof mem base 5 = .ok (bv, pos)) (h8 : 80 ≤ bv)
    {mode : Nat} {gs : List BookSheet} (h : openStream E ragged mem base = .ok (mode, gs)) :
    openOver E o ragged mem base = .ok (mode, gs) := by
  unfold openStream at h
  unfold openOver
  rw [hb] at h ⊢
  dsimp only at h ⊢
  rw [if_neg (by omega), if_neg (by omega)] at h ⊢
  have hl := loop8 h8 hE ht base ((recordsAt mem pos).length + 1) (G := Globals.init E.names0)
    (G' := Globals.init E.names0) ⟨none, none, rfl, rfl⟩ (recordsAt mem pos)
  revert hl h
  generalize loopOver E o bv base ((recordsAt mem pos).length + 1) (Globals.init E.names0) (recordsAt mem pos) = x
  generalize globalsLoop E bv base ((recordsAt mem pos).length + 1) (Globals.init E.names0) (recordsAt mem pos) = y
  intro h hl
  cases y with
  | error e => cases h
  | ok G' =>
    obtain ⟨G, rfl, hg⟩ := hl G' rfl
    dsimp only at h ⊢
    rw [getSheets8 h8 hE hg]
    obtain ⟨cp, e, rfl, hr⟩ := hg
    exact h

/-- The hypotheses can be met. -/
example : ∃ p, openOver exBookEnv "koi8_r".toList false exBook 0 = .ok p := by
  have hE : TextsInUnicode exBookEnv := fun _ _ _ _ => ⟨rfl, rfl, rfl⟩
  have hb : ∃ pos, getbof exBook 0 5 = .ok (80, pos) := ⟨_, rfl⟩
  obtain ⟨pos, hb⟩ := hb
  obtain ⟨gs, e, _⟩ := C68_stream_partial Unit Unit exBookEnv _ (exBook_fits true) _ _ _ exBook_is [] []
  simp only [List.nil_append, List.append_nil, List.length_nil] at e
  exact ⟨_, C108_unicode hE (s := asciiText trial) rfl hb (Nat.le_refl _) e⟩

/-! ## Names and objects as xlrd reads them -/

section
variable {ν : Type} {B : FmlaBook ν} {t : Bytes → Except Exc (List Char)}

theorem fmlaLoop_text8 (h : B.v8 = true) (deep : Nat → Int → Evals ν → Except Exc (Evals ν)) (namex : Int) (data : Bytes) (len n : Nat) :
    ∀ pos s, fmlaLoop { B with text := t } deep namex data len n pos s = fmlaLoop B deep namex data len n pos s := by
  have h1 : ∀ pos s, fmlaToken { B with text := t } deep namex data pos s = fmlaToken B deep namex data pos s := by
    have h2 : ∀ pos op sz st, plainToken { B with text := t } data pos op sz st = plainToken B data pos op sz st := by
      intro pos op sz st
      unfold plainToken
      simp only [h, if_true]
    intro pos s
    unfold fmlaToken
    simp only [h2]
    rfl
  induction n with
  | zero => intro pos s; rfl
  | succ n ih =>
    intro pos s
    rw [fmlaLoop, fmlaLoop, h1]
    simp only [ih]

theorem evalName_text8 (h : B.v8 = true) (n : Nat) : evalName { B with text := t } n = evalName B n := by
  induction n with
  | zero => rfl
  | succ n ih =>
    funext j namex evals
    rw [evalName, evalName, ih]
    simp only [fmlaLoop_text8 h]

theorem evalNames_text8 (h : B.v8 = true) (l : List NameObj) : ∀ j evals, evalNames { B with text := t } j l evals = evalNames B j l evals := by
  induction l with
  | nil => intro j evals; rfl
  | cons o l ih =>
    intro j evals
    rw [evalNames, evalNames, evalName_text8 h]
    simp only [ih]

end

/-- The books that xlrd reads have the property asked for: C108 in BIFF 8 is about them. -/
theorem C108_unicode_books (W : PyEnv) : TextsInUnicode W.books := by
  intro bv h t t'
  refine ⟨?_, ?_, ?_⟩
  · funext s r after
    show handleNames bv t s r after = handleNames bv t' s r after
    unfold handleNames handleExternsheet handleName
    simp only [if_pos h, if_neg (show ¬ bv < 80 by omega)]
  · funext s all
    show namesEpilogue _ bv t s all = namesEpilogue _ bv t' s all
    unfold namesEpilogue namesEvaluated
    cases nameScopes (80 ≤ bv) s all s.names with
    | error e => rfl
    | ok scopes =>
      dsimp only
      exact congrArg _ (evalNames_text8 (t := t) (B := ⟨80 ≤ bv, t', _, s, sheetMap 0 all, _, scopes⟩) (by simpa using h) s.names 0 _)
  · funext s r after
    show handleObject bv t s r after = handleObject bv t' s r after
    unfold handleObject handleNote
    simp only [if_neg (show ¬ bv < 80 by omega)]

/-- A BIFF 8 file that names a code page unknown to python (`C68_unused_page`) can be opened with `encoding_override`. -/
example :
    (openStream exOnlyEnv false (recordBytes (0x809, exBof 0x600 5) ++ (recordBytes (0x42, [0xE7, 0x03]) ++ recordBytes (0xA, []))) 0).isOk = false ∧
    (openOver exOnlyEnv "koi8_r".toList false
      (recordBytes (0x809, exBof 0x600 5) ++ (recordBytes (0x42, [0xE7, 0x03]) ++ recordBytes (0xA, []))) 0).isOk = true := by
  decide +kernel

end CP
