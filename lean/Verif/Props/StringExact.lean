import Verif.Spec.StringExact
import Verif.Props.SstSplit
import Verif.Props.XlsSheet
/-!
# C67: exactly which sheets are read
-/

namespace CP
open CP.Spec

/-- A half of a pair. -/
def IsSurrogate (u : Nat) : Prop := 0xD800 ≤ u ∧ u < 0xE000

theorem units_count (s : List Char) :
    s.length ≤ (textUnits s).length ∧ ((∃ u ∈ textUnits s, IsSurrogate u) → s.length < (textUnits s).length) ∧
    ((∃ c ∈ s, 0x10000 ≤ c.toNat) → ∃ u ∈ textUnits s, IsSurrogate u) := by
  induction s with
  | nil => simp [textUnits]
  | cons c s ih =>
    obtain ⟨h1, h2, h3⟩ := ih
    have e : textUnits (c :: s) = utf16Units c ++ textUnits s := rfl
    by_cases hc : c.toNat < 0x10000
    · have hu : utf16Units c = [c.toNat] := by unfold utf16Units; rw [if_pos hc]
      have hv : ¬ IsSurrogate c.toNat := by
        have := c.valid
        unfold IsSurrogate
        unfold UInt32.isValidChar Nat.isValidChar at this
        have e2 : c.val.toNat = c.toNat := rfl
        rw [e2] at this
        omega
      rw [e, hu]
      refine ⟨by simp; omega, ?_, ?_⟩
      · rintro ⟨u, hu, hs⟩
        simp only [List.cons_append, List.nil_append, List.mem_cons] at hu
        rcases hu with rfl | hu
        · exact (hv hs).elim
        · have := h2 ⟨u, hu, hs⟩
          simp; omega
      · rintro ⟨d, hd, h⟩
        rcases List.mem_cons.1 hd with rfl | hd
        · omega
        · obtain ⟨u, hu, hs⟩ := h3 ⟨d, hd, h⟩
          exact ⟨u, by simp [hu], hs⟩
    · have hl : (utf16Units c).length = 2 := by unfold utf16Units; rw [if_neg hc]; rfl
      rw [e]
      refine ⟨by simp; omega, fun _ => by simp; omega, fun _ => ?_⟩
      have hm : c.toNat < 0x110000 := by
        have := c.valid
        unfold UInt32.isValidChar Nat.isValidChar at this
        have e2 : c.val.toNat = c.toNat := rfl
        rw [e2] at this
        omega
      refine ⟨0xD800 + (c.toNat - 0x10000) / 0x400, ?_, ?_⟩
      · unfold utf16Units; rw [if_neg hc]; simp
      · unfold IsSurrogate; omega

/-- Characters are missing at the end of the records: the next one is no CONTINUE record. -/
theorem strLoop_short {E : XlsEnv σ} (h8 : ¬ E.bv < 80) {n : Nat} {b : Bytes} {conts : List Bytes} {us : List Nat}
    (h : StrUnits n b conts us) : ∀ (need : Nat) (r : Rec) (after : List Rec), r.code ≠ xlContinue →
      (n < need ∨ (n = need ∧ ∃ u ∈ us, IsSurrogate u)) →
      ∃ e, strLoop E need b (contRecs conts ++ r :: after) = .error e ∧ (e = .xlrdError ∨ e = .unicodeError) := by
  induction h with
  | @last o us b hu =>
    intro need r after hr hn
    rw [strLoop, strChunk8 h8]
    rcases decode_any hu with ⟨s, rfl⟩ | he
    · rw [decodeChars_units hu]
      dsimp only
      have hc := units_count s
      have hlt : s.length < need := by
        rcases hn with hn | ⟨hn, hs⟩
        · omega
        · have := hc.2.1 hs
          omega
      rw [if_neg (by omega), if_neg (by omega)]
      refine ⟨.xlrdError, ?_, .inl rfl⟩
      show (if r.code ≠ xlContinue then _ else _) = _
      rw [if_pos hr]
    · rw [he]
      exact ⟨_, rfl, .inr rfl⟩
  | @over o us b n next rest us' hu hn0 _ ih =>
    intro need r after hr hn
    rw [strLoop, strChunk8 h8]
    rcases decode_any hu with ⟨s, rfl⟩ | he
    · rw [decodeChars_units hu]
      dsimp only
      have hc := units_count s
      have hge : (textUnits s).length + n ≤ need := by rcases hn with hn | ⟨hn, _⟩ <;> omega
      rw [if_neg (by omega), if_neg (by omega)]
      unfold contRecs
      rw [List.map_cons, List.cons_append]
      dsimp only [toRec]
      rw [if_neg (by simp [xlContinue])]
      obtain ⟨e, h1, h2⟩ := ih (need - s.length) r after hr (by
        rcases hn with hn | ⟨hn, u, hu, hs⟩
        · exact .inl (by omega)
        · rcases List.mem_append.1 hu with hu | hu
          · have := hc.2.1 ⟨u, hu, hs⟩
            exact .inl (by omega)
          · by_cases h : n < need - s.length
            · exact .inl h
            · exact .inr ⟨by omega, u, hu, hs⟩)
      unfold contRecs at h1
      dsimp only [toRec] at h1
      rw [h1]
      exact ⟨e, rfl, h2⟩
    · rw [he]
      exact ⟨_, rfl, .inr rfl⟩

/-- What is raised for a text of a formula: an XLRDError, or what decoding raises. -/
def TextError (E : XlsEnv σ) (ctx : XlsCtx) (e : Exc) : Prop :=
  e = .xlrdError ∨ if ctx.v8 then e = .unicodeError else ∃ b, E.text b = .error e

/-- The code page of the file, before BIFF 8, is known and plain. -/
def PageKnown (E : XlsEnv σ) (ctx : XlsCtx) : Prop :=
  ctx.v8 = false → PlainPage ctx.text ∧ ∀ b t, E.text b = .ok t → ctx.text b = some t

/-- Before BIFF 8: the text is read with a character for each byte, or not at all. -/
theorem strLoop5_any {E : XlsEnv σ} {text : Bytes → Option (List Char)} (hp : PlainPage text)
    (htext : ∀ b t, E.text b = .ok t → text b = some t) (h8 : E.bv < 80) {n : Nat} {b : Bytes} {conts : List Bytes} {all : Bytes}
    (h : StrBytes n b conts all) : ∀ (need : Nat) (r : Rec) (after : List Rec), r.code ≠ xlContinue → n ≤ need →
      (need = n ∧ ∃ t, OneEach text b conts t ∧ text all = some t) ∨
      ∃ e, strLoop E need b (contRecs conts ++ r :: after) = .error e ∧ (e = .xlrdError ∨ ∃ b, E.text b = .error e) := by
  induction h with
  | @last b =>
    intro need r after hr hn
    rw [strLoop, strChunk5 h8]
    cases he : E.text b with
    | error e => exact .inr ⟨e, rfl, .inr ⟨b, he⟩⟩
    | ok s =>
      have h1 := htext _ _ he
      have h2 := hp.2 _ _ h1
      dsimp only
      by_cases hs : s.length = need
      · exact .inl ⟨by omega, s, .last h1 (by omega), h1⟩
      · refine .inr ⟨.xlrdError, ?_, .inl rfl⟩
        rw [if_neg hs, if_neg (by omega)]
        show (if r.code ≠ xlContinue then _ else _) = _
        rw [if_pos hr]
  | @over b n next rest b' hn0 _ ih =>
    intro need r after hr hn
    rw [strLoop, strChunk5 h8]
    cases he : E.text b with
    | error e => exact .inr ⟨e, rfl, .inr ⟨b, he⟩⟩
    | ok s =>
      have h1 := htext _ _ he
      have h2 := hp.2 _ _ h1
      dsimp only
      rcases ih (need - s.length) r after hr (by omega) with ⟨h3, t, h4, h5⟩ | ⟨e, h3, h4⟩
      · exact .inl ⟨by omega, s ++ t, .over h1 (by omega) h4, hp.1 _ _ _ _ h1 h5⟩
      · refine .inr ⟨e, ?_, h4⟩
        rw [if_neg (by omega), if_neg (by omega)]
        unfold contRecs
        rw [List.map_cons, List.cons_append]
        dsimp only [toRec]
        rw [if_neg (by simp [xlContinue])]
        unfold contRecs at h3
        dsimp only [toRec] at h3
        rw [h3]

theorem stringContents_any {E : XlsEnv σ} {ctx : XlsCtx} (hf : XlsFits E ctx) (hp : PageKnown E ctx) {first : Bytes}
    {conts : List Bytes} {t : List Char} (h : StringRecs false ctx first conts t) :
    StringRecs true ctx first conts t ∨ ∀ (r : Rec) (after : List Rec), r.code ≠ xlContinue →
      ∃ e, stringContents E first (contRecs conts ++ r :: after) = .error e ∧ TextError E ctx e := by
  obtain ⟨n, b, hn, rfl, h⟩ := h
  have htk : (leBytes 2 n ++ b).take 2 = leBytes 2 n := by
    have := List.take_left (l₁ := leBytes 2 n) (l₂ := b)
    rwa [leBytes_length] at this
  have hd : (leBytes 2 n ++ b).drop 2 = b := by
    have := List.drop_left (l₁ := leBytes 2 n) (l₂ := b)
    rwa [leBytes_length] at this
  have hsc : ∀ L, stringContents E (leBytes 2 n ++ b) L = strLoop E n b L := by
    intro L
    unfold stringContents
    dsimp only
    rw [if_pos hf.three, htk, hd, unpackNat_leBytes (by omega)]
  by_cases h8 : ctx.v8 = true
  · rw [if_pos h8] at h
    by_cases hbmp : ∀ c ∈ t, c.toNat < 0x10000
    · exact .inl ⟨n, b, hn, rfl, by rw [if_pos h8]; exact ⟨h.1, fun _ => hbmp⟩⟩
    · refine .inr fun r after hr => ?_
      simp only [Classical.not_forall] at hbmp
      obtain ⟨c, hc, hbig⟩ := hbmp
      obtain ⟨e, he, hk⟩ := strLoop_short (by rw [hf.bv, h8]; simp) h.1 n r after hr (.inr ⟨rfl, (units_count t).2.2 ⟨c, hc, by omega⟩⟩)
      exact ⟨e, by rw [hsc]; exact he, by unfold TextError; rw [if_pos h8]; exact hk⟩
  · rw [if_neg h8] at h
    obtain ⟨⟨all, h1, h2⟩, _⟩ := h
    have h8' : ctx.v8 = false := by simpa using h8
    obtain ⟨hpl, htext⟩ := hp h8'
    by_cases hone : OneEach ctx.text b conts t
    · exact .inl ⟨n, b, hn, rfl, by rw [if_neg h8]; exact ⟨⟨all, h1, h2⟩, fun _ => hone⟩⟩
    · refine .inr fun r after hr => ?_
      rcases strLoop5_any hpl htext (by rw [hf.bv]; exact h8') h1 n r after hr (Nat.le_refl _) with ⟨-, t', h3, h4⟩ | ⟨e, he, hk⟩
      · rw [h2] at h4
        cases h4
        exact (hone h3).elim
      · exact ⟨e, by rw [hsc]; exact he, by unfold TextError; rw [if_neg h8]; exact hk⟩

theorem formulaText_error {E : XlsEnv σ} {between : List XRec} {first : Bytes} {L : List Rec} {e : Exc} (hb : Between between)
    (h1 : stringContents E first L = .error e) :
    formulaText E (between.map toRec ++ toRec (0x207, first) :: L) = .error e := by
  rcases hb with rfl | ⟨code, data, rfl, hb⟩
  · rw [List.map_nil, List.nil_append, formulaText.eq_def]
    dsimp only [toRec]
    rw [if_pos (.inl rfl), h1]
  · have hbt : betweenOk (toRec (code, data)) = .ok () := by
      unfold betweenOk toRec
      dsimp only
      rcases hb with ⟨rfl, hl⟩ | ⟨rfl, hl⟩ | rfl
      · rw [if_pos (by decide), if_pos (by rw [List.length_take]; omega)]
      · rw [if_neg (by decide), if_pos (by decide), if_pos (by rw [List.length_take]; omega)]
      · rw [if_neg (by decide), if_neg (by decide), if_pos (by decide)]
    have hc : ¬ (code = xlString ∨ code = xlStringB2) := by
      rcases hb with ⟨rfl, _⟩ | ⟨rfl, _⟩ | rfl <;> decide
    rw [List.map_cons, List.map_nil, List.singleton_append, formulaText.eq_def]
    dsimp only
    rw [if_neg (show ¬ ((toRec (code, data)).code = xlString ∨ (toRec (code, data)).code = xlStringB2) from hc), hbt]
    dsimp only
    rw [if_pos (.inl rfl), show (toRec (0x207, first)).data = first from rfl, h1]

/-- Records of cells are read, or raise if no CONTINUE record comes after them. -/
theorem cells_any {E : XlsEnv σ} {ctx : XlsCtx} (hf : XlsFits E ctx) (hp : PageKnown E ctx) {rs : List XRec} {ops : List CellOp}
    (h : CellRecs false ctx rs ops) :
    CellRecs true ctx rs ops ∨ ∃ r more, rs = r :: more ∧ r.1 ≠ 0xA ∧
      ∀ (st : XlsSt σ) (q : Rec) (after : List Rec), q.code ≠ xlContinue →
        ∃ e, sheetStep E st (toRec r) (more.map toRec ++ q :: after) = .error e ∧ TextError E ctx e := by
  cases h with
  | number h1 h2 h3 h4 => exact .inl (.number h1 h2 h3 h4)
  | rk h1 h2 h3 h4 => exact .inl (.rk h1 h2 h3 h4)
  | mulRk h1 h2 h3 h4 => exact .inl (.mulRk h1 h2 h3 h4)
  | labelSst h1 h2 h3 => exact .inl (.labelSst h1 h2 h3)
  | label h1 h2 => exact .inl (.label h1 h2)
  | rstring h1 h2 => exact .inl (.rstring h1 h2)
  | bool h1 => exact .inl (.bool h1)
  | error h1 => exact .inl (.error h1)
  | fmlaNumber hc h1 h2 h3 h4 h5 => exact .inl (.fmlaNumber hc h1 h2 h3 h4 h5)
  | fmlaBool hc h1 h5 => exact .inl (.fmlaBool hc h1 h5)
  | fmlaError hc h1 h5 => exact .inl (.fmlaError hc h1 h5)
  | fmlaEmpty hc h1 h5 => exact .inl (.fmlaEmpty hc h1 h5)
  | @fmlaText code row col xf head x1 x2 x3 x4 x5 more between first conts t hc h1 h5 hb ht =>
    rcases stringContents_any hf hp ht with ht | hbad
    · exact .inl (.fmlaText hc h1 h5 hb ht)
    · refine .inr ⟨_, _, rfl, by rcases hc with rfl | rfl | rfl <;> simp, ?_⟩
      intro st q after hq
      obtain ⟨e, he, hk⟩ := hbad q after hq
      replace he := formulaText_error hb he
      refine ⟨e, ?_, hk⟩
      have eq : (between ++ (0x207, first) :: conts.map fun d => (0x3C, d)).map toRec ++ q :: after =
          between.map toRec ++ toRec (0x207, first) :: (contRecs conts ++ q :: after) := by
        simp [contRecs, Function.comp_def]
      rw [eq]
      generalize between.map toRec ++ toRec (0x207, first) :: (contRecs conts ++ q :: after) = L at he ⊢
      have hrf : readFormula E st.grid (head ++ [0, x1, x2, x3, x4, x5, 0xFF, 0xFF] ++ more) L = .error e := by
        rw [formula_head (res := [0, x1, x2, x3, x4, x5, 0xFF, 0xFF]) h1 rfl h5]
        have hk' : leNat (pySlice [0, x1, x2, x3, x4, x5, 0xFF, 0xFF] 0 1) = 0 := by simp [pySlice, leNat]
        unfold formulaCell
        dsimp only
        rw [pySlice_drop6 rfl, if_pos (by simp), hk', if_pos rfl, he]
      rcases hc with rfl | rfl | rfl <;>
      · unfold sheetStep toRec
        dsimp only
        rw [if_neg (by decide), if_neg (by decide), if_neg (by decide), if_neg (by decide), if_neg (by decide), if_neg (by decide),
          if_pos (by decide), hrf]; rfl

theorem sheetRecs_cons {whole fresh : Bool} {ctx : XlsCtx} {rs : List XRec} {ops : List CellOp} (h : SheetRecs whole ctx fresh rs ops) :
    ∃ r rest, rs = r :: rest := by
  induction h with
  | eof => exact ⟨_, _, rfl⟩
  | @cells fresh rs ops rest more _ _ ih =>
    obtain ⟨r, tl, rfl⟩ := ih
    cases rs with
    | nil => exact ⟨_, _, rfl⟩
    | cons => exact ⟨_, _, rfl⟩
  | aside | dimensions | country | chart => exact ⟨_, _, rfl⟩
  | @object fresh rs rest ops _ _ ih =>
    obtain ⟨r, tl, rfl⟩ := ih
    cases rs with
    | nil => exact ⟨_, _, rfl⟩
    | cons => exact ⟨_, _, rfl⟩

/-- The records of a sheet are those that are read, or there is a loose CONTINUE record, or
the sheet is not read. -/
theorem sheetLoop_any {E : XlsEnv σ} {ctx : XlsCtx} (hf : XlsFits E ctx) (hp : PageKnown E ctx) {fresh : Bool} {rs : List XRec}
    {ops : List CellOp} (h : SheetRecs false ctx fresh rs ops) :
    SheetRecs true ctx fresh rs ops ∨ LooseContinue ctx fresh rs ∨
      ∀ (n : Nat) (st : XlsSt σ) (after : List Rec) {g' : Grid}, rs.length ≤ n →
        (fresh = true → st.grid.nrows = 0 ∧ st.grid.ncols = 0) → (st.countries = (0, 0) ∨ st.countries = ctx.country) →
        st.grid.run ops = (g', none) →
        ∃ e, sheetLoop E n st (rs.map toRec ++ after) = .error e ∧ TextError E ctx e := by
  induction h with
  | eof => exact .inl .eof
  | @cells fresh rs ops rest more h1 h2 ih =>
    rcases cells_any hf hp h1 with ht | ⟨r, tl, rfl, hne, hbad⟩
    · rcases ih with ih | ⟨a, d, b, ops', rfl, hl⟩ | ih
      · exact .inl (.cells ht ih)
      · exact .inr (.inl ⟨rs ++ a, d, b, ops ++ ops', by simp, by rw [List.append_assoc]; exact .cells h1 hl⟩)
      · refine .inr (.inr ?_)
        intro n st after g' hn hg hc hr
        rw [run_append] at hr
        rcases hp : st.grid.run ops with ⟨g1, _ | e⟩
        · rw [hp] at hr
          obtain ⟨r, tl, rfl, hne, hs⟩ := cells_step hf ht st hp (rest.map toRec ++ after)
          obtain ⟨m, rfl⟩ : ∃ m, n = m + 1 := ⟨n - 1, by simp at hn; omega⟩
          have := sheetLoop_step (n := m) hne hs
          rw [List.cons_append, List.map_cons, List.map_append, List.cons_append, List.append_assoc, this]
          exact ih m _ after (by simp at hn; omega) (by simp) hc hr
        · rw [hp] at hr
          simp at hr
    · obtain ⟨q, rest', rfl⟩ := sheetRecs_cons h2
      by_cases hq : q.1 = 0x3C
      · obtain ⟨qc, qd⟩ := q
        simp only at hq
        subst hq
        exact .inr (.inl ⟨r :: tl, qd, rest', ops ++ [], rfl, .cells h1 .eof⟩)
      · refine .inr (.inr ?_)
        intro n st after g' hn hg hc hr
        obtain ⟨m, rfl⟩ : ∃ m, n = m + 1 := ⟨n - 1, by simp at hn; omega⟩
        obtain ⟨e, he, hk⟩ := hbad st (toRec q) (rest'.map toRec ++ after) hq
        refine ⟨e, ?_, hk⟩
        rw [List.cons_append, List.map_cons, List.map_append, List.map_cons, List.cons_append, List.append_assoc, List.cons_append, sheetLoop,
          if_neg (show ¬ (toRec r).code = xlEof from hne), he]
  | @aside fresh r rest ops h1 _ ih =>
    rcases ih with ih | ⟨a, d, b, ops', rfl, hl⟩ | ih
    · exact .inl (.aside h1 ih)
    · exact .inr (.inl ⟨r :: a, d, b, ops', rfl, .aside h1 hl⟩)
    · refine .inr (.inr ?_)
      intro n st after g' hn hg hc hr
      obtain ⟨m, rfl⟩ : ∃ m, n = m + 1 := ⟨n - 1, by simp at hn; omega⟩
      have hne : r.1 ≠ 0xA := fun e => h1.1 (by rw [e]; decide)
      have := sheetLoop_step (n := m) (more := []) (after := rest.map toRec ++ after) hne (aside_step (E := E) h1 st (rest.map toRec ++ after))
      rw [List.map_cons, List.cons_append]
      rw [List.map_nil, List.nil_append] at this
      rw [this]
      exact ih m st after (by simp at hn; omega) hg hc hr
  | @dimensions data rest ops h1 _ ih =>
    rcases ih with ih | ⟨a, d, b, ops', rfl, hl⟩ | ih
    · exact .inl (.dimensions h1 ih)
    · exact .inr (.inl ⟨(0x200, data) :: a, d, b, ops', rfl, .dimensions h1 hl⟩)
    · refine .inr (.inr ?_)
      intro n st after g' hn hg hc hr
      obtain ⟨m, rfl⟩ : ∃ m, n = m + 1 := ⟨n - 1, by simp at hn; omega⟩
      have := sheetLoop_step (n := m) (more := []) (after := rest.map toRec ++ after) (by simp) (dimension_step hf h1 st (hg rfl) (rest.map toRec ++ after))
      rw [List.map_cons, List.cons_append]
      rw [List.map_nil, List.nil_append] at this
      rw [this]
      exact ih m st after (by simp at hn; omega) hg hc hr
  | @country fresh more rest ops h1 h2 _ ih =>
    rcases ih with ih | ⟨a, d, b, ops', rfl, hl⟩ | ih
    · exact .inl (.country h1 h2 ih)
    · exact .inr (.inl ⟨_ :: a, d, b, ops', rfl, .country h1 h2 hl⟩)
    · refine .inr (.inr ?_)
      intro n st after g' hn hg hc hr
      obtain ⟨m, rfl⟩ : ∃ m, n = m + 1 := ⟨n - 1, by simp at hn; omega⟩
      have := sheetLoop_step (n := m) (more := []) (after := rest.map toRec ++ after) (by simp) (country_step (E := E) h1 h2 more st hc (rest.map toRec ++ after))
      rw [List.map_cons, List.cons_append]
      rw [List.map_nil, List.nil_append] at this
      rw [this]
      exact ih m _ after (by simp at hn; omega) hg (.inr rfl) hr
  | @object fresh rs rest ops h1 _ ih =>
    rcases ih with ih | ⟨a, d, b, ops', rfl, hl⟩ | ih
    · exact .inl (.object h1 ih)
    · exact .inr (.inl ⟨rs ++ a, d, b, ops', by simp, by rw [List.append_assoc]; exact .object h1 hl⟩)
    · refine .inr (.inr ?_)
      intro n st after g' hn hg hc hr
      obtain ⟨o, hs⟩ := hf.obj rs h1 st.obj (rest.map toRec ++ after)
      obtain ⟨m, hm, e⟩ := objSteps_loop hs n st rfl (by simp at hn; omega)
      rw [List.map_append, List.append_assoc, e]
      exact ih m _ after (by simp at hn; omega) hg hc hr
  | @chart fresh code data eof rs rest ops h1 h2 h3 _ ih =>
    rcases ih with ih | ⟨a, d, b, ops', rfl, hl⟩ | ih
    · exact .inl (.chart h1 h2 h3 ih)
    · exact .inr (.inl ⟨(code, data) :: (rs ++ (0xA, eof) :: a), d, b, ops', by simp, by
        have := SheetRecs.chart (eof := eof) h1 h2 h3 hl
        simpa using this⟩)
    · refine .inr (.inr ?_)
      intro n st after g' hn hg hc hr
      obtain ⟨m, rfl⟩ : ∃ m, n = m + 1 := ⟨n - 1, by simp at hn; omega⟩
      have hs := chart_step (E := E) (eof := eof) h1 h2 h3 st (rest.map toRec ++ after)
      have := sheetLoop_step (n := m) (more := rs ++ [(0xA, eof)]) (r := (code, data)) (by rcases h1 with rfl | rfl | rfl <;> simp)
        (after := rest.map toRec ++ after) (st := st) (st' := st) (E := E) (by simpa using hs)
      rw [List.map_cons, List.map_append, List.map_cons, List.cons_append, List.append_assoc, List.cons_append]
      rw [List.map_append, List.map_cons, List.map_nil, List.append_assoc, List.singleton_append] at this
      rw [this]
      exact ih m st after (by simp at hn; omega) hg hc hr

/-- C67 exactly, for sheets without loose CONTINUE records (before BIFF 8: in a plain code page that is known): the
sheet is read as the table of its cells if and only if no text result of a formula has a character beyond the BMP (before
BIFF 8: a character of more than one byte).  With such a character there is an XLRDError or the error of the codec, and
nothing is read. -/
theorem C67_exact {σ : Type} {E : XlsEnv σ} {ctx : XlsCtx} (hf : XlsFits E ctx) (hp : PageKnown E ctx) (obj : σ)
    {countries : Nat × Nat} (hc : countries = (0, 0) ∨ countries = ctx.country) {rs : List XRec} {ops : List CellOp}
    (hrs : ∀ r ∈ rs, RecordOk r) (hs : SheetRecs false ctx true rs ops) (hl : ¬ LooseContinue ctx true rs)
    (hfit : ∀ op ∈ ops, CellOp.Fits false (xlsRows ctx.v8) 256 op) (pre post : List UInt8) :
    ((∃ g c, readSheet E false obj countries (recordsAt (pre ++ (rs.flatMap recordBytes ++ post)) pre.length) = .ok (g, c) ∧
        GridHolds ops g) ↔ SheetRecs true ctx true rs ops) ∧
    (¬ SheetRecs true ctx true rs ops → ∃ e,
      readSheet E false obj countries (recordsAt (pre ++ (rs.flatMap recordBytes ++ post)) pre.length) = .error e ∧
        TextError E ctx e) := by
  have bad : ¬ SheetRecs true ctx true rs ops → ∃ e,
      readSheet E false obj countries (recordsAt (pre ++ (rs.flatMap recordBytes ++ post)) pre.length) = .error e ∧
        TextError E ctx e := by
    intro hn
    rcases sheetLoop_any hf hp hs with h | h | h
    · exact (hn h).elim
    · exact (hl h).elim
    · obtain ⟨more, hm⟩ := recordsAt_sound hrs pre post
      have hrows : (if 80 ≤ E.bv then 65536 else 16384) = xlsRows ctx.v8 := by
        have := hf.bv
        unfold xlsRows
        cases h : ctx.v8
        · rw [h] at this
          simp at this
          rw [if_neg (by omega)]; rfl
        · rw [h] at this
          simp at this
          rw [if_pos this]; rfl
      obtain ⟨x, _, e1, _⟩ := gridInv_run (by omega) ops (gridInv_init false false (xlsRows ctx.v8) 256) (by simpa using hfit)
      obtain ⟨e, he, hk⟩ := h ((rs.map toRec ++ more).length + 1) ⟨Grid.init false false (xlsRows ctx.v8) 256, countries, obj⟩ more
        (by simp; omega) (fun _ => ⟨rfl, rfl⟩) hc e1
      refine ⟨e, ?_, hk⟩
      unfold readSheet
      dsimp only
      rw [hm, hrows, he]
  refine ⟨⟨?_, ?_⟩, bad⟩
  · rintro ⟨g, c, e, _⟩
    apply Classical.byContradiction
    intro hn
    obtain ⟨e', he, _⟩ := bad hn
    rw [he] at e
    cases e
  · intro h
    obtain ⟨g, c, e, hg, _⟩ := C67_worksheet_partial σ E ctx hf obj countries hc rs ops hrs h hfit pre post
    exact ⟨g, c, e, hg⟩

/-! ## Examples -/

/-- The sheet with the formula "😀" has no loose CONTINUE record, and is not read. -/
example (text : List UInt8 → Option (List Char)) (pre post : List UInt8) : ∃ e,
    readSheet (exXlsEnv true text) false () (0, 0) (recordsAt (pre ++ (exAstral.flatMap recordBytes ++ post)) pre.length) = .error e ∧
      (e = .xlrdError ∨ e = .unicodeError) := by
  have hl : ¬ LooseContinue (exXlsCtx true text) true exAstral := by
    rintro ⟨a, d, b, ops, e, _⟩
    have : (0x3C, d) ∈ exAstral := by rw [e]; simp
    simp [exAstral] at this
  refine (C67_exact (exXls_fits true text) (by intro h; cases h) () (.inl rfl) (by unfold RecordOk; decide) (exAstral_recs text) hl
    (by simp [CellOp.Fits, exXlsCtx, xlsRows]) pre post).2 fun h => ?_
  have hw := C67_worksheet_partial Unit _ _ (exXls_fits true text) () (0, 0) (.inl rfl) exAstral _ (by unfold RecordOk; decide) h
    (by simp [CellOp.Fits, exXlsCtx, xlsRows]) [] []
  obtain ⟨g, c, e, _⟩ := hw
  have := C67_astral_formula text
  simp only [List.nil_append, List.append_nil, List.length_nil] at e
  rw [show ((0 : Nat) : Int) = 0 from rfl, this] at e
  cases e

/-- A code page with a character of two bytes, above 127, as in cp932: each byte below is a character, and so is a byte above
with the byte after it. -/
def exPage : List UInt8 → Option (List Char)
  | [] => some []
  | [a] => if a.toNat < 128 then some [Char.ofNat a.toNat] else none
  | a :: b :: rest =>
    if a.toNat < 128 then (exPage (b :: rest)).map (Char.ofNat a.toNat :: ·)
    else (exPage rest).map (Char.ofNat (a.toNat * 256 + b.toNat) :: ·)

theorem exPage_plain : PlainPage exPage := by
  constructor
  · intro a
    induction a using exPage.induct with
    | case1 => intro b s t hs ht; simp [exPage] at hs; subst hs; simpa using ht
    | case2 a ha =>
      intro b s t hs ht
      simp only [exPage, ha, if_true, Option.some.injEq] at hs
      subst hs
      cases b with
      | nil => simp [exPage] at ht; subst ht; simp [exPage, ha]
      | cons x b => simp [exPage, ha, ht]
    | case3 a ha => intro b s t hs ht; simp [exPage, ha] at hs
    | case4 a b rest ha ih =>
      intro c s t hs ht
      simp only [exPage, ha, if_true, Option.map_eq_some_iff] at hs
      obtain ⟨s', h1, rfl⟩ := hs
      have := ih c s' t h1 ht
      simp only [List.cons_append] at this ⊢
      simp [exPage, ha, this]
    | case5 a b rest ha ih =>
      intro c s t hs ht
      simp only [exPage, ha, if_false, Option.map_eq_some_iff] at hs
      obtain ⟨s', h1, rfl⟩ := hs
      have := ih c s' t h1 ht
      simp only [List.cons_append] at this ⊢
      simp [exPage, ha, this]
  · intro b
    induction b using exPage.induct with
    | case1 => intro t h; simp [exPage] at h; subst h; simp
    | case2 a ha => intro t h; simp [exPage, ha] at h; subst h; simp
    | case3 a ha => intro t h; simp [exPage, ha] at h
    | case4 a b rest ha ih =>
      intro t h
      simp only [exPage, ha, if_true, Option.map_eq_some_iff] at h
      obtain ⟨s, h1, rfl⟩ := h
      have := ih s h1
      simp only [List.length_cons] at this ⊢
      omega
    | case5 a b rest ha ih =>
      intro t h
      simp only [exPage, ha, if_false, Option.map_eq_some_iff] at h
      obtain ⟨s, h1, rfl⟩ := h
      have := ih s h1
      simp only [List.length_cons] at this ⊢
      omega

/-- The hypothesis on the code page can be met, and a text of two ASCII characters is read in this code page. -/
example : PageKnown (exXlsEnv false exPage) (exXlsCtx false exPage) ∧
    StringRecs true (exXlsCtx false exPage) [2, 0, 0x61, 0x62] [] ['a', 'b'] := by
  refine ⟨fun _ => ⟨exPage_plain, ?_⟩, 2, [0x61, 0x62], by omega, rfl, ?_⟩
  · intro b t h
    simp only [exXlsEnv] at h
    show exPage b = some t
    split at h
    · cases h; assumption
    · cases h
  · exact ⟨⟨[0x61, 0x62], .last (b := [0x61, 0x62]), by decide +kernel⟩, fun _ => .last (by decide +kernel) rfl⟩

end CP
