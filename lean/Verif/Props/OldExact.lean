import Verif.Spec.OldExact
import Verif.Props.StringExact
import Verif.Props.XlsOld
/-!
# C81: exactly which files of Excel 2, 3 and 4 are read
-/

namespace CP
open Spec

section

variable {σ τ : Type} {E : BookEnv σ τ} {c : BookCtx} {K : Globals τ} {v : OldVer} {s : OldInfo} {fresh : Bool} {st : OldSt σ τ}

/-- What is raised for a text of a formula: an XLRDError, or what decoding raises. -/
def OldTextError (E : BookEnv σ τ) (e : Exc) : Prop := e = .xlrdError ∨ ∃ name b, E.codec name b = .error e

/-- The code pages are known and plain. -/
def PagesKnown (E : BookEnv σ τ) (c : BookCtx) : Prop :=
  ∀ name, PlainPage (c.codec name) ∧ ∀ b t, E.codec name b = .ok t → c.codec name b = some t

theorem old_textError (hf : BookFits E c) (h8 : c.v8 = false) (h : OldInv c K v s fresh st) {bv : Nat} {b : Bytes} {e : Exc}
    (he : (oldEnv E bv st).text b = .error e) : OldTextError E e := by
  refine .inr ⟨textName s.page, b, ?_⟩
  have : oldText E st b = .error e := he
  rw [h.textEq hf h8] at this
  exact this

theorem old_pageKnown (hf : BookFits E c) (h8 : c.v8 = false) (hp : PagesKnown E c) (h : OldInv c K v s fresh st) (bv : Nat)
    (xfType : Nat → Option Nat) : PageKnown (oldEnv E bv st) (oldCtx c s xfType) := by
  intro _
  refine ⟨(hp _).1, fun b t hb => (hp (textName s.page)).2 b t ?_⟩
  have : oldText E st b = .ok t := hb
  rw [h.textEq hf h8] at this
  exact this

theorem oldString_any (hf : BookFits E c) (h8 : c.v8 = false) (hp : PagesKnown E c) {first : Bytes} {conts : List Bytes} {t : List Char}
    (ht : OldStringRecs false c s first conts t) :
    OldStringRecs true c s first conts t ∨ ∀ (st : OldSt σ τ) (fresh : Bool) (bv : Nat), bv < 30 → OldInv c K v s fresh st →
      ∀ (r : Rec) (after : List Rec), r.code ≠ xlContinue →
      ∃ e, stringContents (oldEnv E bv st) first (contRecs conts ++ r :: after) = .error e ∧ OldTextError E e := by
  obtain ⟨n, b, all, hn, rfl, h1, h2, -⟩ := ht
  by_cases hone : OneEach (c.codec (textName s.page)) b conts t
  · exact .inl ⟨n, b, all, hn, rfl, h1, h2, fun _ => hone⟩
  · refine .inr fun st fresh bv hb h r after hr => ?_
    have htk : (leBytes 1 n ++ b).take 1 = leBytes 1 n := by
      have := List.take_left (l₁ := leBytes 1 n) (l₂ := b)
      rwa [leBytes_length] at this
    have hd : (leBytes 1 n ++ b).drop 1 = b := by
      have := List.drop_left (l₁ := leBytes 1 n) (l₂ := b)
      rwa [leBytes_length] at this
    obtain ⟨hpl, htext⟩ := old_pageKnown hf h8 hp h bv (fun _ => none) rfl
    unfold stringContents
    dsimp only
    rw [if_neg (show ¬ 30 ≤ (oldEnv E bv st).bv from Nat.not_le.2 hb), htk, hd, unpackNat_leBytes (by omega)]
    rcases strLoop5_any hpl htext (show bv < 80 by omega) h1 n r after hr (Nat.le_refl _) with ⟨-, t', h3, h4⟩ | ⟨e, he, hk⟩
    · have h2' : (oldCtx c s fun _ => none).text all = some t := h2
      rw [h2'] at h4
      cases h4
      exact (hone h3).elim
    · refine ⟨e, he, ?_⟩
      rcases hk with hk | ⟨b', hk⟩
      · exact .inl hk
      · exact old_textError hf h8 h hk

theorem oldFormulaText_error {E : XlsEnv σ} {between : List XRec} {first : Bytes} {L : List Rec} {e : Exc} (hbt : OldBetween between)
    (hs : stringContents E first L = .error e) : formulaText E (between.map toRec ++ toRec (0x7, first) :: L) = .error e := by
  rcases hbt with rfl | ⟨code, data, rfl, hc⟩
  · rw [List.map_nil, List.nil_append, formulaText.eq_def]
    dsimp only [toRec]
    rw [if_pos (.inr rfl), hs]
  · have hbo : betweenOk (toRec (code, data)) = .ok () := by
      unfold betweenOk toRec
      dsimp only
      rcases hc with rfl | rfl | rfl <;> rw [if_neg (by decide), if_neg (by decide), if_pos (by decide)]
    have hn : ¬ (code = xlString ∨ code = xlStringB2) := by rcases hc with rfl | rfl | rfl <;> decide
    rw [List.map_cons, List.map_nil, List.singleton_append, formulaText.eq_def]
    dsimp only
    rw [if_neg (show ¬ ((toRec (code, data)).code = xlString ∨ (toRec (code, data)).code = xlStringB2) from hn), hbo]
    dsimp only
    rw [if_pos (.inr rfl), show (toRec (0x7, first)).data = first from rfl, hs]

/-- Records of cells of BIFF 2 are read, or raise if no CONTINUE record comes after them. -/
theorem oldCells_any (hf : BookFits E c) (h8 : c.v8 = false) (hp : PagesKnown E c) {rs : List XRec} {ops : List CellOp}
    (h : OldCells false c s rs ops) :
    OldCells true c s rs ops ∨ ∃ r more, rs = r :: more ∧ r.1 ≠ 0xA ∧
      ∀ (st : OldSt σ τ) (fresh : Bool), OldInv c K .v2 s fresh st → ∀ (q : Rec) (after : List Rec), q.code ≠ xlContinue →
        ∃ e, oldStep E 21 st (toRec r) (more.map toRec ++ q :: after) = .error e ∧ OldTextError E e := by
  cases h with
  | number h1 h2 h3 => exact .inl (.number h1 h2 h3)
  | integer h1 h2 => exact .inl (.integer h1 h2)
  | label h1 h2 => exact .inl (.label h1 h2)
  | bool h1 => exact .inl (.bool h1)
  | error h1 => exact .inl (.error h1)
  | fmlaNumber h1 h2 h3 h4 => exact .inl (.fmlaNumber h1 h2 h3 h4)
  | fmlaBool h1 h2 => exact .inl (.fmlaBool h1 h2)
  | fmlaError h1 h2 => exact .inl (.fmlaError h1 h2)
  | fmlaEmpty h1 h2 => exact .inl (.fmlaEmpty h1 h2)
  | @fmlaText row col typ head x1 x2 x3 x4 x5 more between first conts t xf h1 h4 h5 h6 =>
    rcases oldString_any (K := K) (v := .v2) hf h8 hp h6 with h6 | hbad
    · exact .inl (.fmlaText h1 h4 h5 h6)
    · refine .inr ⟨_, _, rfl, by simp, ?_⟩
      intro st fresh hi q after hq
      have ea : (between ++ (0x7, first) :: conts.map fun d => (0x3C, d)).map toRec ++ q :: after =
          between.map toRec ++ toRec (0x7, first) :: (contRecs conts ++ q :: after) := by
        simp [contRecs, Function.comp_def]
      rw [ea]
      obtain ⟨hl, attr, ha, hfields⟩ := oldHead_fields h1
      obtain ⟨f1, f2, f3⟩ := hfields ([0, x1, x2, x3, x4, x5, 0xFF, 0xFF] ++ more)
      obtain ⟨st', n, e, h', e1, e2, ht⟩ := hi.fix ha
      obtain ⟨err, he, hk⟩ := hbad st' _ 21 (by omega) h' q after hq
      replace he := oldFormulaText_error h5 he
      generalize between.map toRec ++ toRec (0x7, first) :: (contRecs conts ++ q :: after) = L at he ⊢
      refine ⟨err, ?_, hk⟩
      unfold oldStep
      rw [if_neg (show ¬ (toRec (0x6, _)).code ∈ oldCodes by show ¬ 0x6 ∈ oldCodes; decide),
        if_pos (show (toRec (0x6, _)).code ∈ xlFormulas ∧ 21 < 30 from ⟨by show 0x6 ∈ xlFormulas; decide, by omega⟩)]
      show oldFormula E 21 st (head ++ [0, x1, x2, x3, x4, x5, 0xFF, 0xFF] ++ more) L = _
      unfold oldFormula
      rw [List.append_assoc, if_pos (by simp; omega), f1, f2, f3, e]
      dsimp only
      rw [pySlice_at rfl hl.symm (by simp)]
      have hk' : leNat (pySlice [0, x1, x2, x3, x4, x5, 0xFF, 0xFF] 0 1) = 0 := by simp [pySlice, leNat]
      unfold formulaCell
      dsimp only
      rw [pySlice_drop6 rfl, if_pos (by simp), hk', if_pos rfl, he]

theorem oldRecs_cons {whole : Bool} {rs : List XRec} {ops : List CellOp} {page : Option Nat} {mode : Nat}
    (h : OldRecs whole c v s fresh rs ops page mode) : ∃ r rest, rs = r :: rest := by
  induction h with
  | cells2 _ _ _ ih | cells _ _ _ _ ih | object _ _ _ _ ih =>
    obtain ⟨r, tl, rfl⟩ := ih
    exact List.exists_cons_of_ne_nil (by simp)
  | _ => exact ⟨_, _, rfl⟩

/-- The records are not read. -/
def OldBad (E : BookEnv σ τ) (c : BookCtx) (K : Globals τ) (v : OldVer) (bv : Nat) (s : OldInfo) (fresh : Bool) (rs : List XRec)
    (ops : List CellOp) : Prop :=
  ∀ (n : Nat) (st : OldSt σ τ) (after : List Rec) {g' : Grid}, rs.length ≤ n → OldInv c K v s fresh st → st.grid.fmt = false →
    (fresh = true → st.grid.nrows = 0 ∧ st.grid.ncols = 0) → st.grid.run ops = (g', none) →
    ∃ e, oldLoop E bv n st (rs.map toRec ++ after) = .error e ∧ OldTextError E e

/-- The records of a sheet are those that are read, or there is a loose CONTINUE record, or the sheet is not read. -/
theorem oldLoop_any (hf : BookFits E c) (h8 : c.v8 = false) (hp : PagesKnown E c) {bv : Nat} (hb : VerOk v bv) {rs : List XRec}
    {ops : List CellOp} {page : Option Nat} {mode : Nat} (h : OldRecs false c v s fresh rs ops page mode) :
    OldRecs true c v s fresh rs ops page mode ∨ LooseOld c v s fresh rs ∨ OldBad E c K v bv s fresh rs ops := by
  have one : ∀ {s s' : OldInfo} {fresh : Bool} {r : XRec} {rest : List XRec} {ops : List CellOp},
      r.1 ≠ 0xA →
      (∀ (st : OldSt σ τ) (after : List Rec), OldInv c K v s fresh st → (fresh = true → st.grid.nrows = 0 ∧ st.grid.ncols = 0) →
        ∃ st', oldStep E bv st (toRec r) after = .ok (st', 0) ∧ OldInv c K v s' fresh st' ∧ st'.grid = st.grid) →
      OldBad E c K v bv s' fresh rest ops → OldBad E c K v bv s fresh (r :: rest) ops := by
    intro s s' fresh r rest ops hne hstep ih n st after g' hn hi hg hfr hr
    obtain ⟨m, rfl⟩ : ∃ m, n = m + 1 := ⟨n - 1, by simp at hn; omega⟩
    obtain ⟨st', e, h', eg⟩ := hstep st (rest.map toRec ++ after) hi hfr
    have := oldLoop_step (n := m) (more := []) (after := rest.map toRec ++ after) hne e
    rw [List.map_nil, List.nil_append] at this
    rw [List.map_cons, List.cons_append, this]
    exact ih m st' after (by simp at hn; omega) h' (by rw [eg]; exact hg) (by rw [eg]; exact hfr) (by rw [eg]; exact hr)
  induction h with
  | eof => exact .inl .eof
  | @page s fresh n more rest ops page mode h1 h2 _ ih =>
    rcases ih with ih | ⟨a, d, b, ops', pg, md, rfl, hl⟩ | ih
    · exact .inl (.page h1 h2 ih)
    · exact .inr (.inl ⟨_ :: a, d, b, ops', pg, md, rfl, .page h1 h2 hl⟩)
    · refine .inr (.inr ?_)
      exact one (by simp) (fun st after hi _ => by
        obtain ⟨st', a, b, c, _⟩ := oldStep_page (bv := bv) hf h8 hi h1 h2 more after
        exact ⟨st', a, b, c⟩) ih
  | @mode s fresh n more rest ops page mode h1 _ ih =>
    rcases ih with ih | ⟨a, d, b, ops', pg, md, rfl, hl⟩ | ih
    · exact .inl (.mode h1 ih)
    · exact .inr (.inl ⟨_ :: a, d, b, ops', pg, md, rfl, .mode h1 hl⟩)
    · refine .inr (.inr ?_)
      exact one (by simp) (fun st after hi _ => by
        obtain ⟨st', a, b, c, _⟩ := oldStep_mode (E := E) (bv := bv) hi h1 more after
        exact ⟨st', a, b, c⟩) ih
  | @user s fresh text more rest ops page mode h1 h2 _ ih =>
    rcases ih with ih | ⟨a, d, b, ops', pg, md, rfl, hl⟩ | ih
    · exact .inl (.user h1 h2 ih)
    · exact .inr (.inl ⟨_ :: a, d, b, ops', pg, md, rfl, .user h1 h2 hl⟩)
    · refine .inr (.inr ?_)
      exact one (by simp) (fun st after hi _ => by
        obtain ⟨st', a, b, c, _⟩ := oldStep_user (bv := bv) hf h8 hi h1 h2 more after
        exact ⟨st', a, b, c⟩) ih
  | @format s fresh r code rest ops page mode h1 h2 _ ih =>
    rcases ih with ih | ⟨a, d, b, ops', pg, md, rfl, hl⟩ | ih
    · exact .inl (.format h1 h2 ih)
    · exact .inr (.inl ⟨_ :: a, d, b, ops', pg, md, rfl, .format h1 h2 hl⟩)
    · have hne : r.1 ≠ 0xA := by
        unfold OldFormatIs at h2
        split at h2 <;> (rw [h2.1]; simp)
      refine .inr (.inr ?_)
      exact one hne (fun st after hi _ => by
        obtain ⟨_, st', a, b, c, _⟩ := oldStep_format (bv := bv) hf h8 hi h1 h2 after
        exact ⟨st', a, b, c⟩) ih
  | @xf s fresh r key rest ops page mode h1 h2 h3 _ ih =>
    rcases ih with ih | ⟨a, d, b, ops', pg, md, rfl, hl⟩ | ih
    · exact .inl (.xf h1 h2 h3 ih)
    · exact .inr (.inl ⟨_ :: a, d, b, ops', pg, md, rfl, .xf h1 h2 h3 hl⟩)
    · have hne : r.1 ≠ 0xA := by
        unfold OldXfIs at h2
        split at h2 <;> (rw [h2.1]; simp)
      refine .inr (.inr ?_)
      exact one hne (fun st after hi _ => by
        obtain ⟨_, st', a, b, c, _⟩ := oldStep_xf (E := E) (bv := bv) hi h1 h2 h3 after
        exact ⟨st', a, b, c⟩) ih
  | @ixfe s fresh n rest ops page mode h1 _ ih =>
    rcases ih with ih | ⟨a, d, b, ops', pg, md, rfl, hl⟩ | ih
    · exact .inl (.ixfe h1 ih)
    · exact .inr (.inl ⟨_ :: a, d, b, ops', pg, md, rfl, .ixfe h1 hl⟩)
    · refine .inr (.inr ?_)
      exact one (by simp) (fun st after hi _ => by
        obtain ⟨st', a, b, c, _⟩ := oldStep_ixfe (E := E) (bv := bv) hi h1 after
        exact ⟨st', a, b, c⟩) ih
  | @cells2 s fresh rs ops rest more page mode hv hc h2 ih =>
    have hv' := hv
    subst hv'
    have hb21 := verOk_v2 hb
    subst hb21
    rcases oldCells_any (K := K) (E := E) hf h8 hp hc with ht | ⟨r, tl, rfl, hne, hbad⟩
    · rcases ih with ih | ⟨a, d, b, ops', pg, md, rfl, hl⟩ | ih
      · exact .inl (.cells2 rfl ht ih)
      · exact .inr (.inl ⟨rs ++ a, d, b, ops ++ ops', pg, md, by simp, by rw [List.append_assoc]; exact .cells2 rfl hc hl⟩)
      · refine .inr (.inr ?_)
        intro n st after g' hn hi hg hfr hr
        rw [run_append] at hr
        rcases hpr : st.grid.run ops with ⟨g1, _ | e⟩
        · rw [hpr] at hr
          obtain ⟨r, tl, st', rfl, hne, hs, h', eg⟩ := oldCells_step hf h8 hi hg ht hpr (rest.map toRec ++ after)
          obtain ⟨m, rfl⟩ : ∃ m, n = m + 1 := ⟨n - 1, by simp at hn; omega⟩
          have := oldLoop_step (n := m) hne hs
          rw [List.cons_append, List.map_cons, List.map_append, List.cons_append, List.append_assoc, this]
          have hf1 : g1.fmt = false := by
            have := run_fmt (oldCells_puts hc) st.grid
            rw [hpr] at this
            exact this.trans hg
          exact ih m _ after (by simp at hn; omega) h' (by rw [eg]; exact hf1) (by simp) (by rw [eg]; exact hr)
        · rw [hpr] at hr
          simp at hr
    · obtain ⟨q, rest', rfl⟩ := oldRecs_cons h2
      by_cases hq : q.1 = 0x3C
      · obtain ⟨qc, qd⟩ := q
        simp only at hq
        subst hq
        exact .inr (.inl ⟨r :: tl, qd, rest', ops ++ [], _, _, rfl, .cells2 rfl hc .eof⟩)
      · refine .inr (.inr ?_)
        intro n st after g' hn hi hg hfr hr
        obtain ⟨m, rfl⟩ : ∃ m, n = m + 1 := ⟨n - 1, by simp at hn; omega⟩
        obtain ⟨e, he, hk⟩ := hbad st _ hi (toRec q) (rest'.map toRec ++ after) hq
        refine ⟨e, ?_, hk⟩
        rw [List.cons_append, List.map_cons, List.map_append, List.map_cons, List.cons_append, List.append_assoc, List.cons_append, oldLoop,
          if_neg (show ¬ (toRec r).code = xlEof from hne), he]
  | @cells s fresh xfType rs ops rest more page mode hv hx hc h2 ih =>
    have h30 : ¬ bv < 30 := by
      unfold VerOk at hb
      cases v
      · exact absurd rfl hv
      · dsimp only at hb; omega
      · dsimp only at hb; omega
    by_cases ht : CellRecs true (oldCtx c s xfType) rs ops
    · rcases ih with ih | ⟨a, d, b, ops', pg, md, rfl, hl⟩ | ih
      · exact .inl (.cells hv hx ht ih)
      · exact .inr (.inl ⟨rs ++ a, d, b, ops ++ ops', pg, md, by simp, by rw [List.append_assoc]; exact .cells hv hx hc hl⟩)
      · refine .inr (.inr ?_)
        intro n st after g' hn hi hg hfr hr
        rw [run_append] at hr
        rcases hpr : st.grid.run ops with ⟨g1, _ | e⟩
        · rw [hpr] at hr
          obtain ⟨r, tl, rfl, hne, hs⟩ := cells_step (hi.fits hf h8 hv hb hx) ht ⟨st.grid, st.G.countries, st.obj⟩ hpr (rest.map toRec ++ after)
          obtain ⟨st', e, h', eg, _⟩ := oldStep_same hf h8 hi (cellRecs_codes hc) (fun x => absurd x h30) hs hi.countries
          obtain ⟨m, rfl⟩ : ∃ m, n = m + 1 := ⟨n - 1, by simp at hn; omega⟩
          have := oldLoop_step (n := m) hne e
          rw [List.cons_append, List.map_cons, List.map_append, List.cons_append, List.append_assoc, this]
          have hf1 : g1.fmt = false := by
            have := run_fmt (cellRecs_puts hc) st.grid
            rw [hpr] at this
            exact this.trans hg
          exact ih m _ after (by simp at hn; omega) h'.stale (by rw [eg]; exact hf1) (by simp) (by rw [eg]; exact hr)
        · rw [hpr] at hr
          simp at hr
    · obtain ⟨q, rest', rfl⟩ := oldRecs_cons h2
      by_cases hq : q.1 = 0x3C
      · obtain ⟨qc, qd⟩ := q
        simp only at hq
        subst hq
        exact .inr (.inl ⟨rs, qd, rest', ops ++ [], _, _, rfl, .cells hv hx hc .eof⟩)
      · refine .inr (.inr ?_)
        intro n st after g' hn hi hg hfr hr
        rcases cells_any (hi.fits hf h8 hv hb hx) (old_pageKnown hf h8 hp hi bv xfType) hc with ht' | ⟨r, tl, rfl, hne, hbad⟩
        · exact (ht ht').elim
        · obtain ⟨m, rfl⟩ : ∃ m, n = m + 1 := ⟨n - 1, by simp at hn; omega⟩
          obtain ⟨e, he, hk⟩ := hbad ⟨st.grid, st.G.countries, st.obj⟩ (toRec q) (rest'.map toRec ++ after) hq
          refine ⟨e, ?_, ?_⟩
          · rw [List.cons_append, List.map_cons, List.map_append, List.map_cons, List.cons_append, List.append_assoc, List.cons_append,
              oldLoop, if_neg (show ¬ (toRec r).code = xlEof from hne)]
            unfold oldStep
            rw [if_neg (cellRecs_codes hc), if_neg fun x => h30 x.2, if_neg fun x => h30 x.2, he]
          · rcases hk with hk | hk
            · exact .inl hk
            · rw [if_neg (by simp [oldCtx])] at hk
              obtain ⟨b, hk⟩ := hk
              exact old_textError hf h8 hi hk
  | @dimensions s data rest ops page mode h1 _ ih =>
    rcases ih with ih | ⟨a, d, b, ops', pg, md, rfl, hl⟩ | ih
    · exact .inl (.dimensions h1 ih)
    · exact .inr (.inl ⟨_ :: a, d, b, ops', pg, md, rfl, .dimensions h1 hl⟩)
    · refine .inr (.inr ?_)
      exact one (by split <;> simp) (fun st after hi hfr => by
        have hd : (if v = .v2 then 0x0 else 0x200) ∈ xlDimensions := by split <;> decide
        have hs := dimension2_step (E := oldEnv E bv st) (show bv < 80 by have := hb.small; omega) hd h1
          ⟨st.grid, st.G.countries, st.obj⟩ (hfr rfl) after
        obtain ⟨st', a, b, c, _⟩ := oldStep_same hf h8 hi (bv := bv) (r := toRec (if v = .v2 then 0x0 else 0x200, data))
          (by show (if v = .v2 then 0x0 else 0x200) ∉ oldCodes; split <;> decide)
          (fun _ => by
            show (if v = .v2 then 0x0 else 0x200) ∉ xlFormulas ∧ (if v = .v2 then 0x0 else 0x200) ≠ 0x23E
            split <;> decide) hs hi.countries
        exact ⟨st', a, b, c⟩) ih
  | @builtin s fresh data rest ops page mode h1 _ ih =>
    rcases ih with ih | ⟨a, d, b, ops', pg, md, rfl, hl⟩ | ih
    · exact .inl (.builtin h1 ih)
    · exact .inr (.inl ⟨_ :: a, d, b, ops', pg, md, rfl, .builtin h1 hl⟩)
    · refine .inr (.inr ?_)
      exact one (by simp) (fun st after hi _ => ⟨st, oldStep_builtin h1 after, hi, rfl⟩) ih
  | @window s fresh data rest ops page mode h1 _ ih =>
    rcases ih with ih | ⟨a, d, b, ops', pg, md, rfl, hl⟩ | ih
    · exact .inl (.window h1 ih)
    · exact .inr (.inl ⟨_ :: a, d, b, ops', pg, md, rfl, .window h1 hl⟩)
    · refine .inr (.inr ?_)
      exact one (by simp) (fun st after hi _ => ⟨st, oldStep_window h1 after, hi, rfl⟩) ih
  | @aside s fresh r rest ops page mode h1 h2 h3 _ ih =>
    rcases ih with ih | ⟨a, d, b, ops', pg, md, rfl, hl⟩ | ih
    · exact .inl (.aside h1 h2 h3 ih)
    · exact .inr (.inl ⟨_ :: a, d, b, ops', pg, md, rfl, .aside h1 h2 h3 hl⟩)
    · have hne : r.1 ≠ 0xA := fun e => h1.1 (by rw [e]; decide)
      refine .inr (.inr ?_)
      exact one hne (fun st after hi _ => by
        obtain ⟨st', a, b, c, _⟩ := oldStep_aside hf h8 hi hb h1 h2 h3 after
        exact ⟨st', a, b, c⟩) ih
  | @country s fresh more rest ops page mode h1 h2 _ ih =>
    rcases ih with ih | ⟨a, d, b, ops', pg, md, rfl, hl⟩ | ih
    · exact .inl (.country h1 h2 ih)
    · exact .inr (.inl ⟨_ :: a, d, b, ops', pg, md, rfl, .country h1 h2 hl⟩)
    · refine .inr (.inr ?_)
      exact one (by simp) (fun st after hi _ => by
        have hs := country_step (E := oldEnv E bv st) h1 h2 more ⟨st.grid, st.G.countries, st.obj⟩ hi.countries after
        obtain ⟨st', a, b, c, _⟩ := oldStep_same hf h8 hi (bv := bv)
          (r := toRec (0x8C, leBytes 2 c.country.1 ++ leBytes 2 c.country.2 ++ more))
          (by show 0x8C ∉ oldCodes; decide) (fun _ => by show 0x8C ∉ xlFormulas ∧ 0x8C ≠ 0x23E; decide) hs (.inr rfl)
        exact ⟨st', a, b, c⟩) ih
  | @object s fresh rs rest ops page mode h1 h2 h3 _ ih =>
    rcases ih with ih | ⟨a, d, b, ops', pg, md, rfl, hl⟩ | ih
    · exact .inl (.object h1 h2 h3 ih)
    · exact .inr (.inl ⟨rs ++ a, d, b, ops', pg, md, by simp, by rw [List.append_assoc]; exact .object h1 h2 h3 hl⟩)
    · refine .inr (.inr ?_)
      intro n st after g' hn hi hg hfr hr
      obtain ⟨o, hs⟩ := hf.obj _ rs h1 bv (E.decode (some (textName s.page))) (by have := hb.small; simp [h8]; omega)
        (fun b t hbt => hf.codec _ _ _ hbt) st.obj (rest.map toRec ++ after)
      obtain ⟨m, st', hm, e, h', eg⟩ := oldObjs_loop hf h8 hb hs h2 h3 n st hi rfl (by simp at hn; omega)
      rw [List.map_append, List.append_assoc, e]
      exact ih m st' after (by simp at hn; omega) h' (by rw [eg]; exact hg) (by rw [eg]; exact hfr) (by rw [eg]; exact hr)
  | @chart s fresh code data eof rs rest ops page mode h1 h2 h3 _ ih =>
    rcases ih with ih | ⟨a, d, b, ops', pg, md, rfl, hl⟩ | ih
    · exact .inl (.chart h1 h2 h3 ih)
    · exact .inr (.inl ⟨(code, data) :: (rs ++ (0xA, eof) :: a), d, b, ops', pg, md, by simp, by
        have := OldRecs.chart (eof := eof) h1 h2 h3 hl
        simpa using this⟩)
    · refine .inr (.inr ?_)
      intro n st after g' hn hi hg hfr hr
      obtain ⟨m, rfl⟩ : ∃ m, n = m + 1 := ⟨n - 1, by simp at hn; omega⟩
      have hs := chart_step (E := oldEnv E bv st) (eof := eof) (.inr h1) h2 h3 ⟨st.grid, st.G.countries, st.obj⟩ (rest.map toRec ++ after)
      obtain ⟨st', e, h', eg, _⟩ := oldStep_same hf h8 hi (bv := bv) (r := toRec (code, data))
        (by show code ∉ oldCodes; rcases h1 with rfl | rfl <;> decide)
        (fun _ => by show code ∉ xlFormulas ∧ code ≠ 0x23E; rcases h1 with rfl | rfl <;> decide) hs hi.countries
      have := oldLoop_step (n := m) (more := rs ++ [(0xA, eof)]) (r := (code, data)) (by rcases h1 with rfl | rfl <;> simp)
        (after := rest.map toRec ++ after) (st := st) (st' := st') (E := E) (by simpa using e)
      rw [List.map_cons, List.map_append, List.map_cons, List.cons_append, List.append_assoc, List.cons_append]
      rw [List.map_append, List.map_cons, List.map_nil, List.append_assoc, List.singleton_append] at this
      rw [this]
      exact ih m st' after (by simp at hn; omega) h' (by rw [eg]; exact hg) (by rw [eg]; exact hfr) (by rw [eg]; exact hr)

theorem readOldSheet_bad (hf : BookFits E c) (h8 : c.v8 = false) (hpk : PagesKnown E c) {bv : Nat} (hb : VerOk v bv)
    {page page' : Option Nat} {mode mode' : Nat} {G : Globals τ} (hG : BaseInv c page mode G) (hform : G.formats = [])
    (hxfs : G.xfs = []) (htypes : G.xfTypes = [(0, xlNumber)]) {rs : List XRec} {ops : List CellOp} (hrs : ∀ r ∈ rs, RecordOk r)
    (h : OldRecs false c v ⟨page, mode, [], [], none⟩ true rs ops page' mode')
    (hn : ¬ OldRecs true c v ⟨page, mode, [], [], none⟩ true rs ops page' mode')
    (hl : ¬ LooseOld c v ⟨page, mode, [], [], none⟩ true rs)
    (hfit : ∀ row col x, .put row col x ∈ ops → row < 16384 ∧ col < 256) (pre post : Bytes) :
    ∃ e, readOldSheet E bv G (recordsAt (pre ++ (rs.flatMap recordBytes ++ post)) pre.length) = .error e ∧ OldTextError E e := by
  obtain ⟨more, hm⟩ := recordsAt_sound hrs pre post
  have hfits : ∀ op ∈ ops, CellOp.Fits false 16384 256 op := by
    intro op hop
    obtain ⟨r, k, v, rfl⟩ := oldRecs_puts h op hop
    exact ⟨(hfit r k v hop).1, (hfit r k v hop).2, by simp⟩
  obtain ⟨x, _, e1, _⟩ := gridInv_run (by omega) ops (gridInv_init false false 16384 256) (by simpa using hfits)
  have hinit : OldInv c G v ⟨page, mode, [], [], none⟩ true
      ⟨G, 0, false, bv, none, [], Grid.init false false 16384 256, E.obj0⟩ := by
    refine ⟨hG.enc, hG.user, hG.mode, hG.countries, hG.sst, ⟨rfl, rfl, rfl⟩, rfl, ?_, ?_, ?_, rfl, .inl ⟨hb, rfl, hxfs, ?_⟩⟩
    · intro k code hk
      simp at hk
    · intro k b _ hd
      rw [show (dget G.formats k) = none by rw [hform]; rfl] at hd
      cases hd
    · intro k hk
      cases hk
    · show TypesAre _ G.xfTypes
      rw [htypes]
      exact typesAre_init
  obtain ⟨e, he, hk⟩ := ((oldLoop_any (K := G) hf h8 hpk hb h).resolve_left hn).resolve_left hl ((rs.map toRec ++ more).length + 1) _ more
    (by simp; omega) hinit rfl (fun _ => ⟨rfl, rfl⟩) e1
  refine ⟨e, ?_, hk⟩
  unfold readOldSheet
  rw [hm, he]

theorem loose_left {v : OldVer} {x y : List UInt8} (h : LooseSheet c v y) : LooseSheet c v (x ++ y) := by
  obtain ⟨a, version, bof, rs, s, b, rfl, h⟩ := h
  exact ⟨x ++ a, version, bof, rs, s, b, by simp, h⟩

/-- A book of Excel 4 is one that is read, or has a loose CONTINUE record, or is not read. -/
theorem loop4_any (hf : BookFits E c) (h8 : c.v8 = false) (hpk : PagesKnown E c) {base : Int} {s : Old4Info} {bytes : Bytes} {mode : Nat}
    {sheets : List (List Char × List CellOp)} (h : Old4Recs false c s bytes mode sheets) :
    Old4Recs true c s bytes mode sheets ∨ LooseSheet c .v4 bytes ∨
      ∀ (n : Nat) (st : Old4W τ) (pre post : Bytes), bytes.length ≤ n → Old4Inv E c s st →
        ∃ e, loop4 E base (pre ++ (bytes ++ post)) n st pre.length = .error e ∧ OldTextError E e := by
  induction h with
  | eof hr h1 h2 => exact .inl (.eof hr h1 h2)
  | @page s k more rest mode sheets hr hk hp hrest ih =>
    rcases ih with ih | ih | ih
    · exact .inl (.page hr hk hp ih)
    · exact .inr (.inl (loose_left ih))
    · refine .inr (.inr ?_)
      intro n st pre post hn hi
      have hlen := recordBytes_pos (0x42, leBytes 2 k ++ more)
      rw [List.length_append] at hn
      obtain ⟨n, rfl⟩ : ∃ m, n = m + 1 := ⟨n - 1, by omega⟩
      obtain ⟨cp, enc, hd, h1⟩ := codepage_sound hf h8 (bv := 45) (by omega) hi.base.user hk hp more
      have e : ∀ after, globalsStep E 45 base st.G (toRec (0x42, leBytes 2 k ++ more)) after =
        (handleCodepage E 45 st.G (leBytes 2 k ++ more)).map fun G => (G, 0) := fun _ => rfl
      rw [List.append_assoc, loop4_step hr (by simp) (step4_global (by simp [toRec]) ((e _).trans (by rw [hd]; rfl))),
        show pre ++ (recordBytes (0x42, leBytes 2 k ++ more) ++ (rest ++ post)) =
          (pre ++ recordBytes (0x42, leBytes 2 k ++ more)) ++ (rest ++ post) by simp]
      exact ih n _ _ post (by omega) ⟨hi.base.coded h1 fun x hx => (nomatch hx), hi.offset, hi.sheets, hi.all, hi.names, hi.come⟩
  | @mode s k more rest mode sheets hr hk hrest ih =>
    rcases ih with ih | ih | ih
    · exact .inl (.mode hr hk ih)
    · exact .inr (.inl (loose_left ih))
    · refine .inr (.inr ?_)
      intro n st pre post hn hi
      have hlen := recordBytes_pos (0x22, leBytes 2 k ++ more)
      rw [List.length_append] at hn
      obtain ⟨n, rfl⟩ : ∃ m, n = m + 1 := ⟨n - 1, by omega⟩
      have hd : handleDatemode st.G (leBytes 2 k ++ more) = .ok { st.G with datemode := k } := by
        unfold handleDatemode
        rw [take_leBytes2, unpackNat_leBytes (by omega)]
        dsimp only
        rw [if_pos hk]
      have e : ∀ after, globalsStep E 45 base st.G (toRec (0x22, leBytes 2 k ++ more)) after =
        (handleDatemode st.G (leBytes 2 k ++ more)).map fun G => (G, 0) := fun _ => rfl
      rw [List.append_assoc, loop4_step hr (by simp) (step4_global (by simp [toRec]) ((e _).trans (by rw [hd]; rfl))),
        show pre ++ (recordBytes (0x22, leBytes 2 k ++ more) ++ (rest ++ post)) =
          (pre ++ recordBytes (0x22, leBytes 2 k ++ more)) ++ (rest ++ post) by simp]
      exact ih n _ _ post (by omega) ⟨⟨hi.base.enc, hi.base.user, rfl, hi.base.countries, hi.base.sst⟩, hi.offset, hi.sheets, hi.all, hi.names,
        hi.come⟩
  | @user s text more rest mode sheets hr h1 h2 hrest ih =>
    rcases ih with ih | ih | ih
    · exact .inl (.user hr h1 h2 ih)
    · exact .inr (.inl (loose_left ih))
    · refine .inr (.inr ?_)
      intro n st pre post hn hi
      have hlen := recordBytes_pos (0x5C, leBytes 1 text.length ++ text ++ more)
      rw [List.length_append] at hn
      obtain ⟨n, rfl⟩ : ∃ m, n = m + 1 := ⟨n - 1, by omega⟩
      have e : ∀ after, globalsStep E 45 base st.G (toRec (0x5C, leBytes 1 text.length ++ text ++ more)) after =
        (handleWriteaccess E 45 st.G (leBytes 1 text.length ++ text ++ more)).map fun G => (G, 0) := fun _ => rfl
      obtain ⟨G', hd, hG⟩ : ∃ G', handleWriteaccess E 45 st.G (leBytes 1 text.length ++ text ++ more) = .ok G' ∧
          Old4Inv E c s { st with G := G' } := by
        rcases writeaccess_sound (more := more) hf h8 (bv := 45) (by omega) hi.base.enc h1 h2 with e | e
        · exact ⟨_, e, hi⟩
        · exact ⟨_, e, hi.base.coded (cp := st.G.codepage) (enc := st.G.encoding) hi.base.enc
            fun x hx => ⟨h8, Option.some.inj hx ▸ ⟨text, more, h1, h2, rfl⟩⟩, hi.offset, hi.sheets, hi.all, hi.names, hi.come⟩
      rw [List.append_assoc, loop4_step hr (by simp) (step4_global (by simp [toRec]) ((e _).trans (by rw [hd]; rfl))),
        show pre ++ (recordBytes (0x5C, leBytes 1 text.length ++ text ++ more) ++ (rest ++ post)) =
          (pre ++ recordBytes (0x5C, leBytes 1 text.length ++ text ++ more)) ++ (rest ++ post) by simp]
      exact ih n _ _ post (by omega) hG
  | @offset s data rest mode sheets hd hrest ih =>
    rcases ih with ih | ih | ih
    · exact .inl (.offset hd ih)
    · exact .inr (.inl (loose_left ih))
    · refine .inr (.inr ?_)
      intro n st pre post hn hi
      have hlen := recordBytes_pos (0x8E, data)
      rw [List.length_append] at hn
      obtain ⟨n, rfl⟩ : ∃ m, n = m + 1 := ⟨n - 1, by omega⟩
      have e : ∀ mem pos, step4 E base mem st (toRec (0x8E, data)) pos = .ok ({ st with offset := some (leInt data) }, pos) := by
        intro mem pos
        have : step4 E base mem st (toRec (0x8E, data)) pos =
          if data.length = 4 then .ok ({ st with offset := some (leInt data) }, pos) else .error .structError := rfl
        rw [this, if_pos hd]
      rw [List.append_assoc, loop4_step ⟨by show 0x8E < 65536; omega, by show data.length < 65536; omega⟩ (by simp) (e _ _),
        show pre ++ (recordBytes (0x8E, data) ++ (rest ++ post)) = (pre ++ recordBytes (0x8E, data)) ++ (rest ++ post) by simp]
      exact ih n _ _ post (by omega) ⟨hi.base, fun _ => rfl, hi.sheets, hi.all, hi.names, hi.come⟩
  | @bound s data name rest mode sheets hr ho ht hrest ih =>
    rcases ih with ih | ih | ih
    · exact .inl (.bound hr ho ht ih)
    · exact .inr (.inl (loose_left ih))
    · refine .inr (.inr ?_)
      intro n st pre post hn hi
      have hlen := recordBytes_pos (0x85, data)
      rw [List.length_append] at hn
      obtain ⟨n, rfl⟩ : ∃ m, n = m + 1 := ⟨n - 1, by omega⟩
      obtain ⟨cp, ed, hb⟩ := hi.base.derive hf h8 (bv := 45) (by omega)
      have ho' := hi.offset ho
      obtain ⟨pos0, hpos⟩ : ∃ p, (if st.G.sheets = [] then st.offset.map (· + base) else some (-1)) = some p := by
        cases hso : st.offset with
        | none => rw [hso] at ho'; cases ho'
        | some o => split <;> exact ⟨_, rfl⟩
      have e : bound4 E base st data = .ok { st with
          G := { st.G with
                 codepage := cp, encoding := some (textName s.page), rawUser := none, allSheets := st.G.allSheets ++ [(name, 0)],
                 sheets := st.G.sheets ++ [(name, pos0)] } } := by
        unfold bound4
        rw [ed]
        dsimp only
        rw [show unpackString (E.decode (some (textName s.page))) data 0 1 = .ok name from oldText_sound (pre := []) hf rfl ht]
        dsimp only
        rw [hpos]
      have e2 : ∀ mem pos, step4 E base mem st (toRec (0x85, data)) pos = (bound4 E base st data).map fun st => (st, pos) := fun _ _ => rfl
      rw [List.append_assoc, loop4_step hr (by simp) ((e2 _ _).trans (by rw [e]; rfl)),
        show pre ++ (recordBytes (0x85, data) ++ (rest ++ post)) = (pre ++ recordBytes (0x85, data)) ++ (rest ++ post) by simp]
      refine ih n _ _ post (by omega) ⟨⟨hb.enc, hb.user, hb.mode, hb.countries, hb.sst⟩, hi.offset, ?_, ?_, hi.names, hi.come⟩
      · show (st.G.sheets ++ [(name, pos0)]).map Prod.fst = _
        rw [List.map_append, hi.sheets]
        rfl
      · show st.G.allSheets ++ [(name, 0)] = _
        rw [hi.all, List.map_append]
        rfl
  | @sheet s b name ops sheet gap page mode rest mode' sheets hr hlt ht hname hsheet hrest ih =>
    obtain ⟨version, bof, rs, rfl, hbof, hrs, hold, hfit⟩ := hsheet
    by_cases hl : LooseOld c .v4 ⟨s.page, s.mode, [], [], none⟩ true rs
    · exact .inr (.inl ⟨recordBytes (0x8F, leBytes 4 ((recordBytes (oldBof .v4, bof) ++ rs.flatMap recordBytes) ++ gap).length ++ b), version, bof, rs, _,
        gap ++ rest, by simp, hbof, hl⟩)
    by_cases ht' : OldRecs true c .v4 ⟨s.page, s.mode, [], [], none⟩ true rs ops page mode
    · rcases ih with ih | ih | ih
      · exact .inl (.sheet hr hlt ht hname ⟨version, bof, rs, rfl, hbof, hrs, ht', hfit⟩ ih)
      · exact .inr (.inl (loose_left (loose_left ih)))
      · refine .inr (.inr ?_)
        intro n st pre post hn hi
        generalize hdata : leBytes 4 (recordBytes (oldBof .v4, bof) ++ rs.flatMap recordBytes ++ gap).length ++ b = data at hr hn ⊢
        have hlen := recordBytes_pos (0x8F, data)
        rw [List.length_append, List.length_append] at hn
        obtain ⟨n, rfl⟩ : ∃ m, n = m + 1 := ⟨n - 1, by omega⟩
        obtain ⟨cp, ed, hb⟩ := hi.base.derive hf h8 (bv := 45) (by omega)
        have htake : data.take 4 = leBytes 4 ((recordBytes (oldBof .v4, bof) ++ rs.flatMap recordBytes) ++ gap).length := by
          rw [← hdata, List.take_left' (by rw [leBytes_length])]
        obtain ⟨w, hw⟩ : ∃ p, st.G.sheets[st.done.length]? = some (name, p) := by
          have : (st.G.sheets.map Prod.fst)[st.done.length]? = some name := by rw [hi.sheets, hi.come, hname]
          rw [List.getElem?_map] at this
          cases hx : st.G.sheets[st.done.length]? with
          | none => rw [hx] at this; cases this
          | some q =>
            rw [hx] at this
            exact ⟨q.2, congrArg some (Prod.ext (Option.some.inj this) rfl)⟩
        have hG : BaseInv c s.page s.mode ({ st.G with codepage := cp, encoding := some (textName s.page), rawUser := none } : Globals τ).noFormats :=
          ⟨hb.enc, hb.user, hb.mode, hb.countries, hb.sst⟩
        have hbo := getbof_old (rqd := 0x10) (.inr (.inr rfl)) hbof (.inl rfl) (pre ++ recordBytes (0x8F, data))
          (rs.flatMap recordBytes ++ (gap ++ (rest ++ post)))
        obtain ⟨G', g, hread, hold', hbase', k1, k2, k3⟩ := readOldSheet_sound hf h8 (v := .v4) (bv := 45) (.inr rfl) hG rfl rfl rfl hrs ht' hfit
          (pre ++ recordBytes (0x8F, data) ++ recordBytes (0x409, bof)) (gap ++ (rest ++ post))
        have hmem : pre ++ (recordBytes (0x8F, data) ++ (recordBytes (oldBof .v4, bof) ++ rs.flatMap recordBytes ++ gap ++ rest) ++ post) =
            pre ++ recordBytes (0x8F, data) ++ (recordBytes (0x409, bof) ++ (rs.flatMap recordBytes ++ (gap ++ (rest ++ post)))) := by
          simp [oldBof]
        have hmem2 : pre ++ recordBytes (0x8F, data) ++ recordBytes (0x409, bof) ++ (rs.flatMap recordBytes ++ (gap ++ (rest ++ post))) =
            pre ++ recordBytes (0x8F, data) ++ (recordBytes (0x409, bof) ++ (rs.flatMap recordBytes ++ (gap ++ (rest ++ post)))) := by
          simp
        rw [hmem2] at hread
        have e : sheetHeader E (pre ++ recordBytes (0x8F, data) ++ (recordBytes (0x409, bof) ++ (rs.flatMap recordBytes ++ (gap ++ (rest ++ post)))))
            st data ((pre ++ recordBytes (0x8F, data)).length : Nat) =
            .ok (⟨G', 0, st.offset, st.done ++ [⟨name, g⟩]⟩,
              ((pre ++ recordBytes (0x8F, data) ++ (recordBytes (oldBof .v4, bof) ++ rs.flatMap recordBytes ++ gap)).length : Nat)) := by
          unfold sheetHeader
          rw [ed]
          dsimp only
          rw [htake, if_pos (by rw [leBytes_length]), leInt_nat hlt,
            show unpackString (E.decode (some (textName s.page))) data 4 1 = .ok name from
              hdata ▸ oldText_sound hf (by rw [leBytes_length]) ht]
          dsimp only
          rw [hw]
          dsimp only
          rw [if_neg (by simp), hbo]
          dsimp only
          rw [hread]
          dsimp only
          congr 2
          rw [List.length_append (as := pre ++ recordBytes (0x8F, data))]
          omega
        have e2 : ∀ mem pos, step4 E base mem st (toRec (0x8F, data)) pos = sheetHeader E mem st data pos := fun _ _ => rfl
        have hloop := loop4_step (E := E) (base := base) (n := n) (pre := pre)
          (post := recordBytes (0x409, bof) ++ (rs.flatMap recordBytes ++ (gap ++ (rest ++ post)))) hr (by simp)
          ((e2 _ _).trans (by rw [← List.append_assoc]; exact e))
        rw [← List.append_assoc] at hloop
        rw [hmem, hloop]
        obtain ⟨err, r1, r2⟩ := ih n ⟨G', 0, st.offset, st.done ++ [⟨name, g⟩]⟩
          (pre ++ recordBytes (0x8F, data) ++ (recordBytes (oldBof .v4, bof) ++ rs.flatMap recordBytes ++ gap)) post
          (by rw [List.length_append] at hn; omega)
          ⟨hbase', hi.offset, k1 ▸ hi.sheets, k2 ▸ hi.all, k3 ▸ hi.names, by rw [List.length_append, hi.come]; rfl⟩
        refine ⟨err, ?_, r2⟩
        rw [← r1]
        congr 1
        simp [oldBof]
    · refine .inr (.inr ?_)
      intro n st pre post hn hi
      generalize hdata : leBytes 4 (recordBytes (oldBof .v4, bof) ++ rs.flatMap recordBytes ++ gap).length ++ b = data at hr hn ⊢
      have hlen := recordBytes_pos (0x8F, data)
      rw [List.length_append, List.length_append] at hn
      obtain ⟨n, rfl⟩ : ∃ m, n = m + 1 := ⟨n - 1, by omega⟩
      obtain ⟨cp, ed, hb⟩ := hi.base.derive hf h8 (bv := 45) (by omega)
      have htake : data.take 4 = leBytes 4 ((recordBytes (oldBof .v4, bof) ++ rs.flatMap recordBytes) ++ gap).length := by
        rw [← hdata, List.take_left' (by rw [leBytes_length])]
      obtain ⟨w, hw⟩ : ∃ p, st.G.sheets[st.done.length]? = some (name, p) := by
        have : (st.G.sheets.map Prod.fst)[st.done.length]? = some name := by rw [hi.sheets, hi.come, hname]
        rw [List.getElem?_map] at this
        cases hx : st.G.sheets[st.done.length]? with
        | none => rw [hx] at this; cases this
        | some q =>
          rw [hx] at this
          exact ⟨q.2, congrArg some (Prod.ext (Option.some.inj this) rfl)⟩
      have hG : BaseInv c s.page s.mode ({ st.G with codepage := cp, encoding := some (textName s.page), rawUser := none } : Globals τ).noFormats :=
        ⟨hb.enc, hb.user, hb.mode, hb.countries, hb.sst⟩
      have hbo := getbof_old (rqd := 0x10) (.inr (.inr rfl)) hbof (.inl rfl) (pre ++ recordBytes (0x8F, data))
        (rs.flatMap recordBytes ++ (gap ++ (rest ++ post)))
      obtain ⟨err, hread, hk⟩ := readOldSheet_bad hf h8 hpk (v := .v4) (bv := 45) (.inr rfl) hG rfl rfl rfl hrs hold ht' hl hfit
        (pre ++ recordBytes (0x8F, data) ++ recordBytes (0x409, bof)) (gap ++ (rest ++ post))
      have hmem : pre ++ (recordBytes (0x8F, data) ++ (recordBytes (oldBof .v4, bof) ++ rs.flatMap recordBytes ++ gap ++ rest) ++ post) =
          pre ++ recordBytes (0x8F, data) ++ (recordBytes (0x409, bof) ++ (rs.flatMap recordBytes ++ (gap ++ (rest ++ post)))) := by
        simp [oldBof]
      have hmem2 : pre ++ recordBytes (0x8F, data) ++ recordBytes (0x409, bof) ++ (rs.flatMap recordBytes ++ (gap ++ (rest ++ post))) =
          pre ++ recordBytes (0x8F, data) ++ (recordBytes (0x409, bof) ++ (rs.flatMap recordBytes ++ (gap ++ (rest ++ post)))) := by
        simp
      rw [hmem2] at hread
      have e : sheetHeader E (pre ++ recordBytes (0x8F, data) ++ (recordBytes (0x409, bof) ++ (rs.flatMap recordBytes ++ (gap ++ (rest ++ post)))))
          st data ((pre ++ recordBytes (0x8F, data)).length : Nat) =
          .error err := by
        unfold sheetHeader
        rw [ed]
        dsimp only
        rw [htake, if_pos (by rw [leBytes_length]), leInt_nat hlt,
          show unpackString (E.decode (some (textName s.page))) data 4 1 = .ok name from
            hdata ▸ oldText_sound hf (by rw [leBytes_length]) ht]
        dsimp only
        rw [hw]
        dsimp only
        rw [if_neg (by simp), hbo]
        dsimp only
        rw [hread]
      have e2 : ∀ mem pos, step4 E base mem st (toRec (0x8F, data)) pos = sheetHeader E mem st data pos := fun _ _ => rfl
      refine ⟨err, ?_, hk⟩
      rw [hmem]
      have hmem3 : pre ++ recordBytes (0x8F, data) ++ (recordBytes (0x409, bof) ++ (rs.flatMap recordBytes ++ (gap ++ (rest ++ post)))) =
          pre ++ (recordBytes (0x8F, data) ++ (recordBytes (0x409, bof) ++ (rs.flatMap recordBytes ++ (gap ++ (rest ++ post))))) := by
        simp
      rw [hmem3] at e ⊢
      rw [loop4, recordAt_sound hr]
      dsimp only
      rw [if_neg (show ¬ (toRec (0x8F, data)).code = xlEof by show ¬ 0x8F = 0xA; omega), e2, e]
  | @format s a b code rest mode sheets hr ha ht hrest ih =>
    rcases ih with ih | ih | ih
    · exact .inl (.format hr ha ht ih)
    · exact .inr (.inl (loose_left ih))
    · refine .inr (.inr ?_)
      intro n st pre post hn hi
      have hlen := recordBytes_pos (0x41E, a ++ b)
      rw [List.length_append] at hn
      obtain ⟨n, rfl⟩ : ∃ m, n = m + 1 := ⟨n - 1, by omega⟩
      obtain ⟨cp, u, ed, h1, h2⟩ := ensure_sound hf h8 (bv := 45) (by omega) hi.base.enc hi.base.user
      have hb := hi.base.coded h1 h2
      have e : oldFormat E 45 0x41E st.G st.fmtCount (a ++ b) = .ok { st.G with
          codepage := cp, encoding := some (textName s.page), rawUser := u, formats := dset st.G.formats st.fmtCount (isDateFormat code) } := by
        unfold oldFormat
        rw [ed]
        dsimp only
        rw [if_neg (by omega : ¬ (1054 : Nat) = 0x1E), if_neg (by omega), oldText_sound hf ha.symm ht]
      have e2 : ∀ mem pos, step4 E base mem st (toRec (0x41E, a ++ b)) pos = (oldFormat E 45 0x41E st.G st.fmtCount (a ++ b)).map
        fun G => ({ st with G := G, fmtCount := st.fmtCount + 1 }, pos) := fun _ _ => rfl
      rw [List.append_assoc, loop4_step hr (by simp) ((e2 _ _).trans (by rw [e]; rfl)),
        show pre ++ (recordBytes (0x41E, a ++ b) ++ (rest ++ post)) = (pre ++ recordBytes (0x41E, a ++ b)) ++ (rest ++ post) by simp]
      exact ih n _ _ post (by omega) ⟨⟨hb.enc, hb.user, hb.mode, hb.countries, hb.sst⟩, hi.offset, hi.sheets, hi.all, hi.names, hi.come⟩
  | @country s more rest mode sheets hr hc1 hc2 hrest ih =>
    rcases ih with ih | ih | ih
    · exact .inl (.country hr hc1 hc2 ih)
    · exact .inr (.inl (loose_left ih))
    · refine .inr (.inr ?_)
      intro n st pre post hn hi
      have hlen := recordBytes_pos (0x8C, leBytes 2 c.country.1 ++ leBytes 2 c.country.2 ++ more)
      rw [List.length_append] at hn
      obtain ⟨n, rfl⟩ : ∃ m, n = m + 1 := ⟨n - 1, by omega⟩
      have hd := handleCountry_sound hc1 hc2 more hi.base.countries
      have e : ∀ after, globalsStep E 45 base st.G (toRec (0x8C, leBytes 2 c.country.1 ++ leBytes 2 c.country.2 ++ more)) after =
        ((handleCountry st.G.countries (leBytes 2 c.country.1 ++ leBytes 2 c.country.2 ++ more)).map
          fun c => { st.G with countries := c }).map fun G => (G, 0) := fun _ => rfl
      rw [List.append_assoc, loop4_step hr (by simp) (step4_global (by simp [toRec]) ((e _).trans (by rw [hd]; rfl))),
        show pre ++ (recordBytes (0x8C, leBytes 2 c.country.1 ++ leBytes 2 c.country.2 ++ more) ++ (rest ++ post)) =
          (pre ++ recordBytes (0x8C, leBytes 2 c.country.1 ++ leBytes 2 c.country.2 ++ more)) ++ (rest ++ post) by simp]
      exact ih n _ _ post (by omega) ⟨⟨hi.base.enc, hi.base.user, hi.base.mode, .inr rfl, hi.base.sst⟩, hi.offset, hi.sheets, hi.all, hi.names,
        hi.come⟩
  | @other s r rest mode sheets hr hc hrest ih =>
    rcases ih with ih | ih | ih
    · exact .inl (.other hr hc ih)
    · exact .inr (.inl (loose_left ih))
    · refine .inr (.inr ?_)
      intro n st pre post hn hi
      have hlen := recordBytes_pos r
      rw [List.length_append] at hn
      obtain ⟨n, rfl⟩ : ∃ m, n = m + 1 := ⟨n - 1, by omega⟩
      have e : ∀ mem pos, step4 E base mem st (toRec r) pos = .ok (st, pos) := by
        intro mem pos
        rcases hc with hc | hc
        · obtain ⟨rc, data⟩ := r
          have hc : rc = 0x18 := hc
          subst hc
          rfl
        · refine step4_global ?_ (step_other hc _)
          intro hx
          apply hc
          have hx : r.1 ∈ [0x41E, 0xE0, 0x85, 0x8E, 0x8F, 0x18] := hx
          simp only [List.mem_cons, List.not_mem_nil, or_false] at hx
          simp only [globalCodes, List.mem_cons, List.not_mem_nil, or_false]
          omega
      have hne : r.1 ≠ 0xA := by
        rcases hc with hc | hc
        · omega
        · rintro hx
          rw [hx] at hc
          simp [globalCodes] at hc
      rw [List.append_assoc, loop4_step hr hne (e _ _),
        show pre ++ (recordBytes r ++ (rest ++ post)) = (pre ++ recordBytes r) ++ (rest ++ post) by simp]
      exact ih n _ _ post (by omega) hi

end

/-- C81 exactly, for files without loose CONTINUE records, in plain code pages that are known: the file is read, as its
records say, if and only if each character in the texts of formulas is one byte.  With another character there is an
XLRDError or the error of the codec, and nothing is read. -/
theorem C81_exact {σ τ : Type} {E : BookEnv σ τ} {c : BookCtx} (hf : BookFits E c) (h8 : c.v8 = false) (hp : PagesKnown E c)
    {file : List UInt8} {mode : Nat} {sheets : List (List Char × List CellOp)} (h : OldFileIs false c file mode sheets)
    (hl : ∀ v, ¬ LooseSheet c v file) (post : List UInt8) :
    ((∃ gs, openStream E.withOld false (file ++ post) 0 = .ok (mode, gs) ∧
      Each (fun (s : List Char × List CellOp) (b : BookSheet) => b.name = s.1 ∧ GridHolds s.2 b.grid) sheets gs) ↔
      OldFileIs true c file mode sheets) ∧
    (¬ OldFileIs true c file mode sheets → ∃ e, openStream E.withOld false (file ++ post) 0 = .error e ∧ OldTextError E e) := by
  have bad : ¬ OldFileIs true c file mode sheets → ∃ e, openStream E.withOld false (file ++ post) 0 = .error e ∧ OldTextError E e := by
    intro hn
    rcases h with ⟨v, ops, page, ⟨version, bof, rs, rfl, hbof, hrs, hold, hfit⟩, rfl⟩ | ⟨version, bof, recs, rfl, hbof, hrecs⟩
    · have hop : oldBof v = 0x9 ∨ oldBof v = 0x209 ∨ oldBof v = 0x409 := by cases v <;> simp [oldBof]
      have b1 := fun rqd => getbof_old (rqd := rqd) hop hbof (.inl rfl) [] (rs.flatMap recordBytes ++ post)
      generalize hbv : (if oldBof v = 0x9 then 21 else if oldBof v = 0x209 then 30 else if (0x10 : Nat) = 0x100 then 45 else 40) = bv at b1
      have hver : VerOk v bv ∧ bv ≠ 45 ∧ bv ≠ 0 ∧ bv < 50 := by
        subst hbv
        cases v <;> simp [oldBof, VerOk]
      obtain ⟨e, hread, hk⟩ := readOldSheet_bad hf h8 hp hver.1 (baseInv_init (E := E) h8) rfl rfl rfl hrs hold
        (fun ht => hn (.inl ⟨v, ops, page, ⟨version, bof, rs, rfl, hbof, hrs, ht, hfit⟩, rfl⟩))
        (fun hloose => hl v ⟨[], version, bof, rs, _, [], by simp, hbof, hloose⟩) hfit (recordBytes (oldBof v, bof)) post
      have hmem : recordBytes (oldBof v, bof) ++ rs.flatMap recordBytes ++ post =
        recordBytes (oldBof v, bof) ++ (rs.flatMap recordBytes ++ post) := by simp
      simp only [List.nil_append, List.length_nil] at b1
      rw [hmem]
      have e' : oldBook E bv (recordBytes (oldBof v, bof) ++ (rs.flatMap recordBytes ++ post)) 0 = .error e := by
        unfold oldBook
        rw [if_neg hver.2.1, show (0 : Int) = ((0 : Nat) : Int) from rfl, b1]
        dsimp only
        rw [hread]
        rfl
      exact ⟨e, (openStream_old (b1 5) hver.2.2.1 hver.2.2.2).trans e', hk⟩
    · have b1 := getbof_old (rqd := 5) (.inr (.inr rfl)) hbof (.inr ⟨rfl, rfl, rfl⟩) [] (recs ++ post)
      rw [if_neg (by omega), if_neg (by omega), if_pos rfl] at b1
      simp only [List.nil_append, List.length_nil] at b1
      have hinit : Old4Inv E c ⟨none, 0, false, [], 0⟩ ⟨Globals.init E.names0, 0, none, []⟩ :=
        ⟨baseInv_init h8, fun h => (nomatch h), rfl, rfl, rfl, rfl⟩
      rcases loop4_any hf h8 hp (base := 0) hrecs with ht | hloose | hb
      · exact (hn (.inr ⟨version, bof, recs, rfl, hbof, ht⟩)).elim
      · exact (hl _ (loose_left hloose)).elim
      · obtain ⟨e, he, hk⟩ := hb ((recordBytes (0x409, bof) ++ (recs ++ post)).length + 1) _ (recordBytes (0x409, bof)) post (by simp; omega) hinit
        rw [List.append_assoc]
        refine ⟨e, (openStream_old b1 (by omega) (by omega)).trans ?_, hk⟩
        unfold oldBook
        rw [if_pos rfl, b1]
        dsimp only
        have hl' : loop4 E ((0 : Nat) : Int) (recordBytes (0x409, bof) ++ (recs ++ post)) ((recordBytes (0x409, bof) ++ (recs ++ post)).length + 1)
            ⟨Globals.init E.names0, 0, none, []⟩ (recordBytes (0x409, bof)).length = .error e := he
        rw [hl']
        rfl
  refine ⟨⟨?_, fun ht => C81_old_partial σ τ E c hf h8 file mode sheets ht post⟩, bad⟩
  rintro ⟨gs, e, _⟩
  apply Classical.byContradiction
  intro hn
  obtain ⟨e', he, _⟩ := bad hn
  rw [he] at e
  cases e

/-! ## An example -/

/-- The code page `exPage` for all names. -/
def exPageCtx : BookCtx := { exBookCtx false with codec := fun _ b => exPage b }
def exPageEnv : BookEnv Unit Unit :=
  { exBookEnv with codec := fun _ b => match exPage b with | some t => .ok t | none => .error .unicodeError }

theorem exPage_ascii (name : List Char) : AsciiOk exPageCtx name := by
  intro text h
  show exPage text = _
  induction text using exPage.induct with
  | case1 => rfl
  | case2 a ha => simp [exPage, ha, asciiText]
  | case3 a ha => exact (ha (h a (by simp))).elim
  | case4 a b rest ha ih =>
    rw [exPage, if_pos ha, ih fun x hx => h x (List.mem_cons_of_mem _ hx)]
    rfl
  | case5 a b rest ha ih => exact (ha (h a (by simp))).elim

theorem exPage_fits : BookFits exPageEnv exPageCtx where
  rnd := rfl
  codec := fun _ b t h => by
    show (match exPage b with | some t => Except.ok t | none => .error Exc.unicodeError) = _
    rw [show exPage b = some t from h]
  latin := exPage_ascii _
  obj := fun _ _ h => h.elim
  names := ⟨fun _ _ => True, trivial, fun _ h => h.elim, fun _ _ _ _ _ _ _ _ _ _ => rfl⟩

theorem exPages_known : PagesKnown exPageEnv exPageCtx := fun name => ⟨exPage_plain, fun b t h => by
  have h : (match exPage b with | some t => Except.ok t | none => .error Exc.unicodeError) = .ok t := h
  show exPage b = some t
  split at h
  · cases h; assumption
  · cases h⟩

theorem loose_byte {c : BookCtx} {v : OldVer} {bytes : List UInt8} (h : LooseSheet c v bytes) : 0x3C ∈ bytes := by
  obtain ⟨a, version, bof, rs, s, b, rfl, _, a', d, b', ops, page, mode, rfl, _⟩ := h
  simp [recordBytes, leBytes]

theorem exPage_is : OldFileIs false exPageCtx exKanaFile 0 [("Sheet 1".toList, [.put 0 0 ⟨1, .str [Char.ofNat 0x82A0], 0⟩])] := by
  refine .inl ⟨.v2, _, some 932, ⟨0, exOldBof 0x10, exKanaRecs, rfl, exOldBof_is, by unfold RecordOk; decide +kernel, ?_, ?_⟩, rfl⟩
  · refine .page (by omega) ?_ ?_
    · unfold PageOk
      rw [show pageName 932 = some "cp932".toList by decide +kernel]
      exact .inr (exPage_ascii _)
    refine .cells2 (rs := [_, _]) (ops := [_]) rfl (.fmlaText (more := [0]) (between := []) (first := leBytes 1 2 ++ [0x82, 0xA0]) (conts := [])
      (t := [Char.ofNat 0x82A0])
      ⟨by omega, by omega, [0, 0, 0], ⟨0, 0, 0, rfl, .inr (.inr ⟨rfl, by decide, .inr ⟨by decide, rfl⟩⟩)⟩, rfl⟩ (by simp) (.inl rfl)
      ⟨2, [0x82, 0xA0], [0x82, 0xA0], by omega, rfl, .last (b := [_, _]), by decide +kernel, fun h => (nomatch h)⟩) ?_
    exact .eof
  · intro row col x hx
    simp only [List.mem_cons, CellOp.put.injEq, List.not_mem_nil, or_false] at hx
    omega

/-- The file with a formula of this text is not read, whatever comes after it. -/
example (post : List UInt8) : ∃ e, openStream exPageEnv.withOld false (exKanaFile ++ post) 0 = .error e ∧ OldTextError exPageEnv e := by
  have hl : ∀ v, ¬ LooseSheet exPageCtx v exKanaFile := fun v h => absurd (loose_byte h) (by decide +kernel)
  refine (C81_exact exPage_fits rfl exPages_known exPage_is hl post).2 fun ht => ?_
  obtain ⟨gs, e, _⟩ := C81_old_partial Unit Unit _ _ exPage_fits rfl _ _ _ ht []
  have : (openStream exPageEnv.withOld false exKanaFile 0).toOption.isNone = true := by decide +kernel
  rw [List.append_nil] at e
  rw [e] at this
  cases this

end CP
