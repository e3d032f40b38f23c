import Verif.Props.XlsBook
import Verif.Model.XlsOld
import Verif.Spec.XlsOld
/-!
# Lemmas for .xls files of BIFF 2, 3 and 4
-/

namespace CP
open CP.Spec

variable {σ τ : Type}

/-- The cell type of a format by its number, among the formats of a sheet. -/
def fmtTyp (s : OldInfo) (k : Nat) : Nat :=
  match s.formats[k]? with
  | some code => if isDateFormat code then 3 else 2
  | none => 2

/-- XF records made from the attributes of cells. -/
structure Faked (st : OldSt σ τ) : Prop where
  types : ∀ i k, st.G.xfs[i]? = some k → (dget st.G.formats k).isSome ∧ dget st.G.xfTypes i = some (cellType st.G.formats k 2)
  attrs : ∀ attr n, dget st.attrs attr = some n → st.G.xfs[n]? = some (attrKey attr)

/-- The types for XF records that are in the file. -/
def TypesAre (s : OldInfo) (d : List (Nat × Nat)) : Prop :=
  ∀ i, dget d i = match s.xfs[i]? with
    | some k => some (fmtTyp s k)
    | none => if s.xfs = [] ∧ i = 0 then some 2 else none

/-- The version by that of the file.  (20 is for BIFF 2 without XF records.) -/
def VerOk (v : OldVer) (bv : Nat) : Prop :=
  match v with
  | .v2 => bv = 21
  | .v3 => bv = 30
  | .v4 => bv = 40 ∨ bv = 45

/-- The reader has what the records have said so far.  `K` has what is kept from before the sheet. -/
structure OldInv (c : BookCtx) (K : Globals τ) (v : OldVer) (s : OldInfo) (fresh : Bool) (st : OldSt σ τ) : Prop where
  enc : EncOk c s.page st.G
  user : ∀ u, st.G.rawUser = some u → c.v8 = false ∧ UserOk u
  mode : st.G.datemode = s.mode
  countries : st.G.countries = (0, 0) ∨ st.G.countries = c.country
  sst : st.G.sst = []
  kept : st.G.sheets = K.sheets ∧ st.G.allSheets = K.allSheets ∧ st.G.names = K.names
  count : st.fmtCount = s.formats.length
  formats : ∀ k code, s.formats[k]? = some code → dget st.G.formats k = some (isDateFormat code)
  others : ∀ k b, s.formats.length ≤ k → dget st.G.formats k = some b → b = false
  keys : ∀ k ∈ s.xfs, k < s.formats.length
  ixfe : st.ixfe = s.ixfe
  xfs : (VerOk v st.bv ∧ st.attrs = [] ∧ st.G.xfs = s.xfs ∧ TypesAre s st.G.xfTypes) ∨
    (st.bv = 20 ∧ v = .v2 ∧ fresh = false ∧ s.xfs = [] ∧ Faked st)

theorem VerOk.small {v : OldVer} {bv : Nat} (h : VerOk v bv) : bv < 50 := by
  unfold VerOk at h
  split at h <;> omega

section
variable {E : BookEnv σ τ} {c : BookCtx} {K : Globals τ} {v : OldVer} {s : OldInfo} {fresh : Bool} {st : OldSt σ τ}

theorem OldInv.bv_small (h : OldInv c K v s fresh st) : st.bv < 80 := by
  rcases h.xfs with h | h
  · have := h.1.small; omega
  · omega

theorem OldInv.stale (h : OldInv c K v s fresh st) : OldInv c K v s false st :=
  { h with xfs := h.xfs.imp_right fun ⟨a, b, _, d⟩ => ⟨a, b, rfl, d⟩ }

/-- Formats known to the reader. -/
theorem OldInv.format_some (h : OldInv c K v s fresh st) {k : Nat} (hk : k < s.formats.length) :
    (dget st.G.formats k).isSome ∧ ∀ d, cellType st.G.formats k d = fmtTyp s k := by
  have e : s.formats[k]? = some s.formats[k] := List.getElem?_eq_getElem hk
  have := h.formats k _ e
  refine ⟨by rw [this]; rfl, fun d => ?_⟩
  unfold cellType fmtTyp
  rw [this, e]
  dsimp only
  cases isDateFormat s.formats[k] <;> rfl

theorem fmtTyp_iff {code : List Char} {typ : Nat} : (if isDateFormat code then 3 else 2) = typ ↔ FormatType code typ := by
  unfold FormatType
  rw [← C52_date_format]
  cases isDateFormat code
  · simp; exact eq_comm
  · simp; exact eq_comm

theorem TypesAre.iff (hk : ∀ k ∈ s.xfs, k < s.formats.length) {d : List (Nat × Nat)} (h : TypesAre s d) (i typ : Nat) :
    dget d i = some typ ↔ OldXfType s i typ := by
  rw [h i]
  unfold OldXfType
  cases hx : s.xfs[i]? with
  | none =>
    dsimp only
    split
    · rename_i h0
      simp [h0]
      exact eq_comm
    · rename_i h0
      simp
      exact fun a b => absurd ⟨a, b⟩ h0
  | some k =>
    dsimp only
    have hlt := hk k (List.mem_of_getElem? hx)
    have e : s.formats[k]? = some s.formats[k] := List.getElem?_eq_getElem hlt
    unfold fmtTyp
    rw [e]
    dsimp only
    rw [Option.some.injEq, fmtTyp_iff]
    constructor
    · exact fun hf => .inl ⟨k, _, rfl, e, hf⟩
    · rintro (⟨k', code, h1, h2, h3⟩ | ⟨h1, _⟩)
      · cases h1
        rw [e] at h2
        cases h2
        exact h3
      · rw [h1] at hx
        simp at hx

/-! ### The encoding -/

/-- The state with another code page, encoding and user name. -/
def OldSt.coded (st : OldSt σ τ) (cp : Option Nat) (enc : Option (List Char)) (u : Option Bytes) : OldSt σ τ :=
  { st with G := { st.G with codepage := cp, encoding := enc, rawUser := u } }

theorem OldInv.coded (h : OldInv c K v s fresh st) {cp : Option Nat} {enc : Option (List Char)} {u : Option Bytes} {page : Option Nat}
    (h1 : EncOk c page (st.coded cp enc u).G) (h2 : ∀ x, u = some x → c.v8 = false ∧ UserOk x) :
    OldInv c K v { s with page := page } fresh (st.coded cp enc u) where
  enc := h1
  user := h2
  mode := h.mode
  countries := h.countries
  sst := h.sst
  kept := h.kept
  count := h.count
  formats := h.formats
  others := h.others
  keys := h.keys
  ixfe := h.ixfe
  xfs := h.xfs.imp (fun ⟨a, b, c, d⟩ => ⟨a, b, c, d⟩) fun ⟨a, b, c, d, e⟩ => ⟨a, b, c, d, ⟨e.types, e.attrs⟩⟩

/-- What `self.encoding or self.derive_encoding()` gives. -/
theorem ensure_sound (hf : BookFits E c) (h8 : c.v8 = false) {bv : Nat} (hb : bv < 80) {page : Option Nat} {G : Globals τ}
    (h : EncOk c page G) (hu : ∀ u, G.rawUser = some u → c.v8 = false ∧ UserOk u) :
    ∃ cp u, ensureEncoding E bv G = .ok { G with codepage := cp, encoding := some (textName page), rawUser := u } ∧
      EncOk c page { G with codepage := cp, encoding := some (textName page), rawUser := u } ∧
      ∀ x, u = some x → c.v8 = false ∧ UserOk x := by
  unfold ensureEncoding
  split
  · obtain ⟨cp, enc, e, h1, h2⟩ := derive_sound hf (bv := bv) (by simp [h8, hb]) h hu
    rw [h2 h8] at e h1
    exact ⟨cp, none, e, h1, fun x hx => (nomatch hx)⟩
  · rename_i hn
    have he := h
    unfold EncOk at he
    rw [if_neg (by rw [h8]; simp)] at he
    have := he.2.2.resolve_right fun x => hn x.1
    have eG : ({ G with codepage := G.codepage, encoding := some (textName page), rawUser := G.rawUser } : Globals τ) = G := by
      rw [← this]
    exact ⟨G.codepage, G.rawUser, by rw [eG], by rw [eG]; exact h, hu⟩

/-- Text in the code page. -/
theorem OldInv.text (hf : BookFits E c) (h8 : c.v8 = false) (h : OldInv c K v s fresh st) {b : Bytes} {t : List Char}
    (ht : c.codec (textName s.page) b = some t) : oldText E st b = .ok t := by
  obtain ⟨cp, u, e, _⟩ := ensure_sound hf h8 h.bv_small h.enc h.user
  unfold oldText
  rw [e]
  exact hf.codec _ _ _ ht

theorem OldInv.settle (hf : BookFits E c) (h8 : c.v8 = false) (h : OldInv c K v s fresh st) :
    OldInv c K v s fresh (st.settle E) ∧ (st.settle E).grid = st.grid ∧ (st.settle E).obj = st.obj ∧
      (st.settle E).G.countries = st.G.countries := by
  obtain ⟨cp, u, e, h1, h2⟩ := ensure_sound hf h8 h.bv_small h.enc h.user
  unfold OldSt.settle
  rw [e]
  exact ⟨h.coded h1 h2, rfl, rfl, rfl⟩

/-! ### The end of the formats -/

theorem OldInv.endXfs (h : OldInv c K v s fresh st) : OldInv c K v s fresh st.endXfs where
  enc := h.enc
  user := h.user
  mode := h.mode
  countries := h.countries
  sst := h.sst
  kept := h.kept
  count := h.count
  formats := h.formats
  others := h.others
  keys := h.keys
  ixfe := h.ixfe
  xfs := by
    rcases h.xfs with ⟨h1, h2, h3, h4⟩ | ⟨h1, h2, h3, h4, h5⟩
    · refine .inl ⟨h1, h2, h3, fun i => ?_⟩
      show dget (xfEpilogue st.G.formats 0 st.G.xfs st.G.xfTypes) i = _
      rw [xfEpilogue_get, if_pos (Nat.zero_le _), Nat.sub_zero, h3]
      cases hx : s.xfs[i]? with
      | none =>
        have := h4 i
        rw [hx] at this
        exact this
      | some k =>
        dsimp only
        rw [(h.format_some (h.keys k (List.mem_of_getElem? hx))).2]
    · refine .inr ⟨h1, h2, h3, h4, ⟨fun i k hk => ?_, h5.attrs⟩⟩
      obtain ⟨a, b⟩ := h5.types i k hk
      refine ⟨a, ?_⟩
      show dget (xfEpilogue st.G.formats 0 st.G.xfs st.G.xfTypes) i = _
      rw [xfEpilogue_get, if_pos (Nat.zero_le _), Nat.sub_zero, show st.G.xfs[i]? = some k from hk]
      show some (cellType st.G.formats k xlText) = some (cellType st.G.formats k 2)
      unfold cellType
      cases hd : dget st.G.formats k with
      | none => rw [hd] at a; cases a
      | some x => cases x <;> rfl

/-! ### XF records from attributes -/

theorem cellType_dset {formats : List (Nat × Bool)} {k k' d : Nat} {b : Bool} (h : dget formats k' = none) (hk : (dget formats k).isSome) :
    cellType (dset formats k' b) k d = cellType formats k d := by
  unfold cellType
  rw [dget_dset, if_neg]
  intro e
  rw [e, h] at hk
  cases hk

theorem OldInv.insert (h : OldInv c K v s fresh st) (hb : st.bv = 20) (attr : Bytes) :
    OldInv c K v s fresh (insertXf st attr).1 ∧ (insertXf st attr).1.bv = 20 ∧ (insertXf st attr).1.G.xfs ≠ [] ∧
      (insertXf st attr).1.grid = st.grid ∧ (insertXf st attr).1.obj = st.obj ∧
      dget (insertXf st attr).1.attrs attr = some (insertXf st attr).2 := by
  obtain ⟨h1, h2, h3, h4, h5⟩ := h.xfs.resolve_left fun x => by
    have := x.1
    unfold VerOk at this
    split at this <;> omega
  have hnew : ∀ k, (dget st.G.formats k).isSome →
      dget (if (dget st.G.formats (attrKey attr)).isSome then st.G.formats else dset st.G.formats (attrKey attr) false) k = dget st.G.formats k := by
    intro k hk
    split
    · rfl
    · rename_i hn
      rw [dget_dset, if_neg]
      intro e
      rw [e] at hk
      exact hn hk
  have hkey : (dget (if (dget st.G.formats (attrKey attr)).isSome then st.G.formats else dset st.G.formats (attrKey attr) false)
      (attrKey attr)).isSome := by
    split
    · assumption
    · rw [dget_dset, if_pos rfl]; rfl
  refine ⟨?_, hb, by simp [insertXf], rfl, rfl, ?_⟩
  · refine ⟨h.enc, h.user, h.mode, h.countries, h.sst, h.kept, h.count, ?_, ?_, h.keys, h.ixfe, .inr ⟨h1, h2, h3, h4, ⟨?_, ?_⟩⟩⟩
    · intro k code hk
      have := h.formats k code hk
      show dget (if (dget st.G.formats (attrKey attr)).isSome then st.G.formats else dset st.G.formats (attrKey attr) false) k = _
      rw [hnew k (by rw [this]; rfl), this]
    · intro k b hk hd
      have hd : dget (if (dget st.G.formats (attrKey attr)).isSome then st.G.formats else dset st.G.formats (attrKey attr) false) k = some b := hd
      split at hd
      · exact h.others k b hk hd
      · rw [dget_dset] at hd
        split at hd
        · exact (Option.some.inj hd).symm
        · exact h.others k b hk hd
    · intro i k hk
      have hk : (st.G.xfs ++ [attrKey attr])[i]? = some k := hk
      show (dget (if (dget st.G.formats (attrKey attr)).isSome then st.G.formats else dset st.G.formats (attrKey attr) false) k).isSome ∧
        dget (dset st.G.xfTypes st.G.xfs.length (cellType (if (dget st.G.formats (attrKey attr)).isSome then st.G.formats
          else dset st.G.formats (attrKey attr) false) (attrKey attr) xlNumber)) i = some (cellType (if (dget st.G.formats (attrKey attr)).isSome
          then st.G.formats else dset st.G.formats (attrKey attr) false) k 2)
      rw [List.getElem?_append] at hk
      split at hk
      · obtain ⟨a, b⟩ := h5.types i k hk
        refine ⟨by rw [hnew k a]; exact a, ?_⟩
        rw [dget_dset, if_neg (by omega), b]
        unfold cellType
        rw [hnew k a]
      · rename_i hl
        have hi : i = st.G.xfs.length := by
          have := (List.getElem?_eq_some_iff.1 hk).1
          simp at this
          omega
        subst hi
        simp at hk
        subst hk
        exact ⟨hkey, by rw [dget_dset, if_pos rfl]; rfl⟩
    · intro a n hn
      have hn : dget (dset st.attrs attr st.G.xfs.length) a = some n := hn
      show (st.G.xfs ++ [attrKey attr])[n]? = some (attrKey a)
      rw [dget_dset] at hn
      split at hn
      · rename_i e
        cases hn
        subst e
        simp
      · have := h5.attrs a n hn
        rw [List.getElem?_append_left (List.getElem?_eq_some_iff.1 this).1]
        exact this
  · show dget (dset st.attrs attr st.G.xfs.length) attr = some st.G.xfs.length
    rw [dget_dset, if_pos rfl]

theorem OldInv.styles (n : Nat) : ∀ {st : OldSt σ τ}, OldInv c K v s fresh st → st.bv = 20 →
    OldInv c K v s fresh (insertStyles n st) ∧ (insertStyles n st).bv = 20 ∧ (insertStyles n st).grid = st.grid ∧
      (insertStyles n st).obj = st.obj := by
  induction n with
  | zero => exact fun h hb => ⟨h, hb, rfl, rfl⟩
  | succ n ih =>
    intro st h hb
    obtain ⟨a, b, _, d, e, _⟩ := h.insert hb [0x40, 0, 0]
    obtain ⟨a', b', d', e'⟩ := ih a b
    exact ⟨a', b', d'.trans d, e'.trans e⟩

theorem attrKey_eq (a b x : UInt8) : attrKey [a, b, x] = b.toNat % 64 := by simp [attrKey, pySlice, leNat]

/-- A cell of BIFF 2 gets an XF record with the type of its attributes. -/
theorem OldInv.fix (h : OldInv c K .v2 s fresh st) {attr : Bytes} {typ : Nat} (ha : AttrType s attr typ) :
    ∃ st' n, fixXf st attr = .ok (st', n) ∧ OldInv c K .v2 s false st' ∧ st'.grid = st.grid ∧ st'.obj = st.obj ∧
      dget st'.G.xfTypes n = some typ := by
  obtain ⟨a, b, x, rfl, ha⟩ := ha
  have hslot : leNat ([a, b, x].take 1) = a.toNat := by simp [leNat]
  unfold fixXf
  dsimp only
  rw [hslot]
  -- attributes of a faked XF record
  have faked : ∀ (st' : OldSt σ τ), OldInv c K .v2 s false st' → st'.bv = 20 → s.xfs = [] → a.toNat % 64 = 0 →
      ((∃ code, s.formats[b.toNat % 64]? = some code ∧ FormatType code typ) ∨ (s.formats.length ≤ b.toNat % 64 ∧ typ = 2)) →
      ∃ st'' n, (match dget st'.attrs [a, b, x] with
        | some n => (.ok (st', n) : Except Exc (OldSt σ τ × Nat))
        | none => .ok (insertXf (if st'.G.xfs = [] then insertStyles 16 st' else st') [a, b, x])) = .ok (st'', n) ∧
        OldInv c K .v2 s false st'' ∧ st''.grid = st'.grid ∧ st''.obj = st'.obj ∧ dget st''.G.xfTypes n = some typ := by
    intro st' h' hb' hx ha0 ht
    have fin : ∀ (st'' : OldSt σ τ) n, OldInv c K .v2 s false st'' → st''.bv = 20 → dget st''.attrs [a, b, x] = some n →
        dget st''.G.xfTypes n = some typ := by
      intro st'' n h'' hb'' hn
      obtain ⟨_, _, _, _, h5⟩ := h''.xfs.resolve_left fun x => by
        have := x.1
        unfold VerOk at this
        dsimp only at this
        omega
      obtain ⟨e1, e2⟩ := h5.types n _ (h5.attrs _ n hn)
      rw [e2, attrKey_eq]
      rw [attrKey_eq] at e1
      congr 1
      rcases ht with ⟨code, hc, ht⟩ | ⟨hl, rfl⟩
      · unfold cellType
        rw [h''.formats _ code hc]
        have := (fmtTyp_iff (code := code)).2 ht
        cases hd : isDateFormat code <;> rw [hd] at this <;> simpa [xlNumber, xlDate] using this
      · unfold cellType
        cases hd : dget st''.G.formats (b.toNat % 64) with
        | none => rfl
        | some z =>
          have := h''.others _ z hl hd
          subst this
          rfl
    cases hd : dget st'.attrs [a, b, x] with
    | some n => exact ⟨st', n, rfl, h', rfl, rfl, fin st' n h' hb' hd⟩
    | none =>
      dsimp only
      have hs : OldInv c K .v2 s false (if st'.G.xfs = [] then insertStyles 16 st' else st') ∧
          (if st'.G.xfs = [] then insertStyles 16 st' else st').bv = 20 ∧
          (if st'.G.xfs = [] then insertStyles 16 st' else st').grid = st'.grid ∧
          (if st'.G.xfs = [] then insertStyles 16 st' else st').obj = st'.obj := by
        split
        · exact h'.styles 16 hb'
        · exact ⟨h', hb', rfl, rfl⟩
      obtain ⟨i1, i2, _, i4, i5, i6⟩ := hs.1.insert hs.2.1 [a, b, x]
      exact ⟨_, _, rfl, i1, i4.trans hs.2.2.1, i5.trans hs.2.2.2, fin _ _ i1 i2 i6⟩
  rcases h.xfs with ⟨h1, h2, h3, h4⟩ | ⟨h1, h2, h3, h4, h5⟩
  · have hbv : st.bv = 21 := h1
    by_cases hx : s.xfs = []
    · rw [if_neg (by rw [h3, hx]; simp)]
      rcases ha with ⟨hn, _⟩ | ⟨hn, _⟩ | ⟨_, ha0, ht⟩
      · exact absurd hx hn
      · exact absurd hx hn
      · rw [if_neg (by omega), if_pos hbv]
        exact faked { st with bv := 20 } ⟨h.enc, h.user, h.mode, h.countries, h.sst, h.kept, h.count, h.formats, h.others, h.keys, h.ixfe,
          .inr ⟨rfl, rfl, rfl, hx, ⟨fun i k hk => (by rw [show st.G.xfs = [] from h3.trans hx] at hk; simp at hk),
            fun a n hn => (by rw [show st.attrs = [] from h2] at hn; cases hn)⟩⟩⟩ rfl hx ha0 ht
    · rw [if_pos ⟨hbv, by rw [h3]; exact hx⟩]
      rcases ha with ⟨_, hn, ht⟩ | ⟨_, hn, i, hi, ht⟩ | ⟨hn, _⟩
      · rw [if_neg hn]
        exact ⟨st, _, rfl, h.stale, rfl, rfl, (h4.iff h.keys _ _).2 ht⟩
      · rw [if_pos hn, h.ixfe, hi]
        exact ⟨st, _, rfl, h.stale, rfl, rfl, (h4.iff h.keys _ _).2 ht⟩
      · exact absurd hn hx
  · rw [if_neg (by omega)]
    rcases ha with ⟨hn, _⟩ | ⟨hn, _⟩ | ⟨_, ha0, ht⟩
    · exact absurd h4 hn
    · exact absurd h4 hn
    · rw [if_neg (by omega), if_neg (by omega)]
      exact faked st h.stale h1 h4 ha0 ht

/-! ### Cells -/

theorem assign_fmt (g : Grid) (r c : Nat) (cell : PutCell) : (g.assign r c cell).1.fmt = g.fmt := by
  unfold Grid.assign
  split; · rfl
  try dsimp only
  split; · rfl
  try dsimp only
  split; · rfl
  split; · rfl
  split <;> rfl

theorem widen_fmt (g : Grid) (r n : Nat) : (g.widen r n).fmt = g.fmt := by unfold Grid.widen; split <;> rfl

theorem lengthen_fmt (g : Grid) (r : Nat) : (g.lengthen r).1.fmt = g.fmt := by
  unfold Grid.lengthen
  repeat' split
  all_goals rfl

theorem put_fmt (g : Grid) (r c : Nat) (cell : PutCell) : (g.put r c cell).1.fmt = g.fmt := by
  unfold Grid.put
  split
  · unfold Grid.putRagged
    split; · rfl
    split; · rfl
    have ha : (g.addRows r).fmt = g.fmt := by unfold Grid.addRows; split <;> rfl
    dsimp only
    split
    · exact ha
    · rw [assign_fmt]; exact ha
  · unfold Grid.putUnragged
    have h1 := assign_fmt g r c cell
    split
    · rename_i e; rw [e] at h1; exact h1
    · rename_i e
      rw [e] at h1
      split; · exact h1
      split; · exact h1
      split; · exact h1
      rename_i g1 _ _ _ _
      have h2 := lengthen_fmt (g1.widen r (c + 1)) r
      rw [widen_fmt, h1] at h2
      split
      · rename_i e; rw [e] at h2; exact h2
      · rename_i e; rw [e] at h2; rw [assign_fmt]; exact h2

theorem run_fmt {ops : List CellOp} (h : ∀ op ∈ ops, ∃ r c v, op = .put r c v) : ∀ g : Grid, (g.run ops).1.fmt = g.fmt := by
  induction ops with
  | nil => exact fun g => rfl
  | cons op ops ih =>
    intro g
    obtain ⟨r, c, v, rfl⟩ := h _ (List.mem_cons_self ..)
    have := put_fmt g r c v
    rw [Grid.run]
    simp only [Grid.op]
    rcases hp : g.put r c v with ⟨g1, _ | e⟩
    · rw [hp] at this
      exact (ih (fun op ho => h op (List.mem_cons_of_mem _ ho)) g1).trans this
    · rw [hp] at this
      exact this

/-- Without formatting, the index of the XF record is not kept. -/
theorem assign_xf {g : Grid} (hg : g.fmt = false) (r c : Nat) (typ : Nat) (v : Val) (x y : Int) :
    g.assign r c ⟨typ, v, x⟩ = g.assign r c ⟨typ, v, y⟩ := by
  unfold Grid.assign
  dsimp only
  rw [hg]
  simp

theorem put_xf {g : Grid} (hg : g.fmt = false) (r c : Nat) (typ : Nat) (v : Val) (x y : Int) :
    g.put r c ⟨typ, v, x⟩ = g.put r c ⟨typ, v, y⟩ := by
  unfold Grid.put
  split
  · unfold Grid.putRagged
    split; · rfl
    split; · rfl
    have ha : (g.addRows r).fmt = g.fmt := by unfold Grid.addRows; split <;> rfl
    dsimp only
    split
    · rfl
    · refine assign_xf ?_ ..
      exact ha.trans hg
  · unfold Grid.putUnragged
    rw [assign_xf hg r c typ v x y]
    have h1 := assign_fmt g r c ⟨typ, v, y⟩
    split
    · rfl
    · rename_i e
      rw [e] at h1
      split; · rfl
      split; · rfl
      split; · rfl
      rename_i g1 _ _ _ _
      have h2 := lengthen_fmt (g1.widen r (c + 1)) r
      rw [widen_fmt, h1, hg] at h2
      split
      · rfl
      · rename_i e; rw [e] at h2; exact assign_xf h2 ..

theorem run_xf {g g' : Grid} (hg : g.fmt = false) {r c : Nat} {typ : Nat} {v : Val} {x : Int} (y : Int)
    (h : g.run [.put r c ⟨typ, v, x⟩] = (g', none)) : g.run [.put r c ⟨typ, v, y⟩] = (g', none) := by
  rw [← h]
  simp only [Grid.run, Grid.op]
  rw [put_xf hg r c typ v y x]

/-- A cell of BIFF 2 begins with these fields. -/
theorem oldHead_fields {row col typ : Nat} {head : Bytes} (h : OldHead s row col typ head) :
    head.length = 7 ∧ ∃ attr, AttrType s attr typ ∧ ∀ rest, field2 (head ++ rest) 0 = row ∧ field2 (head ++ rest) 2 = col ∧
      pySlice (head ++ rest) 4 7 = attr := by
  obtain ⟨h1, h2, attr, h3, rfl⟩ := h
  have hl : attr.length = 3 := by
    obtain ⟨a, b, x, rfl, _⟩ := h3
    rfl
  refine ⟨by simp [leBytes_length, hl], attr, h3, fun rest => ⟨?_, ?_, ?_⟩⟩
  · unfold field2
    rw [pySlice_at (a := 0) (pre := []) (m := leBytes 2 row) (post := leBytes 2 col ++ attr ++ rest) (by simp) rfl
      (by rw [leBytes_length]), leNat_leBytes (by omega)]
  · unfold field2
    rw [pySlice_at (pre := leBytes 2 row) (m := leBytes 2 col) (post := attr ++ rest) (by simp) (by rw [leBytes_length])
      (by rw [leBytes_length]), leNat_leBytes (by omega)]
  · rw [pySlice_at (pre := leBytes 2 row ++ leBytes 2 col) (m := attr) (post := rest) (by simp)
      (by rw [List.length_append, leBytes_length, leBytes_length]) (by omega)]

/-- Without the type of the format, or with a type. -/
theorem oldPut_sound (h : OldInv c K .v2 s fresh st) (hg : st.grid.fmt = false) {row col typ : Nat} {head rest : Bytes} {v : Val} {x : Int}
    {g' : Grid} (hh : OldHead s row col typ head) (kind : Option Nat) (bv : Nat)
    (hr : st.grid.run [.put row col ⟨kind.getD typ, v, x⟩] = (g', none)) :
    ∃ st', oldPut E bv st (head ++ rest) kind v = .ok st' ∧ OldInv c K .v2 s false st' ∧ st'.grid = g' := by
  obtain ⟨hl, attr, ha, hfields⟩ := oldHead_fields hh
  obtain ⟨f1, f2, f3⟩ := hfields rest
  obtain ⟨st', n, e, h', e1, e2, ht⟩ := h.fix ha
  have hr := run_xf hg (n : Int) hr
  unfold oldPut
  rw [f1, f2, f3, e]
  dsimp only
  rw [e1]
  have fin : OldInv c K .v2 s false { st' with grid := g' } :=
    ⟨h'.enc, h'.user, h'.mode, h'.countries, h'.sst, h'.kept, h'.count, h'.formats, h'.others, h'.keys, h'.ixfe,
      h'.xfs.imp (fun ⟨a, b, c, d⟩ => ⟨a, b, c, d⟩) fun ⟨a, b, c, d, e⟩ => ⟨a, b, c, d, ⟨e.types, e.attrs⟩⟩⟩
  cases kind with
  | none =>
    dsimp only
    rw [run_putNum (E := oldEnv E bv st') ht hr]
    exact ⟨_, rfl, fin, rfl⟩
  | some t =>
    dsimp only
    rw [show putE st.grid row col ⟨t, v, n⟩ = .ok g' from run_put hr]
    exact ⟨_, rfl, fin, rfl⟩

theorem oldString_sound (hf : BookFits E c) (h8 : c.v8 = false) (h : OldInv c K v s fresh st) {bv : Nat} (hb : bv < 30) {first : Bytes}
    {conts : List Bytes} {t : List Char} (ht : OldStringRecs true c s first conts t) (after : List Rec) :
    stringContents (oldEnv E bv st) first (contRecs conts ++ after) = .ok (t, conts.length) := by
  obtain ⟨n, b, all, hn, rfl, h1, h2, h3⟩ := ht
  have htext : ∀ b t, (oldCtx c s fun _ => none).text b = some t → (oldEnv E bv st).text b = .ok t :=
    fun b t hb => h.text hf h8 hb
  unfold stringContents
  dsimp only
  rw [if_neg (show ¬ 30 ≤ (oldEnv E bv st).bv from Nat.not_le.2 hb)]
  have ht : (leBytes 1 n ++ b).take 1 = leBytes 1 n := by
    have := List.take_left (l₁ := leBytes 1 n) (l₂ := b)
    rwa [leBytes_length] at this
  have hd : (leBytes 1 n ++ b).drop 1 = b := by
    have := List.drop_left (l₁ := leBytes 1 n) (l₂ := b)
    rwa [leBytes_length] at this
  rw [ht, hd, unpackNat_leBytes (by omega)]
  exact strLoop5_sound htext (show bv < 80 by omega) h1 (h3 rfl) after

theorem oldFormulaText_sound (hf : BookFits E c) (h8 : c.v8 = false) (h : OldInv c K v s fresh st) {bv : Nat} (hb : bv < 30)
    {between : List XRec} {first : Bytes} {conts : List Bytes} {t : List Char} (hbt : OldBetween between)
    (ht : OldStringRecs true c s first conts t) (after : List Rec) :
    formulaText (oldEnv E bv st) (between.map toRec ++ toRec (0x7, first) :: (contRecs conts ++ after)) =
      .ok (t, between.length + 1 + conts.length) := by
  have hs := oldString_sound hf h8 h hb ht after
  rcases hbt with rfl | ⟨code, data, rfl, hc⟩
  · rw [List.map_nil, List.nil_append, formulaText.eq_def]
    dsimp only [toRec]
    rw [if_pos (.inr rfl), hs]
    simp; omega
  · have hbo : betweenOk (toRec (code, data)) = .ok () := by
      unfold betweenOk toRec
      dsimp only
      rcases hc with rfl | rfl | rfl <;> rw [if_neg (by decide), if_neg (by decide), if_pos (by decide)]
    have hn : ¬ (code = xlString ∨ code = xlStringB2) := by rcases hc with rfl | rfl | rfl <;> decide
    rw [List.map_cons, List.map_nil, List.singleton_append, formulaText.eq_def]
    dsimp only
    rw [if_neg (show ¬ ((toRec (code, data)).code = xlString ∨ (toRec (code, data)).code = xlStringB2) from hn), hbo]
    dsimp only
    rw [if_pos (.inr rfl), show (toRec (0x7, first)).data = first from rfl, hs]
    simp; omega

/-- A formula of BIFF 2, given what its result makes of the cell. -/
theorem oldFormula_sound (hf : BookFits E c) (h8 : c.v8 = false) (h : OldInv c K .v2 s fresh st) (hg : st.grid.fmt = false) {bv : Nat}
    {row col typ kind : Nat} {head res more : Bytes} {v : Val} {x : Int} {g' : Grid} {after : List Rec} {k : Nat}
    (hh : OldHead s row col typ head) (hres : res.length = 8) (hm : 1 ≤ more.length)
    (hr : st.grid.run [.put row col ⟨kind, v, x⟩] = (g', none))
    (hc : ∀ (st' : OldSt σ τ) (n : Nat), OldInv c K .v2 s false st' → dget st'.G.xfTypes n = some typ →
      st.grid.run [.put row col ⟨kind, v, n⟩] = (g', none) → formulaCell (oldEnv E bv st') st.grid row col n res after = .ok (g', k)) :
    ∃ st', oldFormula E bv st (head ++ res ++ more) after = .ok (st', k) ∧ OldInv c K .v2 s false st' ∧ st'.grid = g' := by
  obtain ⟨hl, attr, ha, hfields⟩ := oldHead_fields hh
  obtain ⟨f1, f2, f3⟩ := hfields (res ++ more)
  obtain ⟨st', n, e, h', e1, e2, ht⟩ := h.fix ha
  unfold oldFormula
  rw [List.append_assoc, if_pos (by simp; omega), f1, f2, f3, e]
  dsimp only
  rw [pySlice_at rfl hl.symm (by omega), e1, hc st' n h' ht (run_xf hg (n : Int) hr)]
  dsimp only
  have fin : ∀ st'' : OldSt σ τ, OldInv c K .v2 s false st'' → OldInv c K .v2 s false { st'' with grid := g' } := fun st'' h' =>
    ⟨h'.enc, h'.user, h'.mode, h'.countries, h'.sst, h'.kept, h'.count, h'.formats, h'.others, h'.keys, h'.ixfe,
      h'.xfs.imp (fun ⟨a, b, c, d⟩ => ⟨a, b, c, d⟩) fun ⟨a, b, c, d, e⟩ => ⟨a, b, c, d, ⟨e.types, e.attrs⟩⟩⟩
  refine ⟨_, rfl, fin _ ?_, rfl⟩
  split
  · exact (h'.settle hf h8).1
  · exact h'

/-! ### Steps -/

theorem oldStep_old {bv : Nat} {r : XRec} (hc : r.1 ∈ oldCodes) (after : List Rec) :
    oldStep E bv st (toRec r) after = (oldRecord E bv st (toRec r)).map fun st => (st, 0) := by
  unfold oldStep
  rw [if_pos (show (toRec r).code ∈ oldCodes from hc)]

/-- Records that stand for cells in BIFF 2. -/
theorem oldCells_step (hf : BookFits E c) (h8 : c.v8 = false) (h : OldInv c K .v2 s fresh st) (hg : st.grid.fmt = false) {rs : List XRec}
    {ops : List CellOp} (hc : OldCells true c s rs ops) {g' : Grid} (hr : st.grid.run ops = (g', none)) (after : List Rec) :
    ∃ r more st', rs = r :: more ∧ r.1 ≠ 0xA ∧ oldStep E 21 st (toRec r) (more.map toRec ++ after) = .ok (st', more.length) ∧
      OldInv c K .v2 s false st' ∧ st'.grid = g' := by
  have form : ∀ data L, oldStep E 21 st (toRec (0x6, data)) L = oldFormula E 21 st data L := by
    intro data L
    unfold oldStep
    rw [if_neg (show ¬ (toRec (0x6, data)).code ∈ oldCodes by show ¬ 0x6 ∈ oldCodes; decide),
      if_pos (show (toRec (0x6, data)).code ∈ xlFormulas ∧ 21 < 30 from ⟨by show 0x6 ∈ xlFormulas; decide, by omega⟩)]
    rfl
  cases hc with
  | @number row col typ head n v xf h1 h2 h3 =>
    obtain ⟨st', e, h', e'⟩ := oldPut_sound (E := E) (rest := leBytes 8 n) h hg h1 none 21 hr
    refine ⟨_, [], st', rfl, by simp, ?_, h', e'⟩
    rw [oldStep_old (by simp [oldCodes])]
    have hl := (oldHead_fields h1).1
    have : oldRecord E 21 st (toRec (0x3, head ++ leBytes 8 n)) = oldNumber E 21 st (head ++ leBytes 8 n) := rfl
    rw [this]
    unfold oldNumber
    rw [if_pos (by rw [List.length_append, leBytes_length]; omega), pySlice_at (pre := head) (m := leBytes 8 n) (post := []) (by simp) hl.symm (by rw [leBytes_length]),
      unpackDouble_is h2 h3]
    dsimp only
    rw [e]
    rfl
  | @integer row col typ head n xf h1 h2 =>
    obtain ⟨st', e, h', e'⟩ := oldPut_sound (E := E) (rest := leBytes 2 n) h hg h1 none 21 hr
    refine ⟨_, [], st', rfl, by simp, ?_, h', e'⟩
    rw [oldStep_old (by simp [oldCodes])]
    have hl := (oldHead_fields h1).1
    have : oldRecord E 21 st (toRec (0x2, head ++ leBytes 2 n)) = oldInteger E 21 st (head ++ leBytes 2 n) := rfl
    rw [this]
    unfold oldInteger
    have f : field2 (head ++ leBytes 2 n) 7 = n := by
      unfold field2
      rw [pySlice_at (pre := head) (m := leBytes 2 n) (post := []) (by simp) hl.symm (by rw [leBytes_length]), leNat_leBytes (by omega)]
    rw [if_pos (by rw [List.length_append, leBytes_length]; omega), f, e]
    rfl
  | @label row col typ head b t xf h1 h2 =>
    obtain ⟨hs, sg, so, _⟩ := h.settle hf h8
    obtain ⟨st', e, h', e'⟩ := oldPut_sound (E := E) (rest := b) hs (by rw [sg]; exact hg) h1 (some xlText) 21 (by rw [sg]; exact hr)
    refine ⟨_, [], st', rfl, by simp, ?_, h', e'⟩
    rw [oldStep_old (by simp [oldCodes])]
    have hl := (oldHead_fields h1).1
    have : oldRecord E 21 st (toRec (0x4, head ++ b)) = oldLabel E 21 st (head ++ b) := rfl
    rw [this]
    unfold oldLabel
    obtain ⟨text, more, t1, rfl, t2⟩ := h2
    rw [if_pos (by simp; omega), unpackString1 t1 (h.text hf h8 t2) hl.symm]
    dsimp only
    rw [e]
    rfl
  | @bool row col typ head v xf h1 =>
    obtain ⟨st', e, h', e'⟩ := oldPut_sound (E := E) (rest := [v, 0]) h hg h1 (some xlBoolean) 21 hr
    refine ⟨_, [], st', rfl, by simp, ?_, h', e'⟩
    rw [oldStep_old (by simp [oldCodes])]
    have hl := (oldHead_fields h1).1
    have : oldRecord E 21 st (toRec (0x5, head ++ [v, 0])) = oldBoolErr E 21 st (head ++ [v, 0]) := rfl
    rw [this]
    unfold oldBoolErr
    dsimp only
    have p1 : pySlice (head ++ [v, 0]) 7 8 = [v] := pySlice_at (pre := head) (m := [v]) (post := [0]) (by simp) hl.symm (by rfl)
    have p2 : pySlice (head ++ [v, 0]) 8 9 = [0] :=
      pySlice_at (pre := head ++ [v]) (m := [0]) (post := []) (by simp) (by simp; omega) (by rfl)
    rw [if_pos (by simp; omega), p1, p2, if_pos (by simp [leNat])]
    rw [show leNat [v] = v.toNat by simp [leNat], e]
    rfl
  | @error row col typ head v xf h1 =>
    obtain ⟨st', e, h', e'⟩ := oldPut_sound (E := E) (rest := [v, 1]) h hg h1 (some xlError) 21 hr
    refine ⟨_, [], st', rfl, by simp, ?_, h', e'⟩
    rw [oldStep_old (by simp [oldCodes])]
    have hl := (oldHead_fields h1).1
    have : oldRecord E 21 st (toRec (0x5, head ++ [v, 1])) = oldBoolErr E 21 st (head ++ [v, 1]) := rfl
    rw [this]
    unfold oldBoolErr
    dsimp only
    have p1 : pySlice (head ++ [v, 1]) 7 8 = [v] := pySlice_at (pre := head) (m := [v]) (post := [1]) (by simp) hl.symm (by rfl)
    have p2 : pySlice (head ++ [v, 1]) 8 9 = [1] :=
      pySlice_at (pre := head ++ [v]) (m := [1]) (post := []) (by simp) (by simp; omega) (by rfl)
    rw [if_pos (by simp; omega), p1, p2, if_neg (by simp [leNat]),
      if_pos (by simp [leNat])]
    rw [show leNat [v] = v.toNat by simp [leNat], e]
    rfl
  | @fmlaNumber row col typ head n v more xf h1 h2 h3 h4 =>
    obtain ⟨st', e, h', e'⟩ := oldFormula_sound (E := E) (bv := 21) (after := after) hf h8 h hg h1 (leBytes_length 8 n) h4 hr
      fun st' n _ ht hr => formulaCell_number (E := oldEnv E 21 st') after h2 h3 ht hr
    exact ⟨_, [], st', rfl, by simp, by rw [form]; exact e, h', e'⟩
  | @fmlaBool row col typ head v x1 x2 x3 x4 more xf h1 h4 =>
    obtain ⟨st', e, h', e'⟩ := oldFormula_sound (E := E) (bv := 21) (after := after) (res := [1, x1, v, x2, x3, x4, 0xFF, 0xFF]) hf h8 h hg h1 rfl h4 hr
      fun st' n _ ht hr => formulaCell_special (E := oldEnv E 21 st') after (.inl ⟨rfl, rfl, rfl⟩) hr
    exact ⟨_, [], st', rfl, by simp, by rw [form]; exact e, h', e'⟩
  | @fmlaError row col typ head v x1 x2 x3 x4 more xf h1 h4 =>
    obtain ⟨st', e, h', e'⟩ := oldFormula_sound (E := E) (bv := 21) (after := after) (res := [2, x1, v, x2, x3, x4, 0xFF, 0xFF]) hf h8 h hg h1 rfl h4 hr
      fun st' n _ ht hr => formulaCell_special (E := oldEnv E 21 st') after (.inr (.inl ⟨rfl, rfl, rfl⟩)) hr
    exact ⟨_, [], st', rfl, by simp, by rw [form]; exact e, h', e'⟩
  | @fmlaEmpty row col typ head x1 x2 x3 x4 x5 more xf h1 h4 =>
    obtain ⟨st', e, h', e'⟩ := oldFormula_sound (E := E) (bv := 21) (after := after) (res := [3, x1, x2, x3, x4, x5, 0xFF, 0xFF]) hf h8 h hg h1 rfl h4 hr
      fun st' n _ ht hr => formulaCell_special (E := oldEnv E 21 st') after (.inr (.inr ⟨rfl, rfl, rfl⟩)) hr
    exact ⟨_, [], st', rfl, by simp, by rw [form]; exact e, h', e'⟩
  | @fmlaText row col typ head x1 x2 x3 x4 x5 more between first conts t xf h1 h4 h5 h6 =>
    obtain ⟨st', e, h', e'⟩ := oldFormula_sound (E := E) (bv := 21) (after := between.map toRec ++ toRec (0x7, first) :: (contRecs conts ++ after))
      (res := [0, x1, x2, x3, x4, x5, 0xFF, 0xFF]) hf h8 h hg h1 rfl h4 hr
      fun st' n hs' ht hr => formulaCell_text (oldFormulaText_sound hf h8 hs' (by omega) h5 h6 after) hr
    have el : (between ++ (0x7, first) :: conts.map fun d => (0x3C, d)).length = between.length + 1 + conts.length := by
      simp; omega
    have ea : (between ++ (0x7, first) :: conts.map fun d => (0x3C, d)).map toRec ++ after =
        between.map toRec ++ toRec (0x7, first) :: (contRecs conts ++ after) := by
      simp [contRecs, Function.comp_def]
    exact ⟨_, _, st', rfl, by simp, by rw [form, ea, el]; exact e, h', e'⟩

/-- The state with other cells, objects and country settings. -/
theorem OldInv.with (h : OldInv c K v s fresh st) (g : Grid) (o : σ) (cs : Nat × Nat) (hc : cs = (0, 0) ∨ cs = c.country) :
    OldInv c K v s fresh { st with G := { st.G with countries := cs }, grid := g, obj := o } :=
  ⟨h.enc, h.user, h.mode, hc, h.sst, h.kept, h.count, h.formats, h.others, h.keys, h.ixfe,
    h.xfs.imp (fun ⟨a, b, c, d⟩ => ⟨a, b, c, d⟩) fun ⟨a, b, c, d, e⟩ => ⟨a, b, c, d, ⟨e.types, e.attrs⟩⟩⟩

/-- Records that are read as in later versions. -/
theorem oldStep_same (hf : BookFits E c) (h8 : c.v8 = false) (h : OldInv c K v s fresh st) {bv : Nat} {r : Rec} (hc : r.code ∉ oldCodes)
    (hv : bv < 30 → r.code ∉ xlFormulas ∧ r.code ≠ 0x23E) {after : List Rec} {s' : XlsSt σ} {k : Nat}
    (hs : sheetStep (oldEnv E bv st) ⟨st.grid, st.G.countries, st.obj⟩ r after = .ok (s', k))
    (hcs : s'.countries = (0, 0) ∨ s'.countries = c.country) :
    ∃ st', oldStep E bv st r after = .ok (st', k) ∧ OldInv c K v s fresh st' ∧ st'.grid = s'.grid ∧ st'.obj = s'.obj := by
  unfold oldStep
  rw [if_neg hc, if_neg fun x => (hv x.2).1 x.1, if_neg fun x => (hv x.2).2 x.1, hs]
  refine ⟨_, rfl, OldInv.with ?_ _ _ _ hcs, rfl, rfl⟩
  have h1 : OldInv c K v s fresh (if usesText r then st.settle E else st) := by
    split
    · exact (h.settle hf h8).1
    · exact h
  generalize (if usesText r then st.settle E else st) = st1 at h1 ⊢
  unfold OldSt.dimensions
  split
  · exact h1.endXfs
  · exact h1

/-- All states have the same text for bytes. -/
theorem OldInv.textEq (hf : BookFits E c) (h8 : c.v8 = false) (h : OldInv c K v s fresh st) :
    oldText E st = E.decode (some (textName s.page)) := by
  obtain ⟨cp, u, e, _⟩ := ensure_sound hf h8 h.bv_small h.enc h.user
  funext b
  unfold oldText
  rw [e]

theorem OldInv.fits (hf : BookFits E c) (h8 : c.v8 = false) (h : OldInv c K v s fresh st) (hv : v ≠ .v2) {bv : Nat} (hb : VerOk v bv)
    {xfType : Nat → Option Nat} (hx : ∀ i typ, xfType i = some typ ↔ OldXfType s i typ) :
    XlsFits (oldEnv E bv st) (oldCtx c s xfType) := by
  have hsmall := hb.small
  have h30 : 30 ≤ bv := by
    unfold VerOk at hb
    cases v
    · exact absurd rfl hv
    · dsimp only at hb; omega
    · dsimp only at hb; omega
  have htext : ∀ b t, (oldCtx c s xfType).text b = some t → (oldEnv E bv st).text b = .ok t := fun b t ht => h.text hf h8 ht
  obtain ⟨_, _, _, h4⟩ := h.xfs.resolve_right fun x => hv x.2.1
  refine ⟨?_, h30, hf.rnd, h.sst, ?_, htext, ?_⟩
  · show (bv < 80) = (false = false)
    simp; omega
  · funext i
    apply Option.ext
    intro typ
    exact (h4.iff h.keys i typ).trans (hx i typ).symm
  · exact fun rs hr s after => hf.obj _ rs hr bv _ (by simp [h8]; omega) htext s after

theorem oldStep_aside (hf : BookFits E c) (h8 : c.v8 = false) (h : OldInv c K v s fresh st) {bv : Nat} (hb : VerOk v bv) {r : XRec}
    (ha : Aside r) (hm : r.1 ∉ oldMatter) (hv : v = .v2 → r.1 ≠ 0x23E) (after : List Rec) :
    ∃ st', oldStep E bv st (toRec r) after = .ok (st', 0) ∧ OldInv c K v s fresh st' ∧ st'.grid = st.grid ∧ st'.obj = st.obj := by
  by_cases hc : r.1 ∈ oldCodes
  · rw [oldStep_old hc]
    obtain ⟨code, data⟩ := r
    have hm' : code ∉ oldMatter := hm
    have hc' : code ∈ oldCodes := hc
    simp only [oldMatter, oldCodes, List.mem_cons, List.not_mem_nil, or_false, not_or] at hm' hc'
    by_cases hs : code = 0x293
    · subst hs
      have : oldRecord E bv st (toRec (0x293, data)) = .ok (if st.epilogue then st else st.endXfs) := rfl
      rw [this]
      refine ⟨_, rfl, ?_, ?_, ?_⟩
      · split
        · exact h
        · exact h.endXfs
      · split <;> rfl
      · split <;> rfl
    · have : oldRecord E bv st (toRec (code, data)) = .ok st := by
        unfold oldRecord toRec
        dsimp only
        rw [if_neg (by omega), if_neg (by omega), if_neg (by omega), if_neg (by omega), if_neg (by simp [xlDatemode]; omega),
          if_neg (by simp [xlCodepage]; omega), if_neg (by simp [xlFilepass]; omega), if_neg (by simp [xlWriteaccess]; omega),
          if_neg (by omega), if_neg (by omega), if_neg (by omega), if_neg (by omega), if_neg (by omega), if_neg (by omega)]
      rw [this]
      exact ⟨st, rfl, h, rfl, rfl⟩
  · refine oldStep_same hf h8 h (r := toRec r) hc (fun hlt => ?_) (aside_step ha _ after) h.countries
    have hv2 : v = .v2 := by
      unfold VerOk at hb
      cases v
      · rfl
      · dsimp only at hb; omega
      · dsimp only at hb; omega
    refine ⟨fun hx => ha.1 ?_, hv hv2⟩
    have hx : r.1 ∈ xlFormulas := hx
    simp only [xlFormulas, List.mem_cons, List.not_mem_nil, or_false] at hx
    rcases hx with e | e | e <;> rw [e] <;> decide

/-- The code page is named. -/
theorem codepage_sound (hf : BookFits E c) (h8 : c.v8 = false) {bv : Nat} (hb : bv < 80) {G : Globals τ}
    (hu : ∀ u, G.rawUser = some u → c.v8 = false ∧ UserOk u) {n : Nat} (hn : n < 65536) (hp : PageOk c n) (more : Bytes) :
    ∃ cp enc, handleCodepage E bv G (leBytes 2 n ++ more) = .ok { G with codepage := cp, encoding := enc, rawUser := none } ∧
      EncOk c (some n) { G with codepage := cp, encoding := enc, rawUser := none } := by
  have he : EncOk c (some n) { G with codepage := some n, encoding := some (textName (some n)) } := by
    unfold EncOk
    rw [if_neg (by rw [h8]; simp)]
    exact ⟨rfl, fun m hm => Option.some.inj hm ▸ hp, .inl rfl⟩
  obtain ⟨cp, enc, hd, h1, h2⟩ := derive_sound hf (bv := bv) (by simp [h8, hb]) he hu
  have hsame : deriveEncoding E bv { G with codepage := some n } =
      deriveEncoding E bv { G with codepage := some n, encoding := some (textName (some n)) } := by
    have : ∀ enc', chooseEncoding bv (some n) enc' = chooseEncoding bv (some n) none := fun _ => rfl
    unfold deriveEncoding
    dsimp only
    rw [this G.encoding, this (some _)]
  unfold handleCodepage
  rw [take_leBytes2, unpackNat_leBytes (by omega)]
  dsimp only
  rw [hsame, hd]
  exact ⟨cp, enc, rfl, h1⟩

theorem oldStep_page (hf : BookFits E c) (h8 : c.v8 = false) (h : OldInv c K v s fresh st) {bv n : Nat} (hn : n < 65536) (hp : PageOk c n)
    (more : Bytes) (after : List Rec) :
    ∃ st', oldStep E bv st (toRec (0x42, leBytes 2 n ++ more)) after = .ok (st', 0) ∧ OldInv c K v { s with page := some n } fresh st' ∧
      st'.grid = st.grid ∧ st'.obj = st.obj := by
  obtain ⟨cp, enc, hd, h1⟩ := codepage_sound hf h8 h.bv_small h.user hn hp more
  have e : oldRecord E bv st (toRec (0x42, leBytes 2 n ++ more)) =
    (handleCodepage E st.bv st.G (leBytes 2 n ++ more)).map fun G => { st with G := G } := rfl
  rw [oldStep_old (by simp [oldCodes]), e, hd]
  exact ⟨_, rfl, h.coded (cp := cp) (enc := enc) (u := none) h1 fun x hx => (nomatch hx), rfl, rfl⟩

theorem oldStep_mode (h : OldInv c K v s fresh st) {bv n : Nat} (hn : n = 0 ∨ n = 1) (more : Bytes) (after : List Rec) :
    ∃ st', oldStep E bv st (toRec (0x22, leBytes 2 n ++ more)) after = .ok (st', 0) ∧ OldInv c K v { s with mode := n } fresh st' ∧
      st'.grid = st.grid ∧ st'.obj = st.obj := by
  have e : oldRecord E bv st (toRec (0x22, leBytes 2 n ++ more)) =
    (handleDatemode st.G (leBytes 2 n ++ more)).map fun G => { st with G := G } := rfl
  rw [oldStep_old (by simp [oldCodes]), e]
  unfold handleDatemode
  rw [take_leBytes2, unpackNat_leBytes (by omega)]
  dsimp only
  rw [if_pos hn]
  exact ⟨_, rfl, ⟨h.enc, h.user, rfl, h.countries, h.sst, h.kept, h.count, h.formats, h.others, h.keys, h.ixfe,
    h.xfs.imp (fun ⟨a, b, c, d⟩ => ⟨a, b, c, d⟩) fun ⟨a, b, c, d, e⟩ => ⟨a, b, c, d, ⟨e.types, e.attrs⟩⟩⟩, rfl, rfl⟩

/-- The user name: kept for later, or decoded. -/
theorem writeaccess_sound (hf : BookFits E c) (h8 : c.v8 = false) {bv : Nat} (hb : bv < 80) {page : Option Nat} {G : Globals τ}
    (h : EncOk c page G) {text more : Bytes} (h1 : text.length < 256) (h2 : ∀ x ∈ text, x < 128) :
    handleWriteaccess E bv G (leBytes 1 text.length ++ text ++ more) = .ok G ∨
    handleWriteaccess E bv G (leBytes 1 text.length ++ text ++ more) =
      .ok { G with rawUser := some (leBytes 1 text.length ++ text ++ more) } := by
  unfold handleWriteaccess
  rw [if_pos hb]
  split
  · exact .inr rfl
  · rename_i hn
    have he := h
    unfold EncOk at he
    rw [if_neg (by rw [h8]; simp)] at he
    have hname := he.2.2.resolve_right fun x => hn x.1
    have ha : AsciiOk c (textName page) := by
      cases page with
      | none => exact hf.latin
      | some n =>
        have hp := he.2.1 n rfl
        unfold PageOk at hp
        cases hn : pageName n with
        | none =>
          rw [hn, h8] at hp
          cases hp
        | some name =>
          rw [hn, h8] at hp
          have et : textName (some n) = name := by
            show (pageName n).getD [] = name
            rw [hn]
            rfl
          rw [et]
          exact hp.resolve_left fun x => by cases x.1
    rw [hname, show unpackString (E.decode (some (textName page))) (leBytes 1 text.length ++ text ++ more) 0 1 = .ok (asciiText text) from
      unpackString1 (pre := []) h1 (hf.codec _ _ _ (ha text h2)) rfl]
    exact .inl rfl

theorem oldStep_user (hf : BookFits E c) (h8 : c.v8 = false) (h : OldInv c K v s fresh st) {bv : Nat} {text : Bytes}
    (h1 : text.length < 256) (h2 : ∀ x ∈ text, x < 128) (more : Bytes) (after : List Rec) :
    ∃ st', oldStep E bv st (toRec (0x5C, leBytes 1 text.length ++ text ++ more)) after = .ok (st', 0) ∧ OldInv c K v s fresh st' ∧
      st'.grid = st.grid ∧ st'.obj = st.obj := by
  have e : oldRecord E bv st (toRec (0x5C, leBytes 1 text.length ++ text ++ more)) =
    (handleWriteaccess E st.bv st.G (leBytes 1 text.length ++ text ++ more)).map fun G => { st with G := G } := rfl
  rw [oldStep_old (by simp [oldCodes]), e]
  rcases writeaccess_sound (more := more) hf h8 h.bv_small h.enc h1 h2 with e | e
  · rw [e]
    exact ⟨_, rfl, h, rfl, rfl⟩
  · rw [e]
    refine ⟨_, rfl, h.coded (cp := st.G.codepage) (enc := st.G.encoding) (u := some (leBytes 1 text.length ++ text ++ more)) h.enc ?_, rfl, rfl⟩
    exact fun x hx => ⟨h8, Option.some.inj hx ▸ ⟨text, more, h1, h2, rfl⟩⟩

theorem verOk_v2 {bv : Nat} (h : VerOk .v2 bv) : bv = 21 := h

theorem getElem?_concat {α : Type} (l : List α) (x : α) (i : Nat) :
    (l ++ [x])[i]? = if i = l.length then some x else l[i]? := by
  rw [List.getElem?_append]
  split
  · rw [if_neg (by omega)]
  · split
    · rename_i h; subst h; simp
    · rw [List.getElem?_eq_none (by simp; omega), List.getElem?_eq_none (by omega)]

theorem fmtTyp_grow (s : OldInfo) (code : List Char) {k : Nat} (hk : k < s.formats.length) :
    fmtTyp { s with formats := s.formats ++ [code] } k = fmtTyp s k := by
  unfold fmtTyp
  dsimp only
  rw [getElem?_concat, if_neg (by omega)]

/-- A new format. -/
theorem OldInv.grow (h : OldInv c K v s fresh st) (hfresh : v = .v2 → fresh = true) (code : List Char) :
    OldInv c K v { s with formats := s.formats ++ [code] } fresh
      { st with G := { st.G with formats := dset st.G.formats st.fmtCount (isDateFormat code) }, fmtCount := st.fmtCount + 1 } where
  enc := h.enc
  user := h.user
  mode := h.mode
  countries := h.countries
  sst := h.sst
  kept := h.kept
  count := by simp [h.count]
  formats := by
    intro k code' hk
    have hk : (s.formats ++ [code])[k]? = some code' := hk
    show dget (dset st.G.formats st.fmtCount (isDateFormat code)) k = _
    rw [dget_dset, h.count]
    rw [getElem?_concat] at hk
    split at hk
    · rename_i e
      rw [if_pos e, Option.some.inj hk]
    · rename_i e
      rw [if_neg e]
      exact h.formats k code' hk
  others := by
    intro k b hk hd
    have hd : dget (dset st.G.formats st.fmtCount (isDateFormat code)) k = some b := hd
    have hk : (s.formats ++ [code]).length ≤ k := hk
    rw [List.length_append, List.length_singleton] at hk
    rw [dget_dset, h.count, if_neg (by omega)] at hd
    exact h.others k b (by omega) hd
  keys := by
    intro k hk
    have := h.keys k hk
    show k < (s.formats ++ [code]).length
    rw [List.length_append, List.length_singleton]
    omega
  ixfe := h.ixfe
  xfs := by
    rcases h.xfs with ⟨h1, h2, h3, h4⟩ | ⟨h1, h2, h3, _⟩
    · refine .inl ⟨h1, h2, h3, fun i => ?_⟩
      have := h4 i
      show dget st.G.xfTypes i = _
      rw [this]
      dsimp only
      cases hx : s.xfs[i]? with
      | none => rfl
      | some k =>
        dsimp only
        rw [fmtTyp_grow s code (h.keys k (List.mem_of_getElem? hx))]
    · rw [hfresh h2] at h3
      cases h3

theorem oldStep_format (hf : BookFits E c) (h8 : c.v8 = false) (h : OldInv c K v s fresh st) {bv : Nat} (hfresh : v = .v2 → fresh = true)
    {r : XRec} {code : List Char} (hr : OldFormatIs c v s.page r code) (after : List Rec) :
    r.1 ≠ 0xA ∧ ∃ st', oldStep E bv st (toRec r) after = .ok (st', 0) ∧
      OldInv c K v { s with formats := s.formats ++ [code] } fresh st' ∧ st'.grid = st.grid ∧ st'.obj = st.obj := by
  obtain ⟨cp, u, e, h1, h2⟩ := ensure_sound hf h8 h.bv_small h.enc h.user
  have hg : OldInv c K v { s with formats := s.formats ++ [code] } fresh
      { st.coded cp (some (textName s.page)) u with
        G := { (st.coded cp (some (textName s.page)) u).G with formats := dset st.G.formats st.fmtCount (isDateFormat code) },
        fmtCount := st.fmtCount + 1 } := (h.coded h1 h2).grow hfresh code
  have hver : VerOk v st.bv := by
    rcases h.xfs with ⟨h1, _⟩ | ⟨_, h2, h3, _⟩
    · exact h1
    · rw [hfresh h2] at h3; cases h3
  obtain ⟨rc, data⟩ := r
  have hcode : (rc = 0x41E ∨ rc = 0x1E) := by
    unfold OldFormatIs at hr
    split at hr
    · exact .inl hr.1
    · exact .inr hr.1
  have hs : unpackString (E.decode (some (textName s.page))) data (if (if rc = 0x1E then min st.bv 30 else st.bv) ≤ 30 then 0 else 2) 1 =
      .ok code := by
    unfold OldFormatIs at hr
    split at hr
    · obtain ⟨h1, a, b, h2, h3, text, more, h4, rfl, h5⟩ := hr
      dsimp only at h1 h2
      subst h1 h2
      have : st.bv = 40 ∨ st.bv = 45 := hver
      rw [if_neg (by omega : ¬ (1054 : Nat) = 0x1E), if_neg (by omega)]
      exact unpackString1 h4 (hf.codec _ _ _ h5) h3.symm
    · obtain ⟨h1, text, more, h4, h6, h5⟩ := hr
      dsimp only at h1 h6
      subst h1 h6
      rw [if_pos rfl, if_pos (by omega)]
      exact unpackString1 (pre := []) h4 (hf.codec _ _ _ h5) rfl
  refine ⟨by rcases hcode with rfl | rfl <;> simp, ?_⟩
  have eo : oldRecord E bv st (toRec (rc, data)) =
      (oldFormat E st.bv rc st.G st.fmtCount data).map fun G => { st with G := G, fmtCount := st.fmtCount + 1 } := by
    rcases hcode with rfl | rfl <;> rfl
  rw [oldStep_old (by rcases hcode with rfl | rfl <;> simp [oldCodes]), eo]
  unfold oldFormat
  rw [e]
  dsimp only
  rw [hs]
  exact ⟨_, rfl, hg, rfl, rfl⟩

theorem oldStep_xf (h : OldInv c K v s fresh st) {bv : Nat} (hfresh : v = .v2 → fresh = true) {r : XRec} {key : Nat}
    (hr : OldXfIs v r key) (hk : key < s.formats.length) (after : List Rec) :
    r.1 ≠ 0xA ∧ ∃ st', oldStep E bv st (toRec r) after = .ok (st', 0) ∧ OldInv c K v { s with xfs := s.xfs ++ [key] } fresh st' ∧
      st'.grid = st.grid ∧ st'.obj = st.obj := by
  obtain ⟨h1, h2, h3, h4⟩ := h.xfs.resolve_right fun x => by
    have := x.2.2.1
    rw [hfresh x.2.1] at this
    cases this
  obtain ⟨rc, data⟩ := r
  have hc : (rc = 0x443 ∨ rc = 0x243 ∨ rc = 0x43) ∧ oldXfKey st.bv data = .ok key := by
    unfold OldXfIs at hr
    unfold oldXfKey
    cases v with
    | v2 =>
      obtain ⟨e1, a, b, f, x, e2, rfl⟩ := hr
      dsimp only at e1 e2
      subst e2
      have hb : st.bv = 21 := h1
      refine ⟨.inr (.inr e1), ?_⟩
      rw [hb, if_neg (by omega), if_pos rfl, if_pos (by rfl)]
      simp [pySlice, leNat]
    | v3 =>
      obtain ⟨e1, a, f, more, e2, e3, rfl⟩ := hr
      dsimp only at e1 e2
      subst e2
      have hb : st.bv = 30 := h1
      refine ⟨.inr (.inl e1), ?_⟩
      rw [hb, if_pos (by omega), if_pos (by simp; omega)]
      simp [pySlice, leNat]
    | v4 =>
      obtain ⟨e1, a, f, more, e2, e3, rfl⟩ := hr
      dsimp only at e1 e2
      subst e2
      have hb : st.bv = 40 ∨ st.bv = 45 := h1
      refine ⟨.inl e1, ?_⟩
      rw [if_pos (by omega), if_pos (by simp; omega)]
      simp [pySlice, leNat]
  obtain ⟨f1, f2⟩ := h.format_some hk
  refine ⟨by rcases hc.1 with rfl | rfl | rfl <;> simp, ?_⟩
  have e : oldRecord E bv st (toRec (rc, data)) = (oldXf st.bv st.G data).map fun G => { st with G := G } := by
    rcases hc.1 with rfl | rfl | rfl <;> rfl
  rw [oldStep_old (by rcases hc.1 with rfl | rfl | rfl <;> simp [oldCodes]), e]
  unfold oldXf
  rw [hc.2]
  dsimp only
  rw [if_pos f1, f2]
  refine ⟨_, rfl, ⟨h.enc, h.user, h.mode, h.countries, h.sst, h.kept, h.count, h.formats, h.others, ?_, h.ixfe,
    .inl ⟨h1, h2, congrArg (· ++ [key]) h3, fun i => ?_⟩⟩, rfl, rfl⟩
  · intro k hx
    rcases List.mem_append.1 hx with hx | hx
    · exact h.keys k hx
    · rw [List.mem_singleton.1 hx]; exact hk
  · show dget (dset st.G.xfTypes st.G.xfs.length (fmtTyp s key)) i = _
    dsimp only
    rw [dget_dset, getElem?_concat, h3]
    split
    · rfl
    · have := h4 i
      rw [this]
      cases hx : s.xfs[i]? with
      | some k => rfl
      | none =>
        dsimp only
        rw [if_neg (show ¬ (s.xfs ++ [key] = [] ∧ i = 0) by simp), if_neg]
        rintro ⟨a, b⟩
        rename_i hne
        rw [a] at hne
        exact hne b

theorem oldStep_ixfe (h : OldInv c K v s fresh st) {bv n : Nat} (hn : n < 65536) (after : List Rec) :
    ∃ st', oldStep E bv st (toRec (0x44, leBytes 2 n)) after = .ok (st', 0) ∧ OldInv c K v { s with ixfe := some n } fresh st' ∧
      st'.grid = st.grid ∧ st'.obj = st.obj := by
  have e : oldRecord E bv st (toRec (0x44, leBytes 2 n)) = (unpackNat 2 (leBytes 2 n)).map fun n => { st with ixfe := some n } := rfl
  rw [oldStep_old (by simp [oldCodes]), e, unpackNat_leBytes (by omega)]
  exact ⟨_, rfl, ⟨h.enc, h.user, h.mode, h.countries, h.sst, h.kept, h.count, h.formats, h.others, h.keys, rfl,
    h.xfs.imp (fun ⟨a, b, c, d⟩ => ⟨a, b, c, d⟩) fun ⟨a, b, c, d, e⟩ => ⟨a, b, c, d, ⟨e.types, e.attrs⟩⟩⟩, rfl, rfl⟩

theorem oldStep_builtin {bv : Nat} {data : Bytes} (hd : 2 ≤ data.length) (after : List Rec) :
    oldStep E bv st (toRec (0x56, data)) after = .ok (st, 0) := by
  have e : oldRecord E bv st (toRec (0x56, data)) = (needs 2 data).map fun _ => st := rfl
  rw [oldStep_old (by simp [oldCodes]), e, needs_ok hd]
  rfl

theorem oldStep_window {bv : Nat} {data : Bytes} (hd : 13 ≤ data.length) (after : List Rec) :
    oldStep E bv st (toRec (0x3E, data)) after = .ok (st, 0) := by
  have e : oldRecord E bv st (toRec (0x3E, data)) = (needs 13 data).map fun _ => st := rfl
  rw [oldStep_old (by simp [oldCodes]), e, needs_ok hd]
  rfl

theorem dimension2_step {E : XlsEnv σ} (hb : E.bv < 80) {code : Nat} (hc : code ∈ xlDimensions) {data : Bytes}
    (h : 8 ≤ data.length) (st : XlsSt σ) (hg : st.grid.nrows = 0 ∧ st.grid.ncols = 0)
    (after : List Rec) : sheetStep E st (toRec (code, data)) after = .ok (st, 0) := by
  have hd : readDimension E.bv st.grid ⟨code, data.length, data⟩ = .ok st.grid := by
    have hst : { st.grid with nrows := 0, ncols := 0 } = st.grid := by
      rcases hs : st.grid with ⟨a, b, c, d, e, f, g, h, i, j, k⟩
      rw [hs] at hg
      dsimp only at hg ⊢
      rw [hg.1, hg.2]
    unfold readDimension
    dsimp only
    rw [hst, if_neg (by omega), if_pos (by rw [if_pos hb]; simp [pySlice]; omega)]
  simp only [xlDimensions, List.mem_cons, List.not_mem_nil, or_false] at hc
  rcases hc with rfl | rfl <;>
  · unfold sheetStep toRec
    dsimp only
    rw [if_neg (by decide), if_neg (by decide), if_neg (by decide), if_neg (by decide), if_neg (by decide), if_neg (by decide),
      if_neg (by decide), if_neg (by decide), if_pos (by decide), hd]
    rfl

/-! ### The loop -/

theorem oldLoop_step {bv n : Nat} {st' : OldSt σ τ} {r : XRec} {more : List XRec} {after : List Rec}
    (hr : r.1 ≠ 0xA) (h : oldStep E bv st (toRec r) (more.map toRec ++ after) = .ok (st', more.length)) :
    oldLoop E bv (n + 1) st (toRec r :: (more.map toRec ++ after)) = oldLoop E bv n st' after := by
  rw [oldLoop, if_neg (show ¬ (toRec r).code = xlEof from hr), h]
  dsimp only
  congr 1
  have : (more.map toRec).length = more.length := List.length_map ..
  rw [← this, List.drop_left]

theorem oldObjs_loop (hf : BookFits E c) (h8 : c.v8 = false) {bv : Nat} (hb : VerOk v bv) {after : List Rec} {o o' : σ} {rs : List XRec}
    (hs : ObjSteps (E.obj bv (E.decode (some (textName s.page)))) after o rs o') (hm : ∀ r ∈ rs, r.1 ∉ oldMatter)
    (hv : v = .v2 → ∀ r ∈ rs, r.1 ≠ 0x23E) :
    ∀ (n : Nat) (st : OldSt σ τ), OldInv c K v s fresh st → st.obj = o → rs.length ≤ n →
      ∃ m st', n ≤ m + rs.length ∧ oldLoop E bv n st (rs.map toRec ++ after) = oldLoop E bv m st' after ∧
        OldInv c K v s fresh st' ∧ st'.grid = st.grid := by
  induction hs with
  | nil => exact fun n st h _ _ => ⟨n, st, by simp, rfl, h, rfl⟩
  | @object o o' o'' r more rs h1 h2 _ ih =>
    intro n st h e hn
    obtain ⟨m, rfl⟩ : ∃ m, n = m + 1 := ⟨n - 1, by simp at hn; omega⟩
    subst e
    have ho : (oldEnv E bv st).obj st.obj (toRec r) (more.map toRec ++ (rs.map toRec ++ after)) = .ok (o', more.length) := by
      show E.obj bv (oldText E st) _ _ _ = _
      rw [h.textEq hf h8]
      exact h2
    obtain ⟨hne, hst⟩ := object_step (st := ⟨st.grid, st.G.countries, st.obj⟩) h1 ho
    have hcode : (toRec r).code = 0x1B8 ∨ (toRec r).code = 0x800 ∨ (toRec r).code = 0x5D ∨ (toRec r).code = 0x1B6 ∨ (toRec r).code = 0x1C := by
      show r.1 = _ ∨ r.1 = _ ∨ r.1 = _ ∨ r.1 = _ ∨ r.1 = _
      simpa [xlObjects] using h1
    obtain ⟨st', e1, h', g1, o1⟩ := oldStep_same hf h8 h (bv := bv) (r := toRec r)
      (by rcases hcode with e | e | e | e | e <;> rw [e] <;> decide)
      (fun _ => by rcases hcode with e | e | e | e | e <;> rw [e] <;> decide) hst h.countries
    obtain ⟨k, st'', hk, e2, h'', g2⟩ := ih (fun r hr => hm r (by simp [hr])) (fun e r hr => hv e r (by simp [hr])) m st' h' o1
      (by simp at hn; omega)
    refine ⟨k, st'', by simp; omega, ?_, h'', g2.trans g1⟩
    rw [List.map_cons, List.map_append, List.cons_append, List.append_assoc, oldLoop_step hne e1, e2]
  | @aside o o' r rs h1 _ ih =>
    intro n st h e hn
    obtain ⟨m, rfl⟩ : ∃ m, n = m + 1 := ⟨n - 1, by simp at hn; omega⟩
    have hne : r.1 ≠ 0xA := fun e => h1.1 (by rw [e]; decide)
    obtain ⟨st', e1, h', g1, o1⟩ := oldStep_aside hf h8 h hb h1 (hm r (by simp)) (fun e => hv e r (by simp)) (rs.map toRec ++ after)
    have := oldLoop_step (n := m) (more := []) (after := rs.map toRec ++ after) hne e1
    obtain ⟨k, st'', hk, e2, h'', g2⟩ := ih (fun r hr => hm r (by simp [hr])) (fun e r hr => hv e r (by simp [hr])) m st' h' (o1.trans e)
      (by simp at hn; omega)
    refine ⟨k, st'', by simp; omega, ?_, h'', g2.trans g1⟩
    rw [List.map_nil, List.nil_append] at this
    rw [List.map_cons, List.cons_append, this, e2]

theorem cellRecs_puts {whole : Bool} {ctx : XlsCtx} {rs : List XRec} {ops : List CellOp} (h : CellRecs whole ctx rs ops) :
    ∀ op ∈ ops, ∃ r c v, op = .put r c v := by
  intro op ho
  cases h with
  | mulRk _ _ _ h => exact rkItems_puts h op ho
  | _ => exact ⟨_, _, _, List.mem_singleton.1 ho⟩

theorem oldCells_puts {whole : Bool} {rs : List XRec} {ops : List CellOp} (h : OldCells whole c s rs ops) :
    ∀ op ∈ ops, ∃ r c v, op = .put r c v := by
  intro op ho
  cases h <;> exact ⟨_, _, _, List.mem_singleton.1 ho⟩

theorem oldRecs_puts {whole : Bool} {rs : List XRec} {ops : List CellOp} {page : Option Nat} {mode : Nat}
    (h : OldRecs whole c v s fresh rs ops page mode) : ∀ op ∈ ops, ∃ r c v, op = .put r c v := by
  induction h with
  | eof => simp
  | cells2 _ hc _ ih =>
    intro op ho
    rcases List.mem_append.1 ho with ho | ho
    · exact oldCells_puts hc op ho
    · exact ih op ho
  | cells _ _ hc _ ih =>
    intro op ho
    rcases List.mem_append.1 ho with ho | ho
    · exact cellRecs_puts hc op ho
    · exact ih op ho
  | _ => assumption

/-- A record that is read as in later versions with cells is not one of the old ones. -/
theorem cellRecs_codes {whole : Bool} {ctx : XlsCtx} {r : XRec} {more : List XRec} {ops : List CellOp}
    (h : CellRecs whole ctx (r :: more) ops) : (toRec r).code ∉ oldCodes := by
  show r.1 ∉ oldCodes
  cases h with
  | fmlaNumber hc => rcases hc with rfl | rfl | rfl <;> simp [oldCodes]
  | fmlaBool hc => rcases hc with rfl | rfl | rfl <;> simp [oldCodes]
  | fmlaError hc => rcases hc with rfl | rfl | rfl <;> simp [oldCodes]
  | fmlaEmpty hc => rcases hc with rfl | rfl | rfl <;> simp [oldCodes]
  | fmlaText hc => rcases hc with rfl | rfl | rfl <;> simp [oldCodes]
  | _ => simp [oldCodes]

/-- The records of a sheet do what they stand for. -/
theorem oldLoop_sound (hf : BookFits E c) (h8 : c.v8 = false) {bv : Nat} (hb : VerOk v bv) {rs : List XRec} {ops : List CellOp}
    {page : Option Nat} {mode : Nat} (h : OldRecs true c v s fresh rs ops page mode) :
    ∀ (n : Nat) (st : OldSt σ τ) (after : List Rec) {g' : Grid}, rs.length ≤ n → OldInv c K v s fresh st → st.grid.fmt = false →
      (fresh = true → st.grid.nrows = 0 ∧ st.grid.ncols = 0) → st.grid.run ops = (g', none) →
      ∃ st' s', oldLoop E bv n st (rs.map toRec ++ after) = .ok st' ∧ st'.grid = g' ∧ OldInv c K v s' false st' ∧
        s'.page = page ∧ s'.mode = mode := by
  have one : ∀ {s s' : OldInfo} {fresh : Bool} {r : XRec} {rest : List XRec} {ops : List CellOp} {page : Option Nat} {mode : Nat},
      r.1 ≠ 0xA →
      (∀ (st : OldSt σ τ) (after : List Rec), OldInv c K v s fresh st → (fresh = true → st.grid.nrows = 0 ∧ st.grid.ncols = 0) →
        ∃ st', oldStep E bv st (toRec r) after = .ok (st', 0) ∧ OldInv c K v s' fresh st' ∧ st'.grid = st.grid) →
      (∀ (n : Nat) (st : OldSt σ τ) (after : List Rec) {g' : Grid}, rest.length ≤ n → OldInv c K v s' fresh st → st.grid.fmt = false →
        (fresh = true → st.grid.nrows = 0 ∧ st.grid.ncols = 0) → st.grid.run ops = (g', none) →
        ∃ st' s', oldLoop E bv n st (rest.map toRec ++ after) = .ok st' ∧ st'.grid = g' ∧ OldInv c K v s' false st' ∧
          s'.page = page ∧ s'.mode = mode) →
      ∀ (n : Nat) (st : OldSt σ τ) (after : List Rec) {g' : Grid}, (r :: rest).length ≤ n → OldInv c K v s fresh st → st.grid.fmt = false →
        (fresh = true → st.grid.nrows = 0 ∧ st.grid.ncols = 0) → st.grid.run ops = (g', none) →
        ∃ st' s', oldLoop E bv n st ((r :: rest).map toRec ++ after) = .ok st' ∧ st'.grid = g' ∧ OldInv c K v s' false st' ∧
          s'.page = page ∧ s'.mode = mode := by
    intro s s' fresh r rest ops page mode hne hstep ih n st after g' hn hi hg hfr hr
    obtain ⟨m, rfl⟩ : ∃ m, n = m + 1 := ⟨n - 1, by simp at hn; omega⟩
    obtain ⟨st', e, h', eg⟩ := hstep st (rest.map toRec ++ after) hi hfr
    have := oldLoop_step (n := m) (more := []) (after := rest.map toRec ++ after) hne e
    rw [List.map_nil, List.nil_append] at this
    rw [List.map_cons, List.cons_append, this]
    exact ih m st' after (by simp at hn; omega) h' (by rw [eg]; exact hg) (by rw [eg]; exact hfr) (by rw [eg]; exact hr)
  induction h with
  | eof =>
    intro n st after g' hn hi hg hfr hr
    obtain ⟨m, rfl⟩ : ∃ m, n = m + 1 := ⟨n - 1, by simp at hn; omega⟩
    simp only [Grid.run, Prod.mk.injEq, and_true] at hr
    refine ⟨st, _, ?_, hr, hi.stale, rfl, rfl⟩
    rw [List.map_cons, List.cons_append, oldLoop, if_pos (show (toRec (0xA, _)).code = xlEof from rfl)]
  | @page s fresh n more rest ops page mode h1 h2 _ ih =>
    exact one (by simp) (fun st after hi _ => by
      obtain ⟨st', a, b, c, _⟩ := oldStep_page (bv := bv) hf h8 hi h1 h2 more after
      exact ⟨st', a, b, c⟩) ih
  | @mode s fresh n more rest ops page mode h1 _ ih =>
    exact one (by simp) (fun st after hi _ => by
      obtain ⟨st', a, b, c, _⟩ := oldStep_mode (E := E) (bv := bv) hi h1 more after
      exact ⟨st', a, b, c⟩) ih
  | @user s fresh text more rest ops page mode h1 h2 _ ih =>
    exact one (by simp) (fun st after hi _ => by
      obtain ⟨st', a, b, c, _⟩ := oldStep_user (bv := bv) hf h8 hi h1 h2 more after
      exact ⟨st', a, b, c⟩) ih
  | @format s fresh r code rest ops page mode h1 h2 _ ih =>
    have hne : r.1 ≠ 0xA := by
      unfold OldFormatIs at h2
      split at h2 <;> (rw [h2.1]; simp)
    exact one hne (fun st after hi _ => by
      obtain ⟨_, st', a, b, c, _⟩ := oldStep_format (bv := bv) hf h8 hi h1 h2 after
      exact ⟨st', a, b, c⟩) ih
  | @xf s fresh r key rest ops page mode h1 h2 h3 _ ih =>
    have hne : r.1 ≠ 0xA := by
      unfold OldXfIs at h2
      split at h2 <;> (rw [h2.1]; simp)
    exact one hne (fun st after hi _ => by
      obtain ⟨_, st', a, b, c, _⟩ := oldStep_xf (E := E) (bv := bv) hi h1 h2 h3 after
      exact ⟨st', a, b, c⟩) ih
  | @ixfe s fresh n rest ops page mode h1 _ ih =>
    exact one (by simp) (fun st after hi _ => by
      obtain ⟨st', a, b, c, _⟩ := oldStep_ixfe (E := E) (bv := bv) hi h1 after
      exact ⟨st', a, b, c⟩) ih
  | @cells2 s fresh rs ops rest more page mode hv hc _ ih =>
    intro n st after g' hn hi hg hfr hr
    subst hv
    rw [run_append] at hr
    rcases hp : st.grid.run ops with ⟨g1, _ | e⟩
    · rw [hp] at hr
      have hb21 := verOk_v2 hb
      subst hb21
      obtain ⟨r, tl, st', rfl, hne, hs, h', eg⟩ := oldCells_step hf h8 hi hg hc hp (rest.map toRec ++ after)
      obtain ⟨m, rfl⟩ : ∃ m, n = m + 1 := ⟨n - 1, by simp at hn; omega⟩
      have := oldLoop_step (n := m) hne hs
      rw [List.cons_append, List.map_cons, List.map_append, List.cons_append, List.append_assoc, this]
      have hf1 : g1.fmt = false := by
        have := run_fmt (oldCells_puts hc) st.grid
        rw [hp] at this
        exact this.trans hg
      exact ih m _ after (by simp at hn; omega) h' (by rw [eg]; exact hf1) (by simp) (by rw [eg]; exact hr)
    · rw [hp] at hr
      simp at hr
  | @cells s fresh xfType rs ops rest more page mode hv hx hc _ ih =>
    intro n st after g' hn hi hg hfr hr
    rw [run_append] at hr
    rcases hp : st.grid.run ops with ⟨g1, _ | e⟩
    · rw [hp] at hr
      obtain ⟨r, tl, rfl, hne, hs⟩ := cells_step (hi.fits hf h8 hv hb hx) hc ⟨st.grid, st.G.countries, st.obj⟩ hp (rest.map toRec ++ after)
      have h30 : ¬ bv < 30 := by
        unfold VerOk at hb
        cases v
        · exact absurd rfl hv
        · dsimp only at hb; omega
        · dsimp only at hb; omega
      obtain ⟨st', e, h', eg, _⟩ := oldStep_same hf h8 hi (cellRecs_codes hc) (fun x => absurd x h30) hs hi.countries
      obtain ⟨m, rfl⟩ : ∃ m, n = m + 1 := ⟨n - 1, by simp at hn; omega⟩
      have := oldLoop_step (n := m) hne e
      rw [List.cons_append, List.map_cons, List.map_append, List.cons_append, List.append_assoc, this]
      have hf1 : g1.fmt = false := by
        have := run_fmt (cellRecs_puts hc) st.grid
        rw [hp] at this
        exact this.trans hg
      exact ih m _ after (by simp at hn; omega) h'.stale (by rw [eg]; exact hf1) (by simp) (by rw [eg]; exact hr)
    · rw [hp] at hr
      simp at hr
  | @dimensions s data rest ops page mode h1 _ ih =>
    exact one (by split <;> simp) (fun st after hi hfr => by
      have hd : (if v = .v2 then 0x0 else 0x200) ∈ xlDimensions := by split <;> decide
      have hs := dimension2_step (E := oldEnv E bv st) (show bv < 80 by have := hb.small; omega) hd h1
        ⟨st.grid, st.G.countries, st.obj⟩ (hfr rfl) after
      obtain ⟨st', a, b, c, _⟩ := oldStep_same hf h8 hi (bv := bv) (r := toRec (if v = .v2 then 0x0 else 0x200, data))
        (by show (if v = .v2 then 0x0 else 0x200) ∉ oldCodes; split <;> decide)
        (fun _ => by
          show (if v = .v2 then 0x0 else 0x200) ∉ xlFormulas ∧ (if v = .v2 then 0x0 else 0x200) ≠ 0x23E
          split <;> decide) hs hi.countries
      exact ⟨st', a, b, c⟩) ih
  | @builtin s fresh data rest ops page mode h1 _ ih =>
    exact one (by simp) (fun st after hi _ => ⟨st, oldStep_builtin h1 after, hi, rfl⟩) ih
  | @window s fresh data rest ops page mode h1 _ ih =>
    exact one (by simp) (fun st after hi _ => ⟨st, oldStep_window h1 after, hi, rfl⟩) ih
  | @aside s fresh r rest ops page mode h1 h2 h3 _ ih =>
    have hne : r.1 ≠ 0xA := fun e => h1.1 (by rw [e]; decide)
    exact one hne (fun st after hi _ => by
      obtain ⟨st', a, b, c, _⟩ := oldStep_aside hf h8 hi hb h1 h2 h3 after
      exact ⟨st', a, b, c⟩) ih
  | @country s fresh more rest ops page mode h1 h2 _ ih =>
    exact one (by simp) (fun st after hi _ => by
      have hs := country_step (E := oldEnv E bv st) h1 h2 more ⟨st.grid, st.G.countries, st.obj⟩ hi.countries after
      obtain ⟨st', a, b, c, _⟩ := oldStep_same hf h8 hi (bv := bv)
        (r := toRec (0x8C, leBytes 2 c.country.1 ++ leBytes 2 c.country.2 ++ more))
        (by show 0x8C ∉ oldCodes; decide) (fun _ => by show 0x8C ∉ xlFormulas ∧ 0x8C ≠ 0x23E; decide) hs (.inr rfl)
      exact ⟨st', a, b, c⟩) ih
  | @object s fresh rs rest ops page mode h1 h2 h3 _ ih =>
    intro n st after g' hn hi hg hfr hr
    obtain ⟨o, hs⟩ := hf.obj _ rs h1 bv (E.decode (some (textName s.page))) (by have := hb.small; simp [h8]; omega)
      (fun b t hbt => hf.codec _ _ _ hbt) st.obj (rest.map toRec ++ after)
    obtain ⟨m, st', hm, e, h', eg⟩ := oldObjs_loop hf h8 hb hs h2 h3 n st hi rfl (by simp at hn; omega)
    rw [List.map_append, List.append_assoc, e]
    exact ih m st' after (by simp at hn; omega) h' (by rw [eg]; exact hg) (by rw [eg]; exact hfr) (by rw [eg]; exact hr)
  | @chart s fresh code data eof rs rest ops page mode h1 h2 h3 _ ih =>
    intro n st after g' hn hi hg hfr hr
    obtain ⟨m, rfl⟩ : ∃ m, n = m + 1 := ⟨n - 1, by simp at hn; omega⟩
    have hs := chart_step (E := oldEnv E bv st) (eof := eof) (.inr h1) h2 h3 ⟨st.grid, st.G.countries, st.obj⟩ (rest.map toRec ++ after)
    obtain ⟨st', e, h', eg, _⟩ := oldStep_same hf h8 hi (bv := bv) (r := toRec (code, data))
      (by show code ∉ oldCodes; rcases h1 with rfl | rfl <;> decide)
      (fun _ => by show code ∉ xlFormulas ∧ code ≠ 0x23E; rcases h1 with rfl | rfl <;> decide) hs hi.countries
    have := oldLoop_step (n := m) (more := rs ++ [(0xA, eof)]) (r := (code, data)) (by rcases h1 with rfl | rfl <;> simp)
      (after := rest.map toRec ++ after) (st := st) (st' := st') (E := E) (by simpa using e)
    rw [List.map_cons, List.map_append, List.map_cons, List.cons_append, List.append_assoc, List.cons_append]
    rw [List.map_append, List.map_cons, List.map_nil, List.append_assoc, List.singleton_append] at this
    rw [this]
    exact ih m st' after (by simp at hn; omega) h' (by rw [eg]; exact hg) (by rw [eg]; exact hfr) (by rw [eg]; exact hr)

/-! ### Sheets -/

/-- What goes on from sheet to sheet. -/
structure BaseInv (c : BookCtx) (page : Option Nat) (mode : Nat) (G : Globals τ) : Prop where
  enc : EncOk c page G
  user : ∀ u, G.rawUser = some u → c.v8 = false ∧ UserOk u
  mode : G.datemode = mode
  countries : G.countries = (0, 0) ∨ G.countries = c.country
  sst : G.sst = []

theorem typesAre_init {page : Option Nat} {mode : Nat} : TypesAre ⟨page, mode, [], [], none⟩ [(0, xlNumber)] := by
  intro i
  simp only [dget, List.getElem?_nil, true_and]
  by_cases h0 : i = 0
  · subst h0; rfl
  · rw [if_neg (Ne.symm h0), if_neg h0]

/-- A sheet is read from its records. -/
theorem readOldSheet_sound (hf : BookFits E c) (h8 : c.v8 = false) {bv : Nat} (hb : VerOk v bv) {page page' : Option Nat} {mode mode' : Nat}
    {G : Globals τ} (hG : BaseInv c page mode G) (hform : G.formats = []) (hxfs : G.xfs = []) (htypes : G.xfTypes = [(0, xlNumber)])
    {rs : List XRec} {ops : List CellOp} (hrs : ∀ r ∈ rs, RecordOk r) (h : OldRecs true c v ⟨page, mode, [], [], none⟩ true rs ops page' mode')
    (hfit : ∀ row col x, .put row col x ∈ ops → row < 16384 ∧ col < 256) (pre post : Bytes) :
    ∃ G' g, readOldSheet E bv G (recordsAt (pre ++ (rs.flatMap recordBytes ++ post)) pre.length) = .ok (G', g) ∧ GridHolds ops g ∧
      BaseInv c page' mode' G' ∧ G'.sheets = G.sheets ∧ G'.allSheets = G.allSheets ∧ G'.names = G.names := by
  obtain ⟨more, hm⟩ := recordsAt_sound hrs pre post
  have hfits : ∀ op ∈ ops, CellOp.Fits false 16384 256 op := by
    intro op hop
    obtain ⟨r, k, v, rfl⟩ := oldRecs_puts h op hop
    exact ⟨(hfit r k v hop).1, (hfit r k v hop).2, by simp⟩
  obtain ⟨x, _, e1, _⟩ := gridInv_run (by omega) ops (gridInv_init false false 16384 256) (by simpa using hfits)
  obtain ⟨g, h1, h2, h3, h4, h5, h6⟩ := C50_last_write_wins false 16384 256 (by omega) ops hfits
  have ht : x.tidy = (g, none) := by
    rw [run_append, e1] at h1
    dsimp only at h1
    rw [Grid.run] at h1
    simp only [Grid.op] at h1
    rcases ht : x.tidy with ⟨g', _ | err⟩
    · rw [ht] at h1
      simpa [Grid.run] using h1
    · rw [ht] at h1
      simp at h1
  have hinit : OldInv c G v ⟨page, mode, [], [], none⟩ true
      ⟨G, 0, false, bv, none, [], Grid.init false false 16384 256, E.obj0⟩ := by
    refine ⟨hG.enc, hG.user, hG.mode, hG.countries, hG.sst, ⟨rfl, rfl, rfl⟩, rfl, ?_, ?_, ?_, rfl, .inl ⟨hb, rfl, hxfs, ?_⟩⟩
    · intro k code hk
      simp at hk
    · intro k b _ hd
      rw [show (dget G.formats k) = none by rw [hform]; rfl] at hd
      cases hd
    · intro k hk
      cases hk
    · show TypesAre _ G.xfTypes
      rw [htypes]
      exact typesAre_init
  obtain ⟨st', s', hl, rfl, hi, hp, hmo⟩ := oldLoop_sound hf h8 hb h ((rs.map toRec ++ more).length + 1) _ more
    (by simp; omega) hinit rfl (fun _ => ⟨rfl, rfl⟩) e1
  refine ⟨st'.G, g, ?_, ⟨h2, h3, h4, h5, fun r c hr hc => ⟨(h6 r c hr hc).1, (h6 r c hr hc).2.1⟩⟩,
    ⟨hp ▸ hi.enc, hi.user, hi.mode.trans hmo, hi.countries, hi.sst⟩, hi.kept⟩
  unfold readOldSheet
  rw [hm, hl]
  dsimp only
  rw [ht]

/-! ### BOF -/

theorem getbof_old {op version typ rqd : Nat} {bof : Bytes} (hop : op = 0x9 ∨ op = 0x209 ∨ op = 0x409) (h : BofIs version typ bof)
    (ht : typ = 0x10 ∨ (op = 0x409 ∧ typ = 0x100 ∧ rqd = 5)) (pre post : Bytes) :
    getbof (pre ++ (recordBytes (op, bof) ++ post)) pre.length rqd =
      .ok (if op = 0x9 then 21 else if op = 0x209 then 30 else if typ = 0x100 then 45 else 40,
        ((pre ++ recordBytes (op, bof)).length : Nat)) := by
  obtain ⟨h1, h2, more, rfl⟩ := h
  have htl : typ < 65536 := by rcases ht with h | h <;> omega
  have hopl : op < 65536 := by omega
  have hlen : (leBytes 2 version ++ leBytes 2 typ ++ more).length = 4 + more.length := by simp [leBytes_length]; omega
  generalize hd : leBytes 2 version ++ leBytes 2 typ ++ more = data at *
  have hrec : recordBytes (op, data) = leBytes 2 op ++ (leBytes 2 data.length ++ data) := by
    unfold recordBytes; simp
  have s1 : pySliceI (pre ++ (recordBytes (op, data) ++ post)) pre.length ((pre.length : Int) + 2) = leBytes 2 op := by
    rw [hrec, List.append_assoc]
    exact pySliceI_mid rfl (by rw [leBytes_length]; rfl)
  have s2 : pySliceI (pre ++ (recordBytes (op, data) ++ post)) ((pre.length : Int) + 2) ((pre.length : Int) + 4) =
      leBytes 2 data.length := by
    rw [hrec, show pre ++ (leBytes 2 op ++ (leBytes 2 data.length ++ data) ++ post) =
      (pre ++ leBytes 2 op) ++ (leBytes 2 data.length ++ (data ++ post)) by simp]
    exact pySliceI_mid (by rw [List.length_append, leBytes_length]; rfl) (by rw [leBytes_length]; omega)
  have s3 : pySliceI (pre ++ (recordBytes (op, data) ++ post)) ((pre.length : Int) + 4) ((pre.length : Int) + 4 + data.length) = data := by
    rw [hrec, show pre ++ (leBytes 2 op ++ (leBytes 2 data.length ++ data) ++ post) =
      (pre ++ leBytes 2 op ++ leBytes 2 data.length) ++ (data ++ post) by simp]
    exact pySliceI_mid (by rw [List.length_append, List.length_append, leBytes_length, leBytes_length]; omega) rfl
  have f2 : ∀ pad, field2 (data ++ pad) 2 = typ := by
    intro pad
    subst hd
    unfold field2
    rw [pySlice_at (pre := leBytes 2 version) (m := leBytes 2 typ) (post := more ++ pad) (by simp) (by rw [leBytes_length])
      (by rw [leBytes_length]), leNat_leBytes (by omega)]
  have eop : leNat (leBytes 2 op) = op := leNat_leBytes (by omega)
  have ln : leNat (leBytes 2 data.length) = data.length := leNat_leBytes (by omega)
  have hmem : ¬ op ∉ xlBofs := by rcases hop with rfl | rfl | rfl <;> decide
  have hv : ∀ a b d, bofVersion op a typ b d = if op = 0x9 then 21 else if op = 0x209 then 30 else if typ = 0x100 then 45 else 40 := by
    intro a b d
    rcases hop with rfl | rfl | rfl
    · rfl
    · rfl
    · rcases ht with rfl | ⟨_, rfl, _⟩ <;> rfl
  unfold getbof
  dsimp only
  rw [s1, eop, if_neg (by rw [leBytes_length]; rintro (h | h); · omega
                          · exact hmem h), s2, ln, if_neg (by rw [leBytes_length]; omega), s3, if_neg (by omega), f2, hv]
  rw [if_pos (by
    rcases ht with rfl | ⟨rfl, rfl, rfl⟩
    · refine .inr (.inr ⟨?_, rfl⟩)
      split; · omega
      split; · omega
      split <;> omega
    · exact .inl ⟨rfl, .inr ⟨rfl, rfl⟩⟩)]
  congr 2
  rw [List.length_append, hrec, List.length_append, List.length_append, leBytes_length, leBytes_length]
  omega

/-! ### Books of Excel 4 -/

/-- The reader of the globals has what these have said so far. -/
structure Old4Inv (E : BookEnv σ τ) (c : BookCtx) (s : Old4Info) (st : Old4W τ) : Prop where
  base : BaseInv c s.page s.mode st.G
  offset : s.offset = true → st.offset.isSome
  sheets : st.G.sheets.map Prod.fst = s.names
  all : st.G.allSheets = s.names.map fun n => (n, 0)
  names : st.G.names = E.names0
  come : st.done.length = s.come

theorem BaseInv.coded {page page' : Option Nat} {mode : Nat} {G : Globals τ} (h : BaseInv c page mode G) {cp : Option Nat}
    {enc : Option (List Char)} {u : Option Bytes} (h1 : EncOk c page' { G with codepage := cp, encoding := enc, rawUser := u })
    (h2 : ∀ x, u = some x → c.v8 = false ∧ UserOk x) : BaseInv c page' mode { G with codepage := cp, encoding := enc, rawUser := u } :=
  ⟨h1, h2, h.mode, h.countries, h.sst⟩

/-- What `derive_encoding` does to it. -/
theorem BaseInv.derive (hf : BookFits E c) (h8 : c.v8 = false) {page : Option Nat} {mode : Nat} {G : Globals τ} (h : BaseInv c page mode G)
    {bv : Nat} (hb : bv < 80) : ∃ cp, deriveEncoding E bv G = .ok { G with codepage := cp, encoding := some (textName page), rawUser := none } ∧
      BaseInv c page mode { G with codepage := cp, encoding := some (textName page), rawUser := none } := by
  obtain ⟨cp, enc, e, h1, h2⟩ := derive_sound hf (bv := bv) (by simp [h8, hb]) h.enc h.user
  rw [h2 h8] at e h1
  exact ⟨cp, e, h.coded h1 fun x hx => (nomatch hx)⟩

theorem oldText_sound (hf : BookFits E c) {page : Option Nat} {pre b : Bytes} {t : List Char} {n : Nat} (hn : n = pre.length)
    (h : OldTextIs c page b t) : unpackString (E.decode (some (textName page))) (pre ++ b) n 1 = .ok t := by
  obtain ⟨text, more, h1, rfl, h2⟩ := h
  exact unpackString1 (pre := pre) h1 (hf.codec _ _ _ h2) hn

theorem loop4_step {base : Int} {n : Nat} {st st' : Old4W τ} {r : XRec} {pre post : Bytes} {p : Int} (hr : RecordOk r) (hne : r.1 ≠ 0xA)
    (h : step4 E base (pre ++ (recordBytes r ++ post)) st (toRec r) ((pre ++ recordBytes r).length : Nat) = .ok (st', p)) :
    loop4 E base (pre ++ (recordBytes r ++ post)) (n + 1) st pre.length = loop4 E base (pre ++ (recordBytes r ++ post)) n st' p := by
  rw [loop4, recordAt_sound hr]
  dsimp only
  rw [if_neg (show ¬ (toRec r).code = xlEof from hne), h]

theorem step4_global {base : Int} {mem : Bytes} {st : Old4W τ} {r : Rec} {pos : Int} {G' : Globals τ}
    (h1 : r.code ∉ [0x41E, 0xE0, 0x85, 0x8E, 0x8F, 0x18]) (h : globalsStep E 45 base st.G r (recordsAt mem pos) = .ok (G', 0)) :
    step4 E base mem st r pos = .ok ({ st with G := G' }, pos) := by
  simp only [List.mem_cons, List.not_mem_nil, or_false, not_or] at h1
  unfold step4 xlFormat xlXf xlBoundsheet xlSheetsoffset xlSheethdr
  rw [if_neg h1.1, if_neg h1.2.1, if_neg h1.2.2.1, if_neg h1.2.2.2.1, if_neg h1.2.2.2.2.1, if_neg h1.2.2.2.2.2, h]
  rfl

theorem recordBytes_pos (r : XRec) : 0 < (recordBytes r).length := by
  unfold recordBytes
  simp [leBytes_length]
  omega

/-- The globals of a book of Excel 4 are read, with its sheets. -/
theorem loop4_sound (hf : BookFits E c) (h8 : c.v8 = false) {base : Int} {s : Old4Info} {bytes : Bytes} {mode : Nat}
    {sheets : List (List Char × List CellOp)} (h : Old4Recs true c s bytes mode sheets) :
    ∀ (n : Nat) (st : Old4W τ) (pre post : Bytes), bytes.length ≤ n → Old4Inv E c s st →
      ∃ st' gs, loop4 E base (pre ++ (bytes ++ post)) n st pre.length = .ok st' ∧ st'.G.datemode = mode ∧ st'.done = st.done ++ gs ∧
        Each (fun x y => y.name = x.1 ∧ GridHolds x.2 y.grid) sheets gs := by
  induction h with
  | @eof s data hr hcome hnamed =>
    intro n st pre post hn hi
    have hp := recordBytes_pos (0xA, data)
    obtain ⟨n, rfl⟩ : ∃ m, n = m + 1 := ⟨n - 1, by omega⟩
    obtain ⟨Inv, n1, _, n3⟩ := hf.names
    rw [loop4, recordAt_sound hr]
    dsimp only
    rw [if_pos (show (toRec _).code = xlEof from rfl)]
    unfold globalsEnd
    dsimp only
    have hend := n3 _ [] _ hnamed 45 (E.decode st.G.encoding) st.G.names (by simp [h8]) (fun ⟨_, hg, _⟩ => by cases hg) (hi.names ▸ n1)
    rw [← hi.all] at hend
    rw [hend]
    dsimp only
    split
    · have hb : BaseInv c _ _ { st.G with xfTypes := xfEpilogue st.G.formats 0 st.G.xfs st.G.xfTypes } :=
        ⟨hi.base.enc, hi.base.user, hi.base.mode, hi.base.countries, hi.base.sst⟩
      obtain ⟨cp, e, h1⟩ := hb.derive hf h8 (bv := 45) (by omega)
      dsimp only at e
      rw [e]
      exact ⟨_, [], rfl, h1.mode, (List.append_nil _).symm, .nil⟩
    · exact ⟨_, [], rfl, hi.base.mode, (List.append_nil _).symm, .nil⟩
  | @page s k more rest mode sheets hr hk hp hrest ih =>
    intro n st pre post hn hi
    have hlen := recordBytes_pos (0x42, leBytes 2 k ++ more)
    rw [List.length_append] at hn
    obtain ⟨n, rfl⟩ : ∃ m, n = m + 1 := ⟨n - 1, by omega⟩
    obtain ⟨cp, enc, hd, h1⟩ := codepage_sound hf h8 (bv := 45) (by omega) hi.base.user hk hp more
    have e : ∀ after, globalsStep E 45 base st.G (toRec (0x42, leBytes 2 k ++ more)) after =
      (handleCodepage E 45 st.G (leBytes 2 k ++ more)).map fun G => (G, 0) := fun _ => rfl
    rw [List.append_assoc, loop4_step hr (by simp) (step4_global (by simp [toRec]) ((e _).trans (by rw [hd]; rfl))),
      show pre ++ (recordBytes (0x42, leBytes 2 k ++ more) ++ (rest ++ post)) =
        (pre ++ recordBytes (0x42, leBytes 2 k ++ more)) ++ (rest ++ post) by simp]
    exact ih n _ _ post (by omega) ⟨hi.base.coded h1 fun x hx => (nomatch hx), hi.offset, hi.sheets, hi.all, hi.names, hi.come⟩
  | @mode s k more rest mode sheets hr hk hrest ih =>
    intro n st pre post hn hi
    have hlen := recordBytes_pos (0x22, leBytes 2 k ++ more)
    rw [List.length_append] at hn
    obtain ⟨n, rfl⟩ : ∃ m, n = m + 1 := ⟨n - 1, by omega⟩
    have hd : handleDatemode st.G (leBytes 2 k ++ more) = .ok { st.G with datemode := k } := by
      unfold handleDatemode
      rw [take_leBytes2, unpackNat_leBytes (by omega)]
      dsimp only
      rw [if_pos hk]
    have e : ∀ after, globalsStep E 45 base st.G (toRec (0x22, leBytes 2 k ++ more)) after =
      (handleDatemode st.G (leBytes 2 k ++ more)).map fun G => (G, 0) := fun _ => rfl
    rw [List.append_assoc, loop4_step hr (by simp) (step4_global (by simp [toRec]) ((e _).trans (by rw [hd]; rfl))),
      show pre ++ (recordBytes (0x22, leBytes 2 k ++ more) ++ (rest ++ post)) =
        (pre ++ recordBytes (0x22, leBytes 2 k ++ more)) ++ (rest ++ post) by simp]
    exact ih n _ _ post (by omega) ⟨⟨hi.base.enc, hi.base.user, rfl, hi.base.countries, hi.base.sst⟩, hi.offset, hi.sheets, hi.all, hi.names,
      hi.come⟩
  | @user s text more rest mode sheets hr h1 h2 hrest ih =>
    intro n st pre post hn hi
    have hlen := recordBytes_pos (0x5C, leBytes 1 text.length ++ text ++ more)
    rw [List.length_append] at hn
    obtain ⟨n, rfl⟩ : ∃ m, n = m + 1 := ⟨n - 1, by omega⟩
    have e : ∀ after, globalsStep E 45 base st.G (toRec (0x5C, leBytes 1 text.length ++ text ++ more)) after =
      (handleWriteaccess E 45 st.G (leBytes 1 text.length ++ text ++ more)).map fun G => (G, 0) := fun _ => rfl
    obtain ⟨G', hd, hG⟩ : ∃ G', handleWriteaccess E 45 st.G (leBytes 1 text.length ++ text ++ more) = .ok G' ∧
        Old4Inv E c s { st with G := G' } := by
      rcases writeaccess_sound (more := more) hf h8 (bv := 45) (by omega) hi.base.enc h1 h2 with e | e
      · exact ⟨_, e, hi⟩
      · exact ⟨_, e, hi.base.coded (cp := st.G.codepage) (enc := st.G.encoding) hi.base.enc
          fun x hx => ⟨h8, Option.some.inj hx ▸ ⟨text, more, h1, h2, rfl⟩⟩, hi.offset, hi.sheets, hi.all, hi.names, hi.come⟩
    rw [List.append_assoc, loop4_step hr (by simp) (step4_global (by simp [toRec]) ((e _).trans (by rw [hd]; rfl))),
      show pre ++ (recordBytes (0x5C, leBytes 1 text.length ++ text ++ more) ++ (rest ++ post)) =
        (pre ++ recordBytes (0x5C, leBytes 1 text.length ++ text ++ more)) ++ (rest ++ post) by simp]
    exact ih n _ _ post (by omega) hG
  | @offset s data rest mode sheets hd hrest ih =>
    intro n st pre post hn hi
    have hlen := recordBytes_pos (0x8E, data)
    rw [List.length_append] at hn
    obtain ⟨n, rfl⟩ : ∃ m, n = m + 1 := ⟨n - 1, by omega⟩
    have e : ∀ mem pos, step4 E base mem st (toRec (0x8E, data)) pos = .ok ({ st with offset := some (leInt data) }, pos) := by
      intro mem pos
      have : step4 E base mem st (toRec (0x8E, data)) pos =
        if data.length = 4 then .ok ({ st with offset := some (leInt data) }, pos) else .error .structError := rfl
      rw [this, if_pos hd]
    rw [List.append_assoc, loop4_step ⟨by show 0x8E < 65536; omega, by show data.length < 65536; omega⟩ (by simp) (e _ _),
      show pre ++ (recordBytes (0x8E, data) ++ (rest ++ post)) = (pre ++ recordBytes (0x8E, data)) ++ (rest ++ post) by simp]
    exact ih n _ _ post (by omega) ⟨hi.base, fun _ => rfl, hi.sheets, hi.all, hi.names, hi.come⟩
  | @bound s data name rest mode sheets hr ho ht hrest ih =>
    intro n st pre post hn hi
    have hlen := recordBytes_pos (0x85, data)
    rw [List.length_append] at hn
    obtain ⟨n, rfl⟩ : ∃ m, n = m + 1 := ⟨n - 1, by omega⟩
    obtain ⟨cp, ed, hb⟩ := hi.base.derive hf h8 (bv := 45) (by omega)
    have ho' := hi.offset ho
    obtain ⟨pos0, hpos⟩ : ∃ p, (if st.G.sheets = [] then st.offset.map (· + base) else some (-1)) = some p := by
      cases hso : st.offset with
      | none => rw [hso] at ho'; cases ho'
      | some o => split <;> exact ⟨_, rfl⟩
    have e : bound4 E base st data = .ok { st with
        G := { st.G with
               codepage := cp, encoding := some (textName s.page), rawUser := none, allSheets := st.G.allSheets ++ [(name, 0)],
               sheets := st.G.sheets ++ [(name, pos0)] } } := by
      unfold bound4
      rw [ed]
      dsimp only
      rw [show unpackString (E.decode (some (textName s.page))) data 0 1 = .ok name from oldText_sound (pre := []) hf rfl ht]
      dsimp only
      rw [hpos]
    have e2 : ∀ mem pos, step4 E base mem st (toRec (0x85, data)) pos = (bound4 E base st data).map fun st => (st, pos) := fun _ _ => rfl
    rw [List.append_assoc, loop4_step hr (by simp) ((e2 _ _).trans (by rw [e]; rfl)),
      show pre ++ (recordBytes (0x85, data) ++ (rest ++ post)) = (pre ++ recordBytes (0x85, data)) ++ (rest ++ post) by simp]
    refine ih n _ _ post (by omega) ⟨⟨hb.enc, hb.user, hb.mode, hb.countries, hb.sst⟩, hi.offset, ?_, ?_, hi.names, hi.come⟩
    · show (st.G.sheets ++ [(name, pos0)]).map Prod.fst = _
      rw [List.map_append, hi.sheets]
      rfl
    · show st.G.allSheets ++ [(name, 0)] = _
      rw [hi.all, List.map_append]
      rfl
  | @sheet s b name ops sheet gap page mode rest mode' sheets hr hlt ht hname hsheet hrest ih =>
    intro n st pre post hn hi
    generalize hdata : leBytes 4 (sheet ++ gap).length ++ b = data at hr hn ⊢
    have hlen := recordBytes_pos (0x8F, data)
    rw [List.length_append, List.length_append] at hn
    obtain ⟨n, rfl⟩ : ∃ m, n = m + 1 := ⟨n - 1, by omega⟩
    obtain ⟨cp, ed, hb⟩ := hi.base.derive hf h8 (bv := 45) (by omega)
    obtain ⟨version, bof, rs, rfl, hbof, hrs, hold, hfit⟩ := hsheet
    have htake : data.take 4 = leBytes 4 ((recordBytes (oldBof .v4, bof) ++ rs.flatMap recordBytes) ++ gap).length := by
      rw [← hdata, List.take_left' (by rw [leBytes_length])]
    obtain ⟨w, hw⟩ : ∃ p, st.G.sheets[st.done.length]? = some (name, p) := by
      have : (st.G.sheets.map Prod.fst)[st.done.length]? = some name := by rw [hi.sheets, hi.come, hname]
      rw [List.getElem?_map] at this
      cases hx : st.G.sheets[st.done.length]? with
      | none => rw [hx] at this; cases this
      | some q =>
        rw [hx] at this
        exact ⟨q.2, congrArg some (Prod.ext (Option.some.inj this) rfl)⟩
    have hG : BaseInv c s.page s.mode ({ st.G with codepage := cp, encoding := some (textName s.page), rawUser := none } : Globals τ).noFormats :=
      ⟨hb.enc, hb.user, hb.mode, hb.countries, hb.sst⟩
    have hbo := getbof_old (rqd := 0x10) (.inr (.inr rfl)) hbof (.inl rfl) (pre ++ recordBytes (0x8F, data))
      (rs.flatMap recordBytes ++ (gap ++ (rest ++ post)))
    obtain ⟨G', g, hread, hold', hbase', k1, k2, k3⟩ := readOldSheet_sound hf h8 (v := .v4) (bv := 45) (.inr rfl) hG rfl rfl rfl hrs hold hfit
      (pre ++ recordBytes (0x8F, data) ++ recordBytes (0x409, bof)) (gap ++ (rest ++ post))
    have hmem : pre ++ (recordBytes (0x8F, data) ++ (recordBytes (oldBof .v4, bof) ++ rs.flatMap recordBytes ++ gap ++ rest) ++ post) =
        pre ++ recordBytes (0x8F, data) ++ (recordBytes (0x409, bof) ++ (rs.flatMap recordBytes ++ (gap ++ (rest ++ post)))) := by
      simp [oldBof]
    have hmem2 : pre ++ recordBytes (0x8F, data) ++ recordBytes (0x409, bof) ++ (rs.flatMap recordBytes ++ (gap ++ (rest ++ post))) =
        pre ++ recordBytes (0x8F, data) ++ (recordBytes (0x409, bof) ++ (rs.flatMap recordBytes ++ (gap ++ (rest ++ post)))) := by
      simp
    rw [hmem2] at hread
    have e : sheetHeader E (pre ++ recordBytes (0x8F, data) ++ (recordBytes (0x409, bof) ++ (rs.flatMap recordBytes ++ (gap ++ (rest ++ post)))))
        st data ((pre ++ recordBytes (0x8F, data)).length : Nat) =
        .ok (⟨G', 0, st.offset, st.done ++ [⟨name, g⟩]⟩,
          ((pre ++ recordBytes (0x8F, data) ++ (recordBytes (oldBof .v4, bof) ++ rs.flatMap recordBytes ++ gap)).length : Nat)) := by
      unfold sheetHeader
      rw [ed]
      dsimp only
      rw [htake, if_pos (by rw [leBytes_length]), leInt_nat hlt,
        show unpackString (E.decode (some (textName s.page))) data 4 1 = .ok name from
          hdata ▸ oldText_sound hf (by rw [leBytes_length]) ht]
      dsimp only
      rw [hw]
      dsimp only
      rw [if_neg (by simp), hbo]
      dsimp only
      rw [hread]
      dsimp only
      congr 2
      rw [List.length_append (as := pre ++ recordBytes (0x8F, data))]
      omega
    have e2 : ∀ mem pos, step4 E base mem st (toRec (0x8F, data)) pos = sheetHeader E mem st data pos := fun _ _ => rfl
    have hloop := loop4_step (E := E) (base := base) (n := n) (pre := pre)
      (post := recordBytes (0x409, bof) ++ (rs.flatMap recordBytes ++ (gap ++ (rest ++ post)))) hr (by simp)
      ((e2 _ _).trans (by rw [← List.append_assoc]; exact e))
    rw [← List.append_assoc] at hloop
    rw [hmem, hloop]
    obtain ⟨st', gs, r1, r2, r3, r4⟩ := ih n ⟨G', 0, st.offset, st.done ++ [⟨name, g⟩]⟩
      (pre ++ recordBytes (0x8F, data) ++ (recordBytes (oldBof .v4, bof) ++ rs.flatMap recordBytes ++ gap)) post
      (by rw [List.length_append] at hn; omega)
      ⟨hbase', hi.offset, k1 ▸ hi.sheets, k2 ▸ hi.all, k3 ▸ hi.names, by rw [List.length_append, hi.come]; rfl⟩
    refine ⟨st', ⟨name, g⟩ :: gs, ?_, r2, by rw [r3]; simp, .cons ⟨rfl, hold'⟩ r4⟩
    rw [← r1]
    congr 1
    simp [oldBof]
  | @format s a b code rest mode sheets hr ha ht hrest ih =>
    intro n st pre post hn hi
    have hlen := recordBytes_pos (0x41E, a ++ b)
    rw [List.length_append] at hn
    obtain ⟨n, rfl⟩ : ∃ m, n = m + 1 := ⟨n - 1, by omega⟩
    obtain ⟨cp, u, ed, h1, h2⟩ := ensure_sound hf h8 (bv := 45) (by omega) hi.base.enc hi.base.user
    have hb := hi.base.coded h1 h2
    have e : oldFormat E 45 0x41E st.G st.fmtCount (a ++ b) = .ok { st.G with
        codepage := cp, encoding := some (textName s.page), rawUser := u, formats := dset st.G.formats st.fmtCount (isDateFormat code) } := by
      unfold oldFormat
      rw [ed]
      dsimp only
      rw [if_neg (by omega : ¬ (1054 : Nat) = 0x1E), if_neg (by omega), oldText_sound hf ha.symm ht]
    have e2 : ∀ mem pos, step4 E base mem st (toRec (0x41E, a ++ b)) pos = (oldFormat E 45 0x41E st.G st.fmtCount (a ++ b)).map
      fun G => ({ st with G := G, fmtCount := st.fmtCount + 1 }, pos) := fun _ _ => rfl
    rw [List.append_assoc, loop4_step hr (by simp) ((e2 _ _).trans (by rw [e]; rfl)),
      show pre ++ (recordBytes (0x41E, a ++ b) ++ (rest ++ post)) = (pre ++ recordBytes (0x41E, a ++ b)) ++ (rest ++ post) by simp]
    exact ih n _ _ post (by omega) ⟨⟨hb.enc, hb.user, hb.mode, hb.countries, hb.sst⟩, hi.offset, hi.sheets, hi.all, hi.names, hi.come⟩
  | @country s more rest mode sheets hr hc1 hc2 hrest ih =>
    intro n st pre post hn hi
    have hlen := recordBytes_pos (0x8C, leBytes 2 c.country.1 ++ leBytes 2 c.country.2 ++ more)
    rw [List.length_append] at hn
    obtain ⟨n, rfl⟩ : ∃ m, n = m + 1 := ⟨n - 1, by omega⟩
    have hd := handleCountry_sound hc1 hc2 more hi.base.countries
    have e : ∀ after, globalsStep E 45 base st.G (toRec (0x8C, leBytes 2 c.country.1 ++ leBytes 2 c.country.2 ++ more)) after =
      ((handleCountry st.G.countries (leBytes 2 c.country.1 ++ leBytes 2 c.country.2 ++ more)).map
        fun c => { st.G with countries := c }).map fun G => (G, 0) := fun _ => rfl
    rw [List.append_assoc, loop4_step hr (by simp) (step4_global (by simp [toRec]) ((e _).trans (by rw [hd]; rfl))),
      show pre ++ (recordBytes (0x8C, leBytes 2 c.country.1 ++ leBytes 2 c.country.2 ++ more) ++ (rest ++ post)) =
        (pre ++ recordBytes (0x8C, leBytes 2 c.country.1 ++ leBytes 2 c.country.2 ++ more)) ++ (rest ++ post) by simp]
    exact ih n _ _ post (by omega) ⟨⟨hi.base.enc, hi.base.user, hi.base.mode, .inr rfl, hi.base.sst⟩, hi.offset, hi.sheets, hi.all, hi.names,
      hi.come⟩
  | @other s r rest mode sheets hr hc hrest ih =>
    intro n st pre post hn hi
    have hlen := recordBytes_pos r
    rw [List.length_append] at hn
    obtain ⟨n, rfl⟩ : ∃ m, n = m + 1 := ⟨n - 1, by omega⟩
    have e : ∀ mem pos, step4 E base mem st (toRec r) pos = .ok (st, pos) := by
      intro mem pos
      rcases hc with hc | hc
      · obtain ⟨rc, data⟩ := r
        have hc : rc = 0x18 := hc
        subst hc
        rfl
      · refine step4_global ?_ (step_other hc _)
        intro hx
        apply hc
        have hx : r.1 ∈ [0x41E, 0xE0, 0x85, 0x8E, 0x8F, 0x18] := hx
        simp only [List.mem_cons, List.not_mem_nil, or_false] at hx
        simp only [globalCodes, List.mem_cons, List.not_mem_nil, or_false]
        omega
    have hne : r.1 ≠ 0xA := by
      rcases hc with hc | hc
      · omega
      · rintro hx
        rw [hx] at hc
        simp [globalCodes] at hc
    rw [List.append_assoc, loop4_step hr hne (e _ _),
      show pre ++ (recordBytes r ++ (rest ++ post)) = (pre ++ recordBytes r) ++ (rest ++ post) by simp]
    exact ih n _ _ post (by omega) hi

end

end CP
