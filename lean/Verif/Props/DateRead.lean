import Verif.Spec.DateRead
import Verif.Props.ReadXl
/-!
# C98: which numbers are dates, and what becomes of a sheet with others
-/

namespace CP
open Spec

theorem wholePart_trunc (x : Rat) : WholePart x (truncRat x) := by
  unfold truncRat
  constructor
  · intro h
    rw [if_pos h]
    have := floor_frac x; grind
  · intro h
    rw [if_neg (by grind)]
    have := floor_frac (-x)
    rw [Rat.intCast_neg]; grind

theorem wholePart_unique {x : Rat} {d e : Int} (h : WholePart x d) (h' : WholePart x e) : d = e := by
  have key : (d : Rat) < e + 1 ∧ (e : Rat) < d + 1 := by
    by_cases hx : 0 ≤ x
    · have := h.1 hx; have := h'.1 hx; grind
    · have := h.2 (by grind); have := h'.2 (by grind); grind
  obtain ⟨k1, k2⟩ := key
  have e1 : (d : Rat) < ((e + 1 : Int) : Rat) := by rw [Rat.intCast_add]; exact k1
  have e2 : (e : Rat) < ((d + 1 : Int) : Rat) := by rw [Rat.intCast_add]; exact k2
  have := Rat.intCast_lt_intCast.1 e1
  have := Rat.intCast_lt_intCast.1 e2
  omega

/-- C98: every number stands for just one instant. -/
theorem instantOf_exists_unique (mul : Rat → Rat) (dm : Int) (x : Rat) :
    ∃ T, InstantOf mul dm x T ∧ ∀ T', InstantOf mul dm x T' → T' = T := by
  refine ⟨_, ⟨_, _, wholePart_trunc x, roundHalfEven_nearest _, rfl⟩, ?_⟩
  rintro T' ⟨d, n, hd, hn, rfl⟩
  have := wholePart_unique hd (wholePart_trunc x)
  subst this
  rw [nearestEven_unique hn (roundHalfEven_nearest _)]

/-- C98: `xldate_as_datetime` of a number is its instant if that is in the years 1 to 9999, else an
OverflowError. -/
theorem C98_number (M : XlMul) (x : Rat) (dm : Int) (T : Int) (hT : InstantOf M.ms dm x T) :
    (InYears T → xldateAsDatetime M x dm = .ok (T / 86400000, T % 86400000)) ∧
    (¬ InYears T → xldateAsDatetime M x dm = .error .overflowError) := by
  obtain ⟨T0, ⟨d, n, hd, hn, rfl⟩, hu⟩ := instantOf_exists_unique M.ms dm x
  have := hu T hT
  subst this
  have := wholePart_unique hd (wholePart_trunc x)
  subst this
  have := nearestEven_unique hn (roundHalfEven_nearest _)
  subst this
  unfold xldateAsDatetime InYears dayShift
  dsimp only
  generalize (if dm ≠ 0 then (1462 : Int) else if x < 60 then 1 else 0) = e
  generalize roundHalfEven (M.ms (x - truncRat x)) = n
  constructor
  · intro h
    rw [if_neg (by omega)]
    congr 2 <;> omega
  · intro h
    rw [if_pos (by omega)]

/-- C98: one cell of type date. -/
theorem C98_cell (M : XlMul) (dm : Int) (v : Val) :
    (∀ x T, CellNumber v x → InstantOf M.ms dm x T → InYears T →
      mixedCell M dm v 3 = .ok (.datetime (T / 86400000) (T % 86400000))) ∧
    (∀ e, NoDate M.ms dm v e → mixedCell M dm v 3 = .error e) := by
  have key : ∀ x, CellNumber v x → mixedCell M dm v 3 = match xldateAsDatetime M x dm with
      | .error e => .error e
      | .ok (d, ms) => .ok (.datetime d ms) := by
    intro x hx
    rcases hx with rfl | ⟨i, rfl, rfl⟩ <;> rfl
  constructor
  · intro x T hx hT hy
    rw [key x hx, (C98_number M x dm T hT).1 hy]
  · intro e h
    cases h with
    | nan => rfl
    | inf neg => rfl
    | years _ x T hx hT hy => rw [key x hx, (C98_number M x dm T hT).2 hy]

theorem standsForDate_iff {M : XlMul} {dm : Int} {v : Val} :
    StandsForDate M.ms dm v ↔ ∃ x d ms, (v = .flt x ∨ ∃ i : Int, v = .int i ∧ x = i) ∧
      xldateAsDatetime M x dm = .ok (d, ms) := by
  constructor
  · rintro ⟨x, T, hx, hT, hy⟩
    exact ⟨x, _, _, hx, (C98_number M x dm T hT).1 hy⟩
  · rintro ⟨x, d, ms, hx, h⟩
    obtain ⟨T, hT, -⟩ := instantOf_exists_unique M.ms dm x
    refine ⟨x, T, hx, hT, ?_⟩
    apply Classical.byContradiction
    intro hy
    rw [(C98_number M x dm T hT).2 hy] at h
    simp at h

/-- A cell of type date holds a float, finite or not (or an int). -/
def FloatValue (v : Val) : Prop := (∃ x, CellNumber v x) ∨ v = .nan ∨ ∃ neg, v = .inf neg

theorem noDate_of_not {M : XlMul} {dm : Int} {v : Val} (hv : FloatValue v)
    (h : ¬ StandsForDate M.ms dm v) : ∃ e, NoDate M.ms dm v e := by
  rcases hv with ⟨x, hx⟩ | rfl | ⟨neg, rfl⟩
  · obtain ⟨T, hT, -⟩ := instantOf_exists_unique M.ms dm x
    exact ⟨_, .years v x T hx hT fun hy => h ⟨x, T, hx, hT, hy⟩⟩
  · exact ⟨_, .nan⟩
  · exact ⟨_, .inf neg⟩

theorem mapE_error {α β : Type} {f : α → Except Exc β} {l : List α} {e : Exc} (h : mapE f l = .error e) :
    ∃ (i : Nat) (a : α), l[i]? = some a ∧ f a = .error e ∧
      ∀ j : Nat, j < i → ∀ a', l[j]? = some a' → ∃ y, f a' = .ok y := by
  induction l with
  | nil => simp [mapE] at h
  | cons x xs ih =>
    unfold mapE at h
    cases hx : f x with
    | error e' =>
      rw [hx] at h
      simp only [Except.error.injEq] at h
      subst h
      exact ⟨0, x, rfl, hx, fun j hj => absurd hj (by omega)⟩
    | ok y =>
      rw [hx] at h
      cases hxs : mapE f xs with
      | ok ys => rw [hxs] at h; simp at h
      | error e' =>
        rw [hxs] at h
        simp only [Except.error.injEq] at h
        subst h
        obtain ⟨i, a, h1, h2, h3⟩ := ih hxs
        refine ⟨i + 1, a, h1, h2, ?_⟩
        intro j hj a' ha'
        cases j with
        | zero =>
          simp only [List.getElem?_cons_zero, Option.some.injEq] at ha'
          subst ha'; exact ⟨y, hx⟩
        | succ j => exact h3 j (by omega) a' ha'

/-- A column raises only for a date, and then what `mixedCell` raises for it; the dates above it stand
for dates. -/
theorem columnOf_error {M : XlMul} {dm : Int} {vs : List Val} {ts : List Nat} {e : Exc}
    (h : columnOf M dm vs ts = .error e) :
    ∃ (i : Nat) (v : Val), vs[i]? = some v ∧ ts[i]? = some 3 ∧ mixedCell M dm v 3 = .error e ∧
      ∀ j : Nat, j < i → ∀ v', vs[j]? = some v' → ts[j]? = some 3 → ∃ y, mixedCell M dm v' 3 = .ok y := by
  unfold columnOf at h
  split at h
  · simp at h
  · split at h
    · simp at h
    · obtain ⟨i, ⟨v, t⟩, h1, h2, h3⟩ := mapE_error h
      rw [List.getElem?_zip_eq_some] at h1
      have ht : t = 3 := by
        apply Decidable.byContradiction
        intro hne
        dsimp only at h2
        unfold mixedCell at h2
        rw [if_neg (show ¬ t = xlDate from hne)] at h2
        split at h2
        · simp at h2
        · split at h2 <;> simp at h2
      subst ht
      refine ⟨i, v, h1.1, h1.2, h2, ?_⟩
      intro j hj v' hv' ht'
      exact h3 j hj (v', 3) (by rw [List.getElem?_zip_eq_some]; exact ⟨hv', ht'⟩)

theorem standsForDate_of_ok {M : XlMul} {dm : Int} {v y : Val} (h : mixedCell M dm v 3 = .ok y) :
    StandsForDate M.ms dm v := by
  rw [standsForDate_iff]
  have key : ∀ x, CellNumber v x → mixedCell M dm v 3 = (match xldateAsDatetime M x dm with
      | .error e => .error e
      | .ok (d, ms) => .ok (.datetime d ms)) → ∃ x d ms, (v = .flt x ∨ ∃ i : Int, v = .int i ∧ x = i) ∧
      xldateAsDatetime M x dm = .ok (d, ms) := by
    intro x hx hm
    rw [hm] at h
    split at h
    · simp at h
    · rename_i d ms hd
      exact ⟨x, d, ms, hx, hd⟩
  cases v with
  | int i => exact key i (Or.inr ⟨i, rfl, rfl⟩) rfl
  | flt x => exact key x (Or.inl rfl) rfl
  | nan => simp [mixedCell, xlDate] at h
  | inf neg => simp [mixedCell, xlDate] at h
  | str s => simp [mixedCell, xlDate] at h
  | bytes b => simp [mixedCell, xlDate] at h
  | bool b => simp [mixedCell, xlDate] at h
  | none => simp [mixedCell, xlDate] at h
  | date y m d => simp [mixedCell, xlDate] at h
  | datetime d ms => simp [mixedCell, xlDate] at h
  | other n => simp [mixedCell, xlDate] at h

/-- The row of the first value of the columns. -/
def firstRow (header : Header) (r0 : Int) : Int := if header = .yes then r0 + 1 else r0

/-- The arguments of `sheetpack` as in `C31_sheetpack_accepts`, but for the dates. -/
structure GoodArgs (up : Upper) (ws : Sheet) (header : Header) (startcell stopcell : Option (List Char))
    (usecols : Option Usecols) (r0 c0 r1 c1 : Int) : Prop where
  wf : ws.WF
  start : cellreference up 0 0 startcell = .ok (r0, c0)
  stop : StopCell up ws stopcell r1 c1
  use : ∀ u, usecols = some u → ∃ l, normalizeUsecols up u = .ok l
  req : ∀ us, Requested up usecols c0 c1 us → us ≠ [] ∧ ∀ c ∈ us, c0 ≤ c ∧ c ≤ c1 ∧ c < ws.ncols
  row : header ≠ .otherTrue ∧ (header = .yes → r0 < ws.nrows) ∧ ∀ s, header = .addr s →
      ∃ hr hc, cellreference up 0 0 (some s) = .ok (hr, hc) ∧ hr < ws.nrows

/-- `sheetpack` with good arguments is decided by the columns. -/
theorem sheetpack_shape {up : Upper} {M : XlMul} {ws : Sheet} {header : Header}
    {startcell stopcell : Option (List Char)} {usecols : Option Usecols} {r0 c0 r1 c1 : Int}
    (h : GoodArgs up ws header startcell stopcell usecols r0 c0 r1 c1) :
    0 ≤ r0 ∧ 0 ≤ c0 ∧ -1 ≤ r1 ∧ ∃ us, Requested up usecols c0 c1 us ∧
      (∀ e, sheetColumns M ws (firstRow header r0) r1 us = .error e →
        sheetpack up M ws header startcell stopcell usecols = .error e) ∧
      (∀ cols, sheetColumns M ws (firstRow header r0) r1 us = .ok cols →
        ∃ data names, sheetpack up M ws header startcell stopcell usecols = .ok (data, names)) := by
  obtain ⟨hws, hstart, hstop, hu, hreq, hrow⟩ := h
  have h00 := cellreference_nonneg hstart
  have hr1 : -1 ≤ r1 := by
    rcases hstop with ⟨_, h1, _⟩ | ⟨_, _, h1⟩
    · omega
    · have := cellreference_nonneg h1; omega
  have hstop0 : ∃ p, cellreference up 0 0 stopcell = .ok p ∧
      (if stopcell = none ∨ stopcell = some [] then
        ((ws.nrows : Int) - 1, (ws.ncols : Int) - 1) else p) = (r1, c1) := by
    rcases hstop with ⟨hn, h1, h2⟩ | ⟨h1, h2, h3⟩
    · refine ⟨(0, 0), ?_, by rw [if_pos hn, h1, h2]⟩
      rcases hn with rfl | rfl <;> rfl
    · exact ⟨(r1, c1), h3, by rw [if_neg (by simp [h1, h2])]⟩
  obtain ⟨p, hp, hpr⟩ := hstop0
  obtain ⟨us, hus⟩ := requested_normalize (c0 := c0) (c1 := c1) hu
  have hq := requested_of hus
  obtain ⟨hne, hb⟩ := hreq us hq
  refine ⟨h00.1, h00.2, hr1, us, hq, ?_⟩
  unfold sheetpack
  rw [hstart, hp]
  dsimp only
  rw [hpr]
  dsimp only
  rw [hus]
  cases us with
  | nil => exact absurd rfl hne
  | cons c cs =>
  dsimp only
  rw [if_neg (by
    have h1 := hb c (by simp)
    have h2 := hb _ (List.getLast_mem (l := c :: cs) (by simp))
    omega)]
  generalize hul : c :: cs = l at *
  have hnames : ∀ r : Int, 0 ≤ r → r < ws.nrows →
      ∃ ns, mapE (fun col => cellAt ws.values r col) l = .ok ns := by
    intro r h0 hr
    apply mapE_total
    intro c hc
    have hcb := hb c hc
    obtain ⟨w1, w2, w3, w4⟩ := hws
    obtain ⟨row, v, h3, h4⟩ := wf_cell w1 w3 (r := r.toNat) (c := c.toNat) (by omega) (by omega)
    exact ⟨v, (cellAt_nonneg h0 (by omega)).2 ⟨row, h3, h4⟩⟩
  cases header with
  | otherTrue => exact absurd rfl hrow.1
  | no =>
    have e : firstRow .no r0 = r0 := rfl
    rw [e]; dsimp only
    constructor
    · intro e he; rw [he]
    · intro cols he; rw [he]; exact ⟨_, _, rfl⟩
  | yes =>
    have e : firstRow .yes r0 = r0 + 1 := rfl
    obtain ⟨ns, hn⟩ := hnames r0 h00.1 (hrow.2.1 rfl)
    rw [e]; dsimp only; rw [hn]; dsimp only
    constructor
    · intro e he; rw [he]
    · intro cols he; rw [he]; exact ⟨_, _, rfl⟩
  | addr s =>
    have e : firstRow (.addr s) r0 = r0 := rfl
    obtain ⟨hr, hc, h1, h2⟩ := hrow.2.2 s rfl
    obtain ⟨ns, hn⟩ := hnames hr (cellreference_nonneg h1).1 h2
    rw [e]; dsimp only; rw [h1]; dsimp only; rw [hn]; dsimp only
    constructor
    · intro e he; rw [he]
    · intro cols he; rw [he]; cases s <;> exact ⟨_, _, rfl⟩

/-- A cell of type date `sheetpack` reads: in a column asked for, from the first row of the values to
the stop row. -/
def DateReadAt (up : Upper) (ws : Sheet) (header : Header) (usecols : Option Usecols) (r0 c0 r1 c1 : Int)
    (r c : Int) (v : Val) : Prop :=
  (∃ us, Requested up usecols c0 c1 us ∧ c ∈ us) ∧ firstRow header r0 ≤ r ∧ r ≤ r1 ∧ ws.HasCell r c v 3

theorem requested_mem {up : Upper} {usecols : Option Usecols} {c0 c1 : Int} {us us' : List Int}
    (h : Requested up usecols c0 c1 us) (h' : Requested up usecols c0 c1 us') (c : Int) :
    c ∈ us ↔ c ∈ us' := by
  unfold Requested at h h'
  split at h
  · exact (h c).trans (h' c).symm
  · exact (h c).trans (h' c).symm
  · exact (h c).trans (h' c).symm
  · rename_i u
    split at h'
    · rename_i e; cases e
    · simp_all
    · simp_all
    · rename_i e; cases e
      rw [h] at h'
      cases h'
      exact Iff.rfl

/-- C98: `sheetpack`, given good arguments, makes a pack just when every cell of type date that it reads
stands for an instant in the years 1 to 9999.  Other cells of the sheet do not matter. -/
theorem C98_sheetpack_iff (up : Upper) (M : XlMul) (ws : Sheet) (header : Header)
    (startcell stopcell : Option (List Char)) (usecols : Option Usecols) (r0 c0 r1 c1 : Int)
    (h : GoodArgs up ws header startcell stopcell usecols r0 c0 r1 c1) :
    (∃ data names, sheetpack up M ws header startcell stopcell usecols = .ok (data, names)) ↔
      ∀ r c v, DateReadAt up ws header usecols r0 c0 r1 c1 r c v → StandsForDate M.ms ws.datemode v := by
  obtain ⟨p0, q0, p1, us, hus, herr, hok⟩ := sheetpack_shape (M := M) h
  obtain ⟨hne, hb⟩ := h.req us hus
  have hf : 0 ≤ firstRow header r0 := by unfold firstRow; split <;> omega
  obtain ⟨w1, w2, w3, w4⟩ := h.wf
  have hcol : ∀ c ∈ us, ∃ vs ts, colSlice ws.nrows ws.values c (firstRow header r0) (r1 + 1) = .ok vs ∧
      colSlice ws.nrows ws.types c (firstRow header r0) (r1 + 1) = .ok ts := by
    intro c hc
    have hcb := hb c hc
    obtain ⟨vs, hvs⟩ := colSlice_total w1 w3 (c := c) (a := firstRow header r0) (b := r1 + 1) (by omega)
      (by omega) hf (by omega)
    obtain ⟨ts, hts⟩ := colSlice_total w2 w4 (c := c) (a := firstRow header r0) (b := r1 + 1) (by omega)
      (by omega) hf (by omega)
    exact ⟨vs, ts, hvs, hts⟩
  constructor
  · rintro ⟨data, names, hsp⟩ r c v ⟨⟨us', hus', hc'⟩, hr0, hr1, hcell⟩
    have hc := (requested_mem hus hus' c).2 hc'
    obtain ⟨vs, ts, hvs, hts⟩ := hcol c hc
    cases hcs : sheetColumns M ws (firstRow header r0) r1 us with
    | error e => rw [herr e hcs] at hsp; simp at hsp
    | ok cols =>
      unfold sheetColumns at hcs
      rw [mapE_ok_iff] at hcs
      obtain ⟨k, hk⟩ := List.mem_iff_getElem?.1 hc
      obtain ⟨out, -, hout⟩ := hcs.2 k c hk
      rw [hvs, hts] at hout
      dsimp only at hout
      have hcb := hb c hc
      rw [colSlice_spec (by omega) hf (by omega)] at hvs hts
      obtain ⟨hr, hcc, ⟨row, g1, g2⟩, row', g3, g4⟩ := hcell
      have hrn : r.toNat < ws.nrows := by rw [← w1]; exact (List.getElem?_eq_some_iff.1 g1).1
      have hlen : (r - firstRow header r0).toNat < vs.length := by
        rw [hvs.1]; split <;> omega
      have hlen' : (r - firstRow header r0).toNat < ts.length := by rw [hts.1, ← hvs.1]; exact hlen
      have er : (firstRow header r0 + ((r - firstRow header r0).toNat : Nat)).toNat = r.toNat := by omega
      obtain ⟨ra, x, a1, a2, a3⟩ := hvs.2 _ hlen
      obtain ⟨rb, y, b1, b2, b3⟩ := hts.2 _ hlen'
      rw [er, g1] at a1
      rw [er, g3] at b1
      cases a1; cases b1
      rw [g2] at a2; rw [g4] at b2
      cases a2; cases b2
      unfold columnOf at hout
      have hmem : (3 : Nat) ∈ ts := List.mem_of_getElem? b3
      rw [if_neg (by
        intro hall; rw [List.all_eq_true] at hall
        have := hall 3 hmem; simp [xlNumber, xlEmpty, xlError, xlBlank] at this)] at hout
      rw [if_neg (by
        intro hall; rw [List.all_eq_true] at hall
        have := hall 3 hmem; simp [xlText, xlEmpty, xlError, xlBlank] at this)] at hout
      rw [mapE_ok_iff] at hout
      obtain ⟨w, -, hw⟩ := hout.2 _ (v, 3) (by rw [List.getElem?_zip_eq_some]; exact ⟨a3, b3⟩)
      exact standsForDate_of_ok hw
  · intro hd
    have : ∃ cols, sheetColumns M ws (firstRow header r0) r1 us = .ok cols := by
      apply mapE_total
      intro c hc
      obtain ⟨vs, ts, hvs, hts⟩ := hcol c hc
      rw [hvs, hts]
      dsimp only
      have hcb := hb c hc
      rw [colSlice_spec (by omega) hf (by omega)] at hvs hts
      refine (C30_columns_typed M ws.datemode vs ts (by rw [hvs.1, hts.1])).2 ?_
      intro i v hv ht
      have hi : i < ts.length := (List.getElem?_eq_some_iff.1 ht).1
      obtain ⟨row, x, e1, e2, e3⟩ := hvs.2 i (List.getElem?_eq_some_iff.1 hv).1
      obtain ⟨row', y, f1, f2, f3⟩ := hts.2 i hi
      rw [hv] at e3; rw [ht] at f3
      simp only [Option.some.injEq] at e3 f3
      subst e3; subst f3
      refine standsForDate_iff.1 (hd (firstRow header r0 + i) c v ⟨⟨us, hus, hc⟩, by omega, ?_, by omega, by omega,
        ⟨row, e1, e2⟩, row', f1, f2⟩)
      have := hts.1
      split at this <;> omega
    obtain ⟨cols, hcs⟩ := this
    exact hok cols hcs

/-- C98: what `sheetpack`, given good arguments, raises is what a cell of type date that it reads is no
date for: ValueError for NaN, OverflowError for an infinity or an instant outside the years 1 to 9999.
No date is above that cell in its column that cannot be read. -/
theorem C98_sheetpack_raises (up : Upper) (M : XlMul) (ws : Sheet) (header : Header)
    (startcell stopcell : Option (List Char)) (usecols : Option Usecols) (r0 c0 r1 c1 : Int)
    (h : GoodArgs up ws header startcell stopcell usecols r0 c0 r1 c1)
    (hv : ∀ r c v, DateReadAt up ws header usecols r0 c0 r1 c1 r c v → FloatValue v) (e : Exc)
    (he : sheetpack up M ws header startcell stopcell usecols = .error e) :
    ∃ r c v, DateReadAt up ws header usecols r0 c0 r1 c1 r c v ∧ NoDate M.ms ws.datemode v e ∧
      ∀ r' v', r' < r → DateReadAt up ws header usecols r0 c0 r1 c1 r' c v' →
        StandsForDate M.ms ws.datemode v' := by
  obtain ⟨p0, q0, p1, us, hus, herr, hok⟩ := sheetpack_shape (M := M) h
  obtain ⟨hne, hb⟩ := h.req us hus
  have hf : 0 ≤ firstRow header r0 := by unfold firstRow; split <;> omega
  obtain ⟨w1, w2, w3, w4⟩ := h.wf
  cases hcs : sheetColumns M ws (firstRow header r0) r1 us with
  | ok cols =>
    obtain ⟨data, names, h1⟩ := hok cols hcs
    rw [h1] at he; simp at he
  | error e' =>
    have h1 := herr e' hcs
    rw [h1] at he
    simp only [Except.error.injEq] at he
    subst he
    unfold sheetColumns at hcs
    obtain ⟨k, c, hk, hcol, -⟩ := mapE_error hcs
    have hc := List.mem_of_getElem? hk
    have hcb := hb c hc
    obtain ⟨vs, hvs⟩ := colSlice_total w1 w3 (c := c) (a := firstRow header r0) (b := r1 + 1) (by omega)
      (by omega) hf (by omega)
    obtain ⟨ts, hts⟩ := colSlice_total w2 w4 (c := c) (a := firstRow header r0) (b := r1 + 1) (by omega)
      (by omega) hf (by omega)
    rw [hvs, hts] at hcol
    dsimp only at hcol
    obtain ⟨i, v, g1, g2, g3, g4⟩ := columnOf_error hcol
    rw [colSlice_spec (by omega) hf (by omega)] at hvs hts
    obtain ⟨row, x, e1, e2, e3⟩ := hvs.2 i (List.getElem?_eq_some_iff.1 g1).1
    obtain ⟨row', y, f1, f2, f3⟩ := hts.2 i (List.getElem?_eq_some_iff.1 g2).1
    rw [g1] at e3; rw [g2] at f3
    cases e3; cases f3
    have hi : i < ts.length := (List.getElem?_eq_some_iff.1 g2).1
    have hle : firstRow header r0 + i ≤ r1 := by
      have := hts.1
      split at this <;> omega
    have hread : DateReadAt up ws header usecols r0 c0 r1 c1 (firstRow header r0 + i) c v :=
      ⟨⟨us, hus, hc⟩, by omega, hle, by omega, by omega, ⟨row, e1, e2⟩, row', f1, f2⟩
    refine ⟨_, c, v, hread, ?_, ?_⟩
    · obtain ⟨e2, he2⟩ := noDate_of_not (M := M) (dm := ws.datemode) (hv _ _ _ hread) (by
        intro hs
        obtain ⟨x, T, hx, hT, hy⟩ := hs
        rw [(C98_cell M ws.datemode v).1 x T hx hT hy] at g3
        simp at g3)
      rw [(C98_cell M ws.datemode v).2 e2 he2] at g3
      simp only [Except.error.injEq] at g3
      subst g3
      exact he2
    · rintro r' v' hr' ⟨-, hr0, -, hcell⟩
      obtain ⟨hr, hcc, ⟨rw1, k1, k2⟩, rw2, k3, k4⟩ := hcell
      have er : (firstRow header r0 + ((r' - firstRow header r0).toNat : Nat)).toNat = r'.toNat := by omega
      have hlen' : (r' - firstRow header r0).toNat < ts.length := by omega
      have hlen : (r' - firstRow header r0).toNat < vs.length := by rw [hvs.1, ← hts.1]; exact hlen'
      obtain ⟨ra, x, a1, a2, a3⟩ := hvs.2 _ hlen
      obtain ⟨rb, y, b1, b2, b3⟩ := hts.2 _ hlen'
      rw [er, k1] at a1
      rw [er, k3] at b1
      cases a1; cases b1
      rw [k2] at a2; rw [k4] at b2
      cases a2; cases b2
      obtain ⟨y, hy⟩ := g4 _ (by omega) v' a3 b3
      exact standsForDate_of_ok hy

/-- C98: the numbers that are dates, with the multiplication of the code.  `s` is the day 0 of the
system: the number is a date from 0001-01-01 on and until the last millisecond of 9999, and none from a
millisecond before that and from 10000-01-01 on. -/
theorem C98_years (dm : Int) (x : Rat) :
    (-693593 ≤ x + dayShift dm x → x + dayShift dm x ≤ 2958466 - 1 / 86400000 →
      ∃ d ms, xldateAsDatetime ieeeMul x dm = .ok (d, ms)) ∧
    (x + dayShift dm x ≤ -693593 - 1 / 86400000 ∨ 2958466 ≤ x + dayShift dm x →
      xldateAsDatetime ieeeMul x dm = .error .overflowError) := by
  obtain ⟨T, hT, -⟩ := instantOf_exists_unique ieeeMul.ms dm x
  have hnum := C98_number ieeeMul x dm T hT
  obtain ⟨d, n, hd, hn, hTe⟩ := hT
  have hfr : -1 < x - d ∧ x - d < 1 := by
    by_cases hx : 0 ≤ x
    · have := hd.1 hx; grind
    · have := hd.2 (by grind); grind
  have em : ieeeMul.ms (x - d) = f64 ((x - d) * 86400000) := rfl
  have s1 := f64_close (q := (x - d) * 86400000) (B := 2 ^ 27) (c := 1 / 2 ^ 27) (-26) (by decide +kernel)
    (by decide +kernel) (by decide) (by grind) (by grind)
  obtain ⟨a1, a2, -⟩ := hn
  rw [em] at a1 a2
  have hTr : (T : Rat) = (dayShift dm x + d) * 86400000 + n := by
    rw [hTe, Rat.intCast_add, Rat.intCast_mul, Rat.intCast_add]; rfl
  generalize (dayShift dm x : Rat) = s at *
  have hT1 : ((T : Rat) - (x + s) * 86400000) ≤ 1 / 2 + 1 / 2 ^ 27 ∧
      (x + s) * 86400000 - (T : Rat) ≤ 1 / 2 + 1 / 2 ^ 27 := by grind
  have low : ∀ k : Int, (k : Rat) - 1 < T → k ≤ T := by
    intro k hk
    have : ((k - 1 : Int) : Rat) < T := by rw [Rat.intCast_sub]; exact hk
    have := Rat.intCast_lt_intCast.1 this
    omega
  have high : ∀ k : Int, (T : Rat) < k → T < k := by
    intro k hk
    exact Rat.intCast_lt_intCast.1 hk
  have c1 : (((-693593) * 86400000 : Int) : Rat) = -693593 * 86400000 := by decide +kernel
  have c2 : ((2958466 * 86400000 : Int) : Rat) = 2958466 * 86400000 := by decide +kernel
  constructor
  · intro h1 h2
    refine ⟨_, _, hnum.1 ⟨low _ ?_, high _ ?_⟩⟩
    · rw [c1]; grind
    · rw [c2]; grind
  · intro h
    apply hnum.2
    rintro ⟨h1, h2⟩
    rcases h with h | h
    · have : T < -693593 * 86400000 := high _ (by rw [c1]; grind)
      omega
    · have : 2958466 * 86400000 ≤ T := low _ (by rw [c2]; grind)
      omega

/-- C98: the bounds of `InYears` are the days they are said to be. -/
theorem C98_bounds :
    (⟨1899, 12, 30⟩ : Date) = (⟨1, 1, 1⟩ : Date).addDays 693593 ∧
    (⟨10000, 1, 1⟩ : Date) = (⟨1899, 12, 30⟩ : Date).addDays 2958466 := by
  constructor
  · exact addDays_of_jdn (s := ⟨1899, 12, 30⟩) (t := ⟨1, 1, 1⟩) (by decide) (by decide) (by decide)
  · exact addDays_of_jdn (s := ⟨10000, 1, 1⟩) (t := ⟨1899, 12, 30⟩) (by decide) (by decide) (by decide)

/-- A sheet with a date of the year 10000 in the last row. -/
def exFarSheet (v : Val) : Sheet :=
  { nrows := 3, ncols := 2, datemode := 0, types := [[1, 1], [3, 2], [3, 2]],
    values := [[.str ['a'], .str ['b']], [.flt 43831, .flt 1], [v, .flt 2]] }

/-- C98: one cell that is no date fails the whole sheet, and does not when the cell is not read. -/
example : sheetpack exUp exactMul (exFarSheet (.flt 2958466)) .yes none none none = .error .overflowError ∧
    sheetpack exUp exactMul (exFarSheet (.inf true)) .yes none none none = .error .overflowError ∧
    sheetpack exUp exactMul (exFarSheet .nan) .yes none none none = .error .valueError ∧
    sheetpack exUp exactMul (exFarSheet .nan) .yes none (some ['B', '2']) none =
      .ok ([(0, [.datetime 43831 0]), (1, [.flt 1])], [(0, .str ['a']), (1, .str ['b'])]) ∧
    sheetpack exUp exactMul (exFarSheet .nan) .yes none none (some (.seq [1])) =
      .ok ([(1, [.flt 1, .flt 2])], [(1, .str ['b'])]) := by
  refine ⟨?_, ?_, ?_, ?_, ?_⟩ <;> decide +kernel

/-- The arguments of the examples are good. -/
example : GoodArgs exUp (exFarSheet .nan) .yes none none none 0 0 2 1 := by
  refine ⟨⟨rfl, rfl, by decide, by decide⟩, rfl, Or.inl ⟨Or.inl rfl, rfl, rfl⟩, by simp, ?_, by decide, ?_, by simp⟩
  · intro us hus
    have h : ∀ c, c ∈ us ↔ (0 : Int) ≤ c ∧ c ≤ 1 := hus
    refine ⟨fun h0 => ?_, fun c hc => ?_⟩
    · have := (h 0).2 (by omega)
      rw [h0] at this; simp at this
    · have := (h c).1 hc
      refine ⟨by omega, by omega, ?_⟩
      show c < 2
      omega
  · intro _; decide

example : NoDate exactMul.ms 0 .nan .valueError := .nan

example : StandsForDate exactMul.ms 0 (.flt (-1 / 4)) :=
  ⟨-1 / 4, 64800000, Or.inl rfl, ⟨0, -21600000, ⟨by decide +kernel, by decide +kernel⟩,
    ⟨by decide +kernel, by decide +kernel, by decide +kernel⟩, by decide +kernel⟩, by decide, by decide⟩

end CP
