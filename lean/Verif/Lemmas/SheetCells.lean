import Verif.Spec.SheetCells
/-!
# Lemmas about the cell store of a sheet
-/

namespace CP

open Spec

/-- The place is in a table with rows of these lengths. -/
def InLens (lens : List Nat) (r c : Nat) : Prop := ∃ n, lens[r]? = some n ∧ c < n

/-- The table has rows of these lengths with the content `f`, which is `d` elsewhere. -/
structure Rep {α : Type} (t : List (List α)) (lens : List Nat) (f : Nat → Nat → α) (d : α) : Prop where
  shape : t.map List.length = lens
  at_ : ∀ (r c : Nat) (row : List α) (x : α), t[r]? = some row → row[c]? = some x → x = f r c
  out : ∀ r c, ¬ InLens lens r c → f r c = d

def upd {α : Type} (f : Nat → Nat → α) (r c : Nat) (v : α) : Nat → Nat → α :=
  fun r' c' => if r' = r ∧ c' = c then v else f r' c'

variable {α : Type} {t : List (List α)} {lens : List Nat} {f : Nat → Nat → α} {d : α}

theorem Rep.row (h : Rep t lens f d) {r n : Nat} (hn : lens[r]? = some n) :
    ∃ row, t[r]? = some row ∧ row.length = n := by
  have := h.shape
  subst this
  simp only [List.getElem?_map, Option.map_eq_some_iff] at hn
  exact hn

theorem Rep.no_row (h : Rep t lens f d) {r : Nat} (hn : lens[r]? = none) : t[r]? = none := by
  have := h.shape
  subst this
  simpa using hn

theorem Rep.has (h : Rep t lens f d) {r c : Nat} (hi : InLens lens r c) : HasAt t r c (f r c) := by
  obtain ⟨n, hn, hc⟩ := hi
  obtain ⟨row, hr, hl⟩ := h.row hn
  refine ⟨row, hr, ?_⟩
  have hx : row[c]? = some row[c] := List.getElem?_eq_getElem (by omega)
  rw [hx, h.at_ r c row _ hr hx]

theorem setAt_in (h : Rep t lens f d) {r c : Nat} (hi : InLens lens r c) (v : α) :
    ∃ t', setAt t r c v = some t' ∧ Rep t' lens (upd f r c v) d := by
  obtain ⟨n, hn, hc⟩ := hi
  obtain ⟨row, hr, hl⟩ := h.row hn
  unfold setAt
  rw [hr]
  dsimp only
  rw [if_pos (by omega)]
  refine ⟨_, rfl, ⟨?_, ?_, ?_⟩⟩
  · rw [List.map_set, List.length_set, h.shape, hl]
    apply List.ext_getElem?
    intro i
    rw [List.getElem?_set]
    split
    · subst i; split
      · exact hn.symm
      · rename_i hge; rw [List.getElem?_eq_none (by omega)] 
    · rfl
  · intro r' c' row' x h1 h2
    rw [List.getElem?_set] at h1
    unfold upd
    split at h1
    · subst r'
      split at h1
      · simp only [Option.some.injEq] at h1
        subst h1
        rw [List.getElem?_set] at h2
        split at h2
        · subst c'
          rw [if_pos (by omega)] at h2
          simp at h2
          simp [h2]
        · rw [if_neg (by omega)]
          exact h.at_ _ _ _ _ hr h2
      · simp at h1
    · rw [if_neg (by omega)]
      exact h.at_ _ _ _ _ h1 h2
  · intro r' c' hno
    unfold upd
    rw [if_neg]
    · exact h.out _ _ hno
    · rintro ⟨rfl, rfl⟩
      exact hno ⟨n, hn, hc⟩

theorem setAt_out (h : Rep t lens f d) {r c : Nat} (hi : ¬ InLens lens r c) (v : α) : setAt t r c v = none := by
  unfold setAt
  cases hr : t[r]? with
  | none => rfl
  | some row =>
    dsimp only
    rw [if_neg]
    intro hc
    apply hi
    refine ⟨row.length, ?_, hc⟩
    rw [← h.shape]
    simp [hr]

theorem extendRow_rep (h : Rep t lens f d) {r n : Nat} (hn : lens[r]? = some n) (k : Nat) :
    Rep (extendRow t r k d) (lens.set r (n + k)) f d := by
  obtain ⟨row, hr, hl⟩ := h.row hn
  unfold extendRow
  rw [hr]
  dsimp only
  have hlt : r < lens.length := (List.getElem?_eq_some_iff.1 hn).1
  refine ⟨by rw [List.map_set, h.shape]; simp [hl], ?_, ?_⟩
  · intro r' c' row' x h1 h2
    rw [List.getElem?_set] at h1
    split at h1
    · subst r'
      split at h1
      · simp only [Option.some.injEq] at h1
        subst h1
        rw [List.getElem?_append] at h2
        split at h2
        · exact h.at_ _ _ _ _ hr h2
        · rename_i hge
          rw [List.getElem?_replicate] at h2
          split at h2
          · simp only [Option.some.injEq] at h2
            subst h2
            refine (h.out _ _ ?_).symm
            rintro ⟨m, hm, hc⟩
            rw [hn] at hm
            simp only [Option.some.injEq] at hm
            omega
          · simp at h2
      · simp at h1
    · exact h.at_ _ _ _ _ h1 h2
  · intro r' c' hno
    apply h.out
    rintro ⟨m, hm, hc⟩
    apply hno
    unfold InLens
    rw [List.getElem?_set]
    by_cases he : r = r'
    · subst he
      rw [hn] at hm
      simp only [Option.some.injEq] at hm
      exact ⟨n + k, by simp [hlt], by omega⟩
    · rw [if_neg he]
      exact ⟨m, hm, hc⟩

theorem addRows_rep (h : Rep t lens f d) (k n : Nat) :
    Rep (t ++ List.replicate k (List.replicate n d)) (lens ++ List.replicate k n) f d := by
  have hlen : t.length = lens.length := by rw [← h.shape]; simp
  refine ⟨by simp [h.shape], ?_, ?_⟩
  · intro r c row x h1 h2
    rw [List.getElem?_append] at h1
    split at h1
    · exact h.at_ _ _ _ _ h1 h2
    · rename_i hge
      rw [List.getElem?_replicate] at h1
      split at h1
      · simp only [Option.some.injEq] at h1
        subst h1
        rw [List.getElem?_replicate] at h2
        split at h2
        · simp only [Option.some.injEq] at h2
          subst h2
          refine (h.out _ _ ?_).symm
          rintro ⟨m, hm, _⟩
          have := (List.getElem?_eq_some_iff.1 hm).1
          omega
        · simp at h2
      · simp at h1
  · intro r c hno
    apply h.out
    rintro ⟨m, hm, hc⟩
    apply hno
    refine ⟨m, ?_, hc⟩
    rw [List.getElem?_append_left ((List.getElem?_eq_some_iff.1 hm).1)]
    exact hm

/-- The three tables of a sheet hold the cells `f`. -/
structure Holds (g : Grid) (f : Nat → Nat → PutCell) (lens : List Nat) : Prop where
  types : Rep g.types lens (fun r c => (f r c).typ) xlEmpty
  values : Rep g.values lens (fun r c => (f r c).value) (.str [])
  xfs : g.fmt = true → Rep g.xfs lens (fun r c => (f r c).xf) (-1)
  nrows : lens.length = g.nrows
  le : ∀ n ∈ lens, n ≤ g.ncols
  out : ∀ r c, ¬ InLens lens r c → f r c = emptyCell

theorem upd_out {f : Nat → Nat → PutCell} {lens : List Nat} (h : ∀ r c, ¬ InLens lens r c → f r c = emptyCell) {r c : Nat}
    (hi : InLens lens r c) {v : PutCell} : ∀ r' c', ¬ InLens lens r' c' → upd f r c v r' c' = emptyCell := by
  intro r' c' hno
  unfold upd
  rw [if_neg]
  · exact h r' c' hno
  · rintro ⟨rfl, rfl⟩
    exact hno hi

theorem inLens_set {lens : List Nat} {r n k : Nat} (hn : lens[r]? = some n) {r' c' : Nat} (h : InLens lens r' c') :
    InLens (lens.set r (n + k)) r' c' := by
  obtain ⟨m, hm, hc⟩ := h
  have hlt : r < lens.length := (List.getElem?_eq_some_iff.1 hn).1
  unfold InLens
  rw [List.getElem?_set]
  by_cases he : r = r'
  · subst he
    rw [hn] at hm
    simp only [Option.some.injEq] at hm
    exact ⟨n + k, by simp [hlt], by omega⟩
  · rw [if_neg he]
    exact ⟨m, hm, hc⟩

theorem inLens_append {lens more : List Nat} {r' c' : Nat} (h : InLens lens r' c') : InLens (lens ++ more) r' c' := by
  obtain ⟨m, hm, hc⟩ := h
  refine ⟨m, ?_, hc⟩
  rw [List.getElem?_append_left ((List.getElem?_eq_some_iff.1 hm).1)]
  exact hm

theorem upd_typ (f : Nat → Nat → PutCell) (r c : Nat) (v : PutCell) :
    (fun r' c' => (upd f r c v r' c').typ) = upd (fun r c => (f r c).typ) r c v.typ := by
  funext r' c'; unfold upd; split <;> rfl

theorem upd_value (f : Nat → Nat → PutCell) (r c : Nat) (v : PutCell) :
    (fun r' c' => (upd f r c v r' c').value) = upd (fun r c => (f r c).value) r c v.value := by
  funext r' c'; unfold upd; split <;> rfl

theorem upd_xf (f : Nat → Nat → PutCell) (r c : Nat) (v : PutCell) :
    (fun r' c' => (upd f r c v r' c').xf) = upd (fun r c => (f r c).xf) r c v.xf := by
  funext r' c'; unfold upd; split <;> rfl

/-- All of a sheet but its tables. -/
def SameButTables (g g' : Grid) : Prop :=
  g'.nrows = g.nrows ∧ g'.ncols = g.ncols ∧ g'.firstFull = g.firstFull ∧ g'.fmt = g.fmt ∧ g'.ragged = g.ragged ∧
    g'.maxRows = g.maxRows ∧ g'.maxCols = g.maxCols ∧ g'.merged = g.merged

theorem assign_in {g : Grid} {f : Nat → Nat → PutCell} {lens : List Nat} (h : Holds g f lens) {r c : Nat}
    (hi : InLens lens r c) {v : PutCell} (hx : g.fmt = true → Int16 v.xf) :
    ∃ g', g.assign r c v = (g', none) ∧ Holds g' (upd f r c v) lens ∧ SameButTables g g' := by
  unfold Grid.assign
  obtain ⟨t1, e1, r1⟩ := setAt_in h.types hi v.typ
  obtain ⟨t2, e2, r2⟩ := setAt_in h.values hi v.value
  rw [e1]
  dsimp only
  rw [e2]
  dsimp only
  cases hf : g.fmt with
  | false =>
    rw [if_pos rfl]
    refine ⟨_, rfl, ⟨?_, ?_, ?_, h.nrows, h.le, upd_out h.out hi⟩, rfl, rfl, rfl, hf.symm, rfl, rfl, rfl, rfl⟩
    · rw [upd_typ]; exact r1
    · rw [upd_value]; exact r2
    · intro h0; simp at h0
  | true =>
    obtain ⟨t3, e3, r3⟩ := setAt_in (h.xfs hf) hi v.xf
    rw [if_neg (by simp), if_neg (by simp [hx hf]), e3]
    refine ⟨_, rfl, ⟨?_, ?_, ?_, h.nrows, h.le, upd_out h.out hi⟩, rfl, rfl, rfl, hf.symm, rfl, rfl, rfl, rfl⟩
    · rw [upd_typ]; exact r1
    · rw [upd_value]; exact r2
    · intro _; rw [upd_xf]; exact r3

theorem assign_out {g : Grid} {f : Nat → Nat → PutCell} {lens : List Nat} (h : Holds g f lens) {r c : Nat}
    (hi : ¬ InLens lens r c) (v : PutCell) : g.assign r c v = (g, some .indexError) := by
  unfold Grid.assign
  rw [setAt_out h.types hi]

/-- The rows from `firstFull` on have all columns. -/
def FullFrom (g : Grid) (lens : List Nat) : Prop :=
  g.firstFull ≠ -2 → -1 ≤ g.firstFull ∧ g.firstFull < g.nrows ∧
    ∀ (r n : Nat), lens[r]? = some n → g.firstFull ≤ r → n = g.ncols

theorem lengthen_ok {g : Grid} {f : Nat → Nat → PutCell} {lens : List Nat} (h : Holds g f lens) (r : Nat) :
    ∃ g' lens', g.lengthen r = (g', none) ∧ Holds g' f lens' ∧ (∀ c, c < g.ncols → InLens lens' r c) ∧
      g' = { g with types := g'.types, values := g'.values, xfs := g'.xfs, nrows := max g.nrows (r + 1) } ∧
      ∀ (i n : Nat), lens'[i]? = some n → n = g.ncols ∨ i ≠ r ∧ lens[i]? = some n := by
  unfold Grid.lengthen
  split
  · rename_i hr
    have hlt : r < lens.length := by rw [h.nrows]; omega
    have hn : lens[r]? = some lens[r] := List.getElem?_eq_getElem hlt
    obtain ⟨row, e, hl⟩ := h.types.row hn
    rw [e]
    dsimp only
    have hle := h.le _ (List.getElem_mem hlt)
    refine ⟨_, lens.set r (lens[r] + (g.ncols - row.length)), rfl,
      ⟨extendRow_rep h.types hn _, extendRow_rep h.values hn _, ?_, by simpa using h.nrows, ?_,
        fun r' c' hno => h.out r' c' fun hy => hno (inLens_set hn hy)⟩, ?_, ?_, ?_⟩
    · intro hf
      dsimp only at hf
      simp only [hf, if_true]
      exact extendRow_rep (h.xfs hf) hn _
    · intro n hn'
      rcases List.mem_or_eq_of_mem_set hn' with h1 | h1
      · exact h.le n h1
      · show n ≤ g.ncols
        omega
    · intro c hc
      exact ⟨lens[r] + (g.ncols - row.length), by simp [hlt], by omega⟩
    · rw [Nat.max_eq_left hr]
    · intro i n hi
      rw [List.getElem?_set] at hi
      split at hi
      · simp only [Option.some.injEq] at hi
        left; omega
      · right; rename_i hne; exact ⟨fun e => hne e.symm, hi⟩
  · rename_i hr
    refine ⟨_, lens ++ List.replicate (r + 1 - g.nrows) g.ncols, rfl,
      ⟨addRows_rep h.types _ _, addRows_rep h.values _ _, ?_, ?_, ?_,
        fun r' c' hno => h.out r' c' fun hy => hno (inLens_append hy)⟩, ?_, ?_, ?_⟩
    · intro hf
      dsimp only at hf
      simp only [hf, if_true]
      exact addRows_rep (h.xfs hf) _ _
    · simp [h.nrows]; omega
    · intro n hn
      rcases List.mem_append.1 hn with h1 | h1
      · exact h.le n h1
      · rw [(List.mem_replicate.1 h1).2]; exact Nat.le_refl _
    · intro c hc
      refine ⟨g.ncols, ?_, hc⟩
      rw [List.getElem?_append_right (by rw [h.nrows]; omega), List.getElem?_replicate, if_pos (by rw [h.nrows]; omega)]
    · rw [Nat.max_eq_right (by omega)]
    · intro i n hi
      rw [List.getElem?_append] at hi
      split at hi
      · rename_i hlt
        right; exact ⟨by rw [h.nrows] at hlt; omega, hi⟩
      · rw [List.getElem?_replicate] at hi
        split at hi
        · simp only [Option.some.injEq] at hi
          left; exact hi.symm
        · simp at hi

theorem putUnragged_ok {g : Grid} {f : Nat → Nat → PutCell} {lens : List Nat} (h : Holds g f lens)
    (hfull : FullFrom g lens) {r c : Nat} (hr : r < g.maxRows) (hc : c < g.maxCols) {v : PutCell}
    (hx : g.fmt = true → Int16 v.xf) :
    ∃ g' lens', g.putUnragged r c v = (g', none) ∧ Holds g' (upd f r c v) lens' ∧ FullFrom g' lens' ∧
      g' = { g with types := g'.types, values := g'.values, xfs := g'.xfs, firstFull := g'.firstFull,
                    nrows := max g.nrows (r + 1), ncols := max g.ncols (c + 1) } := by
  unfold Grid.putUnragged
  by_cases hi : InLens lens r c
  · obtain ⟨g', e, h1, h2⟩ := assign_in h hi hx
    rw [e]
    obtain ⟨k1, k2, k3, k4, k5, k6, k7, k8⟩ := h2
    refine ⟨g', lens, rfl, h1, ?_, ?_⟩
    · intro h3
      rw [k3] at h3
      rw [k1, k2, k3]
      exact hfull h3
    · obtain ⟨n, hn, hlt⟩ := hi
      have h3 := (List.getElem?_eq_some_iff.1 hn).1
      rw [h.nrows] at h3
      have h4 := h.le n (List.mem_of_getElem? hn)
      rw [Nat.max_eq_left (by omega), Nat.max_eq_left (by omega)]
      cases g'
      simp_all
  · rw [assign_out h hi]
    dsimp only
    rw [if_neg (by simp), if_neg (by omega), if_neg (by omega)]
    have hw : Holds (g.widen r (c + 1)) f lens ∧
        g.widen r (c + 1) = { g with firstFull := (g.widen r (c + 1)).firstFull, ncols := max g.ncols (c + 1) } := by
      unfold Grid.widen
      split
      · refine ⟨⟨h.types, h.values, h.xfs, h.nrows, fun n hn => ?_, h.out⟩, ?_⟩
        · have := h.le n hn
          show n ≤ c + 1
          omega
        · rw [Nat.max_eq_right (by omega)]
      · refine ⟨h, ?_⟩
        rw [Nat.max_eq_left (by omega)]
    obtain ⟨hw1, hw2⟩ := hw
    obtain ⟨g1, lens', e1, h1, h2, h3, h4⟩ := lengthen_ok hw1 r
    rw [e1]
    dsimp only
    have hcols : (g.widen r (c + 1)).ncols = max g.ncols (c + 1) := by rw [hw2]
    have hfmt : g1.fmt = g.fmt := by rw [h3, hw2]
    obtain ⟨g', e, k, m⟩ := assign_in h1 (h2 c (by rw [hcols]; omega)) (v := v) (by rw [hfmt]; exact hx)
    rw [e]
    obtain ⟨m1, m2, m3, m4, m5, m6, m7, m8⟩ := m
    refine ⟨g', lens', rfl, k, ?_, ?_⟩
    · intro h5
      have hff : g'.firstFull = (g.widen r (c + 1)).firstFull := by rw [m3, h3]
      have hnr : g'.nrows = max g.nrows (r + 1) := by rw [m1, h3, hw2]
      have hnc : g'.ncols = max g.ncols (c + 1) := by rw [m2, h3, hw2]
      rw [hff] at h5 ⊢
      rw [hnr, hnc]
      unfold Grid.widen at h5 ⊢
      by_cases hgt : c + 1 > g.ncols
      · rw [if_pos hgt] at h5 ⊢
        dsimp only at h5 ⊢
        by_cases hlt : r + 1 < g.nrows
        · rw [if_pos hlt] at h5
          exact absurd rfl h5
        · rw [if_neg hlt] at h5 ⊢
          by_cases hgr : (r : Int) > g.firstFull ∧ g.firstFull > -2
          · rw [if_pos hgr]
            refine ⟨by omega, by omega, fun i n hin hle => ?_⟩
            have hi' := (List.getElem?_eq_some_iff.1 hin).1
            rw [k.nrows, hnr] at hi'
            rcases h4 i n hin with h6 | ⟨h6, _⟩
            · rw [h6, hcols]
            · omega
          · rw [if_neg hgr] at h5 ⊢
            obtain ⟨f1, f2, f3⟩ := hfull h5
            refine ⟨f1, by omega, fun i n hin hle => ?_⟩
            have hi' := (List.getElem?_eq_some_iff.1 hin).1
            rw [k.nrows, hnr] at hi'
            rcases h4 i n hin with h6 | ⟨h6, _⟩
            · rw [h6, hcols]
            · omega
      · rw [if_neg hgt] at h5 ⊢
        obtain ⟨f1, f2, f3⟩ := hfull h5
        refine ⟨f1, by omega, fun i n hin hle => ?_⟩
        rcases h4 i n hin with h6 | ⟨_, h6⟩
        · rw [h6, hcols]
        · rw [f3 i n h6 hle]; omega
    · have a1 : g'.nrows = max g.nrows (r + 1) := by rw [m1, h3, hw2]
      have a2 : g'.ncols = max g.ncols (c + 1) := by rw [m2, h3, hw2]
      have a4 : g'.fmt = g.fmt := by rw [m4, hfmt]
      have a5 : g'.ragged = g.ragged := by rw [m5, h3, hw2]
      have a6 : g'.maxRows = g.maxRows := by rw [m6, h3, hw2]
      have a7 : g'.maxCols = g.maxCols := by rw [m7, h3, hw2]
      have a8 : g'.merged = g.merged := by rw [m8, h3, hw2]
      rw [← a1, ← a2, ← a4, ← a5, ← a6, ← a7, ← a8]

theorem putRagged_ok {g : Grid} {f : Nat → Nat → PutCell} {lens : List Nat} (h : Holds g f lens)
    {r c : Nat} (hr : r < g.maxRows) (hc : c < g.maxCols) {v : PutCell}
    (hx : g.fmt = true → Int16 v.xf) :
    ∃ g' lens', g.putRagged r c v = (g', none) ∧ Holds g' (upd f r c v) lens' ∧
      (∀ (i n : Nat), lens'[i]? = some n →
        n = if i = r then max (lens[i]?.getD 0) (c + 1) else lens[i]?.getD 0) ∧
      g' = { g with types := g'.types, values := g'.values, xfs := g'.xfs,
                    nrows := max g.nrows (r + 1), ncols := max g.ncols (c + 1) } := by
  unfold Grid.putRagged
  rw [if_neg (by omega), if_neg (by omega)]
  dsimp only
  have ha : ∃ lens1, Holds (g.addRows r) f lens1 ∧ r < lens1.length ∧ (∀ i : Nat, lens1[i]?.getD 0 = lens[i]?.getD 0) ∧
      g.addRows r = { g with types := (g.addRows r).types, values := (g.addRows r).values, xfs := (g.addRows r).xfs,
                             nrows := max g.nrows (r + 1) } := by
    unfold Grid.addRows
    split
    · refine ⟨lens ++ List.replicate (r + 1 - g.nrows) 0, ⟨addRows_rep h.types _ 0, addRows_rep h.values _ 0, ?_, ?_, ?_,
        fun r' c' hno => h.out r' c' fun hy => hno (inLens_append hy)⟩, ?_, ?_, ?_⟩
      · intro hf
        dsimp only at hf
        simp only [hf, if_true]
        exact addRows_rep (h.xfs hf) _ 0
      · simp [h.nrows]; omega
      · intro n hn
        rcases List.mem_append.1 hn with h1 | h1
        · exact h.le n h1
        · rw [(List.mem_replicate.1 h1).2]; exact Nat.zero_le _
      · simp [h.nrows]; omega
      · intro i
        rw [List.getElem?_append]
        split
        · rfl
        · rw [List.getElem?_replicate, List.getElem?_eq_none (l := lens) (by omega)]
          split <;> rfl
      · rw [Nat.max_eq_right (by omega)]
    · refine ⟨lens, h, by rw [h.nrows]; omega, fun _ => rfl, ?_⟩
      rw [Nat.max_eq_left (by omega)]
  obtain ⟨lens1, h1, hlt, hget, hg⟩ := ha
  generalize g.addRows r = g1 at h1 hg ⊢
  have hn : lens1[r]? = some lens1[r] := List.getElem?_eq_getElem hlt
  obtain ⟨row, e, hl⟩ := h1.types.row hn
  rw [e]
  dsimp only
  have hcols : (if c ≥ g1.ncols then c + 1 else g1.ncols) = max g.ncols (c + 1) := by
    rw [hg]
    dsimp only
    split <;> omega
  rw [hcols]
  have hmid : Holds { g1 with
      ncols := max g.ncols (c + 1),
      types := extendRow g1.types r (c + 1 - row.length) xlEmpty,
      values := extendRow g1.values r (c + 1 - row.length) (.str []),
      xfs := if g1.fmt then extendRow g1.xfs r (c + 1 - row.length) (-1) else g1.xfs } f
      (lens1.set r (lens1[r] + (c + 1 - row.length))) := by
    refine ⟨extendRow_rep h1.types hn _, extendRow_rep h1.values hn _, ?_, by simpa using h1.nrows, ?_,
        fun r' c' hno => h1.out r' c' fun hy => hno (inLens_set hn hy)⟩
    · intro hf
      dsimp only at hf
      simp only [hf, if_true]
      exact extendRow_rep (h1.xfs hf) hn _
    · have hg1 : g1.ncols = g.ncols := by rw [hg]
      intro n hn'
      show n ≤ max g.ncols (c + 1)
      rcases List.mem_or_eq_of_mem_set hn' with h2 | h2
      · have := h1.le n h2
        omega
      · have := h1.le _ (List.getElem_mem hlt)
        omega
  obtain ⟨g', e', k, m⟩ := assign_in hmid (r := r) (c := c) (v := v)
    ⟨_, by rw [List.getElem?_set]; simp [hlt]; rfl, by omega⟩ (by dsimp only; rw [hg]; exact hx)
  refine ⟨g', _, e', k, ?_, ?_⟩
  · intro i n hi
    rw [List.getElem?_set] at hi
    split at hi
    · subst i
      simp only [Option.some.injEq] at hi
      rw [if_pos rfl, ← hget, hn, Option.getD_some]
      omega
    · rename_i hne
      rw [if_neg (by omega), ← hget, hi, Option.getD_some]
  · obtain ⟨m1, m2, m3, m4, m5, m6, m7, m8⟩ := m
    dsimp only at m1 m2 m3 m4 m5 m6 m7 m8
    have a1 : g'.nrows = max g.nrows (r + 1) := by rw [m1, hg]
    have a2 : g'.ncols = max g.ncols (c + 1) := by rw [m2]
    have a3 : g'.firstFull = g.firstFull := by rw [m3, hg]
    have a4 : g'.fmt = g.fmt := by rw [m4, hg]
    have a5 : g'.ragged = g.ragged := by rw [m5, hg]
    have a6 : g'.maxRows = g.maxRows := by rw [m6, hg]
    have a7 : g'.maxCols = g.maxCols := by rw [m7, hg]
    have a8 : g'.merged = g.merged := by rw [m8, hg]
    rw [← a1, ← a2, ← a3, ← a4, ← a5, ← a6, ← a7, ← a8]

/-! ### tidy_dimensions -/

theorem fixRows_get {α β : Type} (ncols : Nat) (x : α) (n : Nat) (ts : List (List β)) (rows : List (List α))
    (hl : ts.map List.length = rows.map List.length) (i : Nat) :
    (fixRows ncols x n ts rows)[i]? = rows[i]?.map fun row =>
      if i < n then row ++ List.replicate (ncols - row.length) x else row := by
  induction n generalizing ts rows i with
  | zero =>
    rw [fixRows]
    · simp
    · intro n' _ _ _ _ h0; exact absurd h0 (by omega)
  | succ n ih =>
    cases rows with
    | nil => cases ts <;> simp [fixRows]
    | cons row rows =>
      cases ts with
      | nil => simp at hl
      | cons trow ts =>
        simp only [List.map_cons, List.cons.injEq] at hl
        rw [fixRows]
        cases i with
        | zero =>
          simp only [List.getElem?_cons_zero, Option.map_some, Nat.zero_lt_succ, if_true, fixRow]
          split
          · rw [hl.1, List.take_length]
          · rw [show ncols - row.length = 0 by omega]; simp
        | succ i =>
          simp only [List.getElem?_cons_succ]
          rw [ih _ _ hl.2]
          simp

theorem fixRows_rep {α β : Type} {t : List (List α)} {ts : List (List β)} {lens : List Nat} {f : Nat → Nat → α} {d : α}
    (h : Rep t lens f d) (hts : ts.map List.length = lens) {ncols n : Nat}
    (hle : ∀ k ∈ lens, k ≤ ncols) (hfull : ∀ (i k : Nat), lens[i]? = some k → n ≤ i → k = ncols) :
    Rep (fixRows ncols d n ts t) (List.replicate lens.length ncols) f d := by
  have hget := fixRows_get ncols d n ts t (by rw [hts, h.shape])
  have hlen : t.length = lens.length := by rw [← h.shape]; simp
  have hk : ∀ (i : Nat) (row : List α), t[i]? = some row → lens[i]? = some row.length := by
    intro i row hi
    rw [← h.shape]
    simp [hi]
  refine ⟨?_, ?_, ?_⟩
  · apply List.ext_getElem?
    intro i
    rw [List.getElem?_map, hget, List.getElem?_replicate]
    cases hi : t[i]? with
    | none =>
      have := List.getElem?_eq_none_iff.1 hi
      rw [if_neg (by omega)]; rfl
    | some row =>
      have hlt := (List.getElem?_eq_some_iff.1 hi).1
      rw [if_pos (by omega)]
      simp only [Option.map_some, Option.some.injEq]
      have h1 := hk i row hi
      have h2 := hle _ (List.mem_of_getElem? h1)
      split
      · simp; omega
      · exact hfull i _ h1 (by omega)
  · intro r c row x h1 h2
    rw [hget] at h1
    cases hi : t[r]? with
    | none => rw [hi] at h1; simp at h1
    | some row0 =>
      rw [hi] at h1
      simp only [Option.map_some, Option.some.injEq] at h1
      split at h1
      · subst h1
        rw [List.getElem?_append] at h2
        split at h2
        · exact h.at_ _ _ _ _ hi h2
        · rename_i hge
          rw [List.getElem?_replicate] at h2
          split at h2
          · simp only [Option.some.injEq] at h2
            subst h2
            refine (h.out _ _ ?_).symm
            rintro ⟨m, hm, hc⟩
            rw [hk r row0 hi] at hm
            simp only [Option.some.injEq] at hm
            omega
          · simp at h2
      · subst h1
        exact h.at_ _ _ _ _ hi h2
  · intro r c hno
    apply h.out
    rintro ⟨m, hm, hc⟩
    apply hno
    refine ⟨ncols, ?_, ?_⟩
    · rw [List.getElem?_replicate, if_pos ((List.getElem?_eq_some_iff.1 hm).1)]
    · have := hle _ (List.mem_of_getElem? hm)
      omega

theorem fixRagged_ok {g : Grid} {f : Nat → Nat → PutCell} {lens : List Nat} (h : Holds g f lens)
    (hfull : FullFrom g lens) (hr : g.ragged = false) :
    Holds g.fixRagged f (List.replicate g.nrows g.ncols) ∧ SameButTables g g.fixRagged := by
  unfold Grid.fixRagged
  rw [if_neg (by simp [hr])]
  dsimp only
  have hf : ∀ (i k : Nat), lens[i]? = some k → (if g.firstFull = -2 then g.nrows else g.firstFull.toNat) ≤ i → k = g.ncols := by
    intro i k hi hle
    split at hle
    · have := (List.getElem?_eq_some_iff.1 hi).1
      rw [h.nrows] at this
      omega
    · rename_i hne
      obtain ⟨h1, h2, h3⟩ := hfull hne
      exact h3 i k hi (by omega)
  refine ⟨⟨?_, ?_, ?_, by simp, ?_, ?_⟩, rfl, rfl, rfl, rfl, rfl, rfl, rfl, rfl⟩
  · rw [← h.nrows]; rw [h.nrows]
    have := fixRows_rep h.types h.types.shape h.le hf
    rwa [h.nrows] at this
  · have := fixRows_rep h.values h.types.shape h.le hf
    rwa [h.nrows] at this
  · intro hfm
    dsimp only at hfm
    have := fixRows_rep (h.xfs hfm) h.types.shape h.le hf
    rw [h.nrows] at this
    simp only [hfm, if_true]
    exact this
  · intro n hn
    rw [(List.mem_replicate.1 hn).2]; exact Nat.le_refl _
  · intro r c hno
    apply h.out
    rintro ⟨m, hm, hc⟩
    apply hno
    refine ⟨g.ncols, ?_, ?_⟩
    · rw [List.getElem?_replicate, if_pos (by rw [← h.nrows]; exact (List.getElem?_eq_some_iff.1 hm).1)]
    · have := h.le _ (List.mem_of_getElem? hm)
      omega

end CP
