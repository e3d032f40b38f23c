import Verif.Lemmas.NameArea
import Verif.Lemmas.NameBoxes
import Verif.Lemmas.PyNum
import Verif.Lemmas.Invariant
import Verif.Props.XlsNames
/-!
# C104: the cells that names stand for
-/

namespace CP
open CP.Spec

/-- The `result` of the name number `j` after the records `gs` and `names_epilogue`. -/
def ResultOf {ν : Type} (N : NumEnv ν) (bv : Nat) (text : Bytes → Except Exc (List Char)) (gs : List NameGroup) (all : List (List Char × Nat)) (j : Nat)
    (res : Option (Opnd ν)) : Prop :=
  ∃ s evals, nameRecs bv text (groupRecs gs).length (groupRecs gs) .init = .ok s ∧ namesEvaluated N bv text s all = .ok evals ∧ res = nameResult evals j

/-- What `area2d` and `cell` give for areas. -/
structure CellsOfName {ν : Type} (all : List (List Char × Nat)) (sheets : List SheetView) (as : List AreaExpr) (res : Option (Opnd ν)) : Prop where
  /-- The rectangle of the cells, and the number of their sheet. -/
  area : ∀ a s, as = [a] → a.On all s → ∃ r1 r2 c1 c2 : Int, nameArea sheets false res = .ok ((s : Int), r1, r2, c1, c2) ∧
    ∀ r c : Nat, a.cells all s r c ↔ (r1 ≤ r ∧ (r : Int) < r2) ∧ c1 ≤ c ∧ (c : Int) < c2
  /-- The rectangle of those that are in the sheet. -/
  clipped : ∀ a s sh, as = [a] → a.On all s → sheets[s]? = some sh → ∃ r1 r2 c1 c2 : Int, nameArea sheets true res = .ok ((s : Int), r1, r2, c1, c2) ∧
    (0 ≤ r1 ∧ r1 ≤ r2 ∧ r2 ≤ sh.grid.nrows) ∧ (0 ≤ c1 ∧ c1 ≤ c2 ∧ c2 ≤ sh.grid.ncols) ∧
    ∀ r c : Nat, r < sh.grid.nrows → c < sh.grid.ncols → (a.cells all s r c ↔ (r1 ≤ r ∧ (r : Int) < r2) ∧ c1 ≤ c ∧ (c : Int) < c2)
  /-- One cell. -/
  cell : ∀ a s r c sh, as = [a] → a.Single all s r c → sheets[s]? = some sh → nameCell sheets res = sh.cell r c
  /-- Not one cell. -/
  noCell : (∀ a s r c, as = [a] → ¬ a.Single all s r c) → nameCell sheets res = .error .xlrdError
  /-- Not one area, or one of two or more sheets. -/
  noArea : (∀ a, as = [a] → ∃ s s' r c r' c', s ≠ s' ∧ a.cells all s r c ∧ a.cells all s' r' c') → ∀ clipped, nameArea sheets clipped res = .error .xlrdError
  /-- No cells. -/
  empty : ∀ a, as = [a] → (∀ s r c, ¬ a.cells all s r c) → ∀ clipped, nameArea sheets clipped res = .error .xlrdError ∨
    ∃ s r1 r2 c1 c2, nameArea sheets clipped res = .ok (s, r1, r2, c1, c2) ∧ ¬ (r1 < r2 ∧ c1 < c2)

/-- C104 as it ought to be (`whole := false`): names that stand for areas (with `$` before all rows and columns) give their
cells, as `CellsOfName` has it, and `area2d` and `cell` have no other exception than XLRDError (`cell` those of `Sheet.cell`)
for any name.  `whole := true` leaves out the other names. -/
def NamesGiveCells (whole : Bool) : Prop :=
  ∀ (ν : Type) (N : NumEnv ν) (v8 : Bool) (bv : Nat) (text : Bytes → Except Exc (List Char)) (gs : List NameGroup) (all : List (List Char × Nat))
    (sheets : List SheetView) (j : Nat) (res : Option (Opnd ν)), (bv < 80) = (v8 = false) → (∀ g ∈ gs, ∀ b t, g.tx b = some t → text b = .ok t) →
    sheets.length = (all.filter fun p => p.2 = 0).length → ResultOf N bv text gs all j res →
      (∀ as, StandsFor v8 gs all j as → CellsOfName all sheets as res) ∧
      (whole = false → ∀ clipped e, nameArea sheets clipped res = .error e → e = .xlrdError)

/-- A reference to a box. -/
def boxRes {ν : Type} (b : Box6) : Option (Opnd ν) := some (.opnd oRef (.refs [absRef b.list]))

theorem oneBox_box {ν : Type} (b : Box6) :
    oneBox (boxRes b : Option (Opnd ν)) = if 0 ≤ b.s1 ∧ b.s1 = b.s2 - 1 then .ok (b.s1, b.r1, b.r2, b.c1, b.c2) else .error .xlrdError := rfl

theorem cells_of_box {ν : Type} {all : List (List Char × Nat)} {sheets : List SheetView} (hn : sheets.length = (all.filter fun p => p.2 = 0).length)
    {a : AreaExpr} (ha : a.Ok all) : CellsOfName all sheets [a] (boxRes (boxOf all a) : Option (Opnd ν)) := by
  obtain ⟨⟨p1, p2, p3, p4⟩, hc⟩ := boxOf_cells ha
  have hr : rankOf all all.length = sheets.length := by rw [hn]; simp [rankOf]
  rw [hr] at p4
  have hone := oneBox_box (ν := ν) (boxOf all a)
  generalize boxOf all a = b at *
  have hin : ∀ s r c, InBox b s r c ↔ ((b.s1 ≤ s ∧ (s : Int) < b.s2) ∧ (b.r1 ≤ r ∧ (r : Int) < b.r2) ∧ b.c1 ≤ c ∧ (c : Int) < b.c2) := fun _ _ _ => Iff.rfl
  have hon : ∀ s, a.On all s → b.s1 = s ∧ b.s2 = s + 1 := by
    rintro s ⟨⟨r, c, h⟩, h1⟩
    rw [hc, hin] at h
    have k1 := h1 b.s1.toNat r c ((hc _ _ _).2 ((hin _ _ _).2 (by omega)))
    have k2 := h1 (b.s2 - 1).toNat r c ((hc _ _ _).2 ((hin _ _ _).2 (by omega)))
    omega
  have hidx : ∀ s : Nat, (s : Int) < b.s2 → ∃ sh, sheets[s]? = some sh ∧ pyIndex sheets (s : Int) = .ok sh := by
    intro s h
    have hl : s < sheets.length := by omega
    exact ⟨sheets[s], List.getElem?_eq_getElem hl, pyIndex_nat (List.getElem?_eq_getElem hl)⟩
  have hopen : ∀ s : Nat, b.s1 = s → b.s2 = s + 1 → oneBox (boxRes b : Option (Opnd ν)) = .ok ((s : Int), b.r1, b.r2, b.c1, b.c2) := by
    intro s h1 h2
    rw [hone, if_pos (by omega), h1]
  refine ⟨?_, ?_, ?_, ?_, ?_, ?_⟩
  · rintro a' s ⟨⟩ h
    obtain ⟨h1, h2⟩ := hon s h
    obtain ⟨sh, -, hi⟩ := hidx s (by omega)
    refine ⟨b.r1, b.r2, b.c1, b.c2, ?_, fun r c => ?_⟩
    · unfold nameArea
      rw [hopen s h1 h2]
      dsimp only
      rw [hi]
      rfl
    · rw [hc, hin]
      omega
  · rintro a' s sh ⟨⟩ h hsh
    obtain ⟨h1, h2⟩ := hon s h
    refine ⟨min b.r1 sh.grid.nrows, max (min b.r1 sh.grid.nrows) (min b.r2 sh.grid.nrows), min b.c1 sh.grid.ncols,
      max (min b.c1 sh.grid.ncols) (min b.c2 sh.grid.ncols), ?_, by omega, by omega, fun r c hr hc' => ?_⟩
    · unfold nameArea
      rw [hopen s h1 h2]
      dsimp only
      rw [pyIndex_nat hsh]
      dsimp only
      rw [if_neg (by decide), if_pos (by omega)]
    · rw [hc, hin]
      omega
  · rintro a' s r c sh ⟨⟩ h hsh
    have h0 := (h s r c).2 ⟨rfl, rfl, rfl⟩
    rw [hc, hin] at h0
    have k : ∀ s' r' c' : Nat, ((b.s1 ≤ s' ∧ (s' : Int) < b.s2) ∧ (b.r1 ≤ r' ∧ (r' : Int) < b.r2) ∧ b.c1 ≤ c' ∧ (c' : Int) < b.c2) → s' = s ∧ r' = r ∧ c' = c :=
      fun s' r' c' h' => (h s' r' c').1 ((hc _ _ _).2 h')
    have k1 := k b.s1.toNat b.r1.toNat b.c1.toNat (by omega)
    have k2 := k (b.s2 - 1).toNat (b.r2 - 1).toNat (b.c2 - 1).toNat (by omega)
    unfold nameCell
    rw [hopen s (by omega) (by omega)]
    dsimp only
    rw [if_pos (by omega), pyIndex_nat hsh]
    dsimp only
    rw [show b.r1 = r by omega, show b.c1 = c by omega]
  · intro h
    unfold nameCell
    rw [hone]
    by_cases k : 0 ≤ b.s1 ∧ b.s1 = b.s2 - 1
    · rw [if_pos k]
      dsimp only
      rw [if_neg]
      intro k'
      refine h a b.s1.toNat b.r1.toNat b.c1.toNat rfl ?_
      intro s' r' c'
      rw [hc, hin]
      omega
    · rw [if_neg k]
  · intro h clipped
    obtain ⟨s, s', r, c, r', c', hne, h1, h2⟩ := h a rfl
    rw [hc, hin] at h1 h2
    unfold nameArea
    rw [hone, if_neg (by omega)]
  · rintro a' ⟨⟩ h clipped
    by_cases c : 0 ≤ b.s1 ∧ b.s1 = b.s2 - 1
    · have hno : ¬ (b.r1 < b.r2 ∧ b.c1 < b.c2) := fun k =>
        h b.s1.toNat b.r1.toNat b.c1.toNat ((hc _ _ _).2 ((hin _ _ _).2 (by omega)))
      obtain ⟨sh, -, hi⟩ := hidx b.s1.toNat (by omega)
      unfold nameArea
      rw [hone, if_pos c]
      dsimp only
      rw [show b.s1 = (b.s1.toNat : Int) by omega, hi]
      dsimp only
      cases clipped with
      | false => exact .inr ⟨_, _, _, _, _, rfl, hno⟩
      | true =>
        rw [if_neg (by decide), if_pos (by omega)]
        exact .inr ⟨_, _, _, _, _, rfl, by omega⟩
    · unfold nameArea
      rw [hone, if_neg c]
      exact .inl rfl

theorem result_areas {ν : Type} {N : NumEnv ν} {v8 : Bool} {bv : Nat} {text : Bytes → Except Exc (List Char)} {gs : List NameGroup}
    {all : List (List Char × Nat)} {j : Nat} {res : Option (Opnd ν)} (hbv : (bv < 80) = (v8 = false))
    (ht : ∀ g ∈ gs, ∀ b t, g.tx b = some t → text b = .ok t) (hr : ResultOf N bv text gs all j res) {as : List AreaExpr} (h : StandsFor v8 gs all j as) :
    res = some (.opnd oRef (.refs (as.map (areaRef all)))) := by
  obtain ⟨ds, o, hds, hx, h1, hj, ho, ha, hok⟩ := h
  obtain ⟨s, evals, e1, e2, rfl⟩ := hr
  obtain ⟨s', e, hs, hl⟩ := nameRecs_sound hbv ht hds (ds0 := []) hx h1 (xlsNamesInv_nil v8 [] .nil) (fun i hi => by simp [supKinds] at hi)
    (Nat.le_refl (groupRecs gs).length)
  rw [e1] at e
  cases e
  exact name_result hbv hs hl e2 hj ho ha hok

/-- C104: the cells that names stand for. -/
theorem C104_name_cells_partial : NamesGiveCells true := by
  intro ν N v8 bv text gs all sheets j res hbv ht hn hr
  refine ⟨fun as h => ?_, fun h => by cases h⟩
  rw [result_areas hbv ht hr h]
  obtain ⟨ds, o, -, -, -, -, -, ha, hok⟩ := h
  match as, hok with
  | [a], hok => exact cells_of_box hn (hok a (by simp))
  | [], hok => exact ⟨by simp, by simp, by simp, fun _ => rfl, fun _ _ => rfl, by simp⟩
  | a :: b :: as, hok => exact ⟨by simp, by simp, by simp, fun _ => rfl, fun _ _ => rfl, by simp⟩

/-- The exceptions of `area2d` for a result that is no box outside the sheets. -/
theorem area_exact {ν : Type} (sheets : List SheetView) (clipped : Bool) (res : Option (Opnd ν))
    (hb : ∀ l, res = some (.opnd oRef (.refs l)) → ∀ x ∈ l, ∃ b : Box6, x.coords = b.list ∧ b.s2 ≤ sheets.length ∧ 0 ≤ b.r1 ∧ 0 ≤ b.c1) :
    (∃ e, nameArea sheets clipped res = .error e ∧ e ≠ .xlrdError) ↔ res = some .four ∨ ∃ v, res = some (.opnd oRef v) ∧ ∀ l, v ≠ .refs l := by
  have hx : ¬ (∃ e, (Except.error .xlrdError : Except Exc (Int × Int × Int × Int × Int)) = .error e ∧ e ≠ .xlrdError) := by
    rintro ⟨e, ⟨⟩, h⟩
    exact h rfl
  match res, hb with
  | none, _ => exact ⟨fun h => absurd h hx, by simp⟩
  | some .four, _ => exact ⟨fun _ => .inl rfl, fun _ => ⟨_, rfl, by decide⟩⟩
  | some (.opnd k v), hb =>
    by_cases hk : k = oRef
    · subst hk
      match v, hb with
      | .none, _ => exact ⟨fun _ => .inr ⟨_, rfl, by simp⟩, fun _ => ⟨_, rfl, by decide⟩⟩
      | .num x, _ => exact ⟨fun _ => .inr ⟨_, rfl, by simp⟩, fun _ => ⟨_, rfl, by decide⟩⟩
      | .text t, _ => exact ⟨fun _ => .inr ⟨_, rfl, by simp⟩, fun _ => ⟨_, rfl, by decide⟩⟩
      | .refs [], _ => exact ⟨fun h => absurd h hx, by simp⟩
      | .refs (x :: y :: l), _ =>
        have : oneBox (some (.opnd oRef (.refs (x :: y :: l))) : Option (Opnd ν)) = .error .xlrdError := by simp [oneBox]
        refine ⟨fun h => absurd h ?_, by simp⟩
        unfold nameArea
        rw [this]
        exact hx
      | .refs [⟨coords, rel⟩], hb =>
        obtain ⟨b, hc, h2, h3, h4⟩ := hb _ rfl ⟨coords, rel⟩ (by simp)
        dsimp only at hc
        subst hc
        refine ⟨fun h => ?_, by simp⟩
        obtain ⟨e, he, hne⟩ := h
        exfalso
        have hone : oneBox (some (.opnd oRef (.refs [⟨b.list, rel⟩])) : Option (Opnd ν)) =
            if 0 ≤ b.s1 ∧ b.s1 = b.s2 - 1 then .ok (b.s1, b.r1, b.r2, b.c1, b.c2) else .error .xlrdError := rfl
        unfold nameArea at he
        rw [hone] at he
        by_cases c : 0 ≤ b.s1 ∧ b.s1 = b.s2 - 1
        · have hl : b.s1.toNat < sheets.length := by omega
          rw [if_pos c] at he
          dsimp only at he
          rw [show b.s1 = (b.s1.toNat : Int) by omega, pyIndex_nat (List.getElem?_eq_getElem hl)] at he
          dsimp only at he
          cases clipped with
          | false => cases he
          | true =>
            rw [if_neg (by decide), if_pos (by omega)] at he
            cases he
        · rw [if_neg c] at he
          cases he
          exact hne rfl
    · have : nameArea sheets clipped (some (.opnd k v)) = .error .xlrdError := by
        unfold nameArea oneBox
        dsimp only
        rw [if_neg hk]
      rw [this]
      refine ⟨fun h => absurd h hx, ?_⟩
      rintro (h | ⟨v', h, -⟩)
      · cases h
      · cases h
        exact absurd rfl hk

/-- A result that is a reference that was not worked out, or the number that a range with an error leaves. -/
def NotWorkedOut {ν : Type} (res : Option (Opnd ν)) : Prop := res = some .four ∨ ∃ v, res = some (.opnd oRef v) ∧ ∀ l, v ≠ .refs l

theorem oneBox_not {ν : Type} {res : Option (Opnd ν)} (h : NotWorkedOut res) : ∃ e, oneBox res = .error e ∧ e ≠ .xlrdError := by
  rcases h with rfl | ⟨v, rfl, h⟩
  · exact ⟨_, rfl, by decide⟩
  · cases v with
    | refs l => exact absurd rfl (h l)
    | _ => exact ⟨_, rfl, by decide⟩

/-- C104: for all records, sheets and formulas, whatever their bytes: `area2d` has an exception other than XLRDError exactly if the result
of the name is a reference that was not worked out, or the number that a range with an error leaves; so has `cell`, but for the
exceptions of `Sheet.cell` for a cell of a sheet that is there. -/
theorem C104_exact {ν : Type} (N : NumEnv ν) (bv : Nat) (text : Bytes → Except Exc (List Char)) (s : NameSt) (all : List (List Char × Nat)) (evals : Evals ν)
    (h : namesEvaluated N bv text s all = .ok evals) (sheets : List SheetView) (hn : sheets.length = (all.filter fun p => p.2 = 0).length) (j : Nat) :
    (∀ clipped, (∃ e, nameArea sheets clipped (nameResult evals j) = .error e ∧ e ≠ .xlrdError) ↔ NotWorkedOut (nameResult evals j)) ∧
    (NotWorkedOut (nameResult evals j) → ∃ e, nameCell sheets (nameResult evals j) = .error e ∧ e ≠ .xlrdError) ∧
    (¬ NotWorkedOut (nameResult evals j) → nameCell sheets (nameResult evals j) = .error .xlrdError ∨
      ∃ (k r c : Nat) (sh : SheetView), sheets[k]? = some sh ∧ nameCell sheets (nameResult evals j) = sh.cell r c) := by
  have hb : ∀ l, nameResult evals j = some (.opnd oRef (.refs l)) → ∀ x ∈ l, ∃ b : Box6, x.coords = b.list ∧ b.s2 ≤ sheets.length ∧ 0 ≤ b.r1 ∧ 0 ≤ b.c1 := by
    intro l hl x hx
    rw [hn]
    exact result_good h hl rfl x hx
  refine ⟨fun clipped => area_exact sheets clipped _ hb, fun hw => ?_, fun hw => ?_⟩
  · obtain ⟨e, he, hne⟩ := oneBox_not hw
    refine ⟨e, ?_, hne⟩
    unfold nameCell
    rw [he]
  · generalize nameResult evals j = res at *
    match res, hb, hw with
    | none, _, _ => exact .inl rfl
    | some .four, _, hw => exact absurd (.inl rfl) hw
    | some (.opnd k v), hb, hw =>
      by_cases hk : k = oRef
      · subst hk
        match v, hb, hw with
        | .none, _, hw => exact absurd (.inr ⟨_, rfl, by simp⟩) hw
        | .num x, _, hw => exact absurd (.inr ⟨_, rfl, by simp⟩) hw
        | .text t, _, hw => exact absurd (.inr ⟨_, rfl, by simp⟩) hw
        | .refs [], _, _ => exact .inl rfl
        | .refs (x :: y :: l), _, _ => exact .inl (by simp [nameCell, oneBox])
        | .refs [⟨coords, rel⟩], hb, _ =>
          obtain ⟨b, hc, h2, h3, h4⟩ := hb _ rfl ⟨coords, rel⟩ (by simp)
          dsimp only at hc
          subst hc
          have hone : oneBox (some (.opnd oRef (.refs [⟨b.list, rel⟩])) : Option (Opnd ν)) =
              if 0 ≤ b.s1 ∧ b.s1 = b.s2 - 1 then .ok (b.s1, b.r1, b.r2, b.c1, b.c2) else .error .xlrdError := rfl
          unfold nameCell
          rw [hone]
          by_cases c : 0 ≤ b.s1 ∧ b.s1 = b.s2 - 1
          · rw [if_pos c]
            dsimp only
            by_cases c' : b.r1 = b.r2 - 1 ∧ b.c1 = b.c2 - 1
            · rw [if_pos c']
              have hl : b.s1.toNat < sheets.length := by omega
              refine .inr ⟨b.s1.toNat, b.r1.toNat, b.c1.toNat, sheets[b.s1.toNat], List.getElem?_eq_getElem hl, ?_⟩
              rw [show pyIndex sheets b.s1 = .ok sheets[b.s1.toNat] by
                have := pyIndex_nat (List.getElem?_eq_getElem hl)
                rwa [show ((b.s1.toNat : Nat) : Int) = b.s1 by omega] at this]
              dsimp only
              rw [show ((b.r1.toNat : Nat) : Int) = b.r1 by omega, show ((b.c1.toNat : Nat) : Int) = b.c1 by omega]
            · rw [if_neg c']
              exact .inl rfl
          · rw [if_neg c]
            exact .inl rfl
      · left
        unfold nameCell oneBox
        dsimp only
        rw [if_neg hk]

/-! ### Examples -/

/-- A book with one sheet: the SUPBOOK record for the book itself, the reference to its sheet, and a name. -/
def exCellGroups (f : List UInt8) : List NameGroup :=
  [⟨fun _ => none, (0x1AE, leBytes 2 1 ++ [1, 4] ++ []), []⟩, ⟨fun _ => none, (0x17, leBytes 2 1 ++ xtiBytes [(0, 0, 0)]), []⟩, ⟨fun _ => none, exNameRec f, []⟩]

theorem exCell_groups {f : List UInt8} (hf : f.length < 65536) :
    Each (NameGroupIs true) (exCellGroups f) [.supbook .own, .sheets [(0, 0, 0)], .name ⟨false, 0, f⟩] :=
  .cons (.own rfl (by omega)) (.cons (.sheets (conts := []) (more := []) rfl (by decide) (by decide) (by decide) (by decide) (by simp))
    (.cons (exNameRec_is _ f hf) .nil))

/-- `=S!$A$1:$B$3 S!$B$2` -/
def exCellFmla : List UInt8 :=
  (0x3B :: (leBytes 2 0 ++ (leBytes 2 0 ++ leBytes 2 2 ++ leBytes 2 0 ++ leBytes 2 1))) ++ ((0x3A :: (leBytes 2 0 ++ (leBytes 2 1 ++ leBytes 2 1))) ++ [0x0F])

def exCellArea : AreaExpr := .both (.box 0 0 0 2 0 1) (.box 0 0 1 1 1 1)

theorem exCell_stands : StandsFor true (exCellGroups exCellFmla) [(['S'], 0)] 0 [exCellArea] := by
  refine ⟨[.supbook .own, .sheets [(0, 0, 0)], .name ⟨false, 0, exCellFmla⟩], ⟨false, 0, exCellFmla⟩, exCell_groups (by decide), ?_, ?_, rfl, rfl, ?_, ?_⟩
  · intro a b h _
    have : (NameRec.externName) ∈ [NameRec.supbook .own, .sheets [(0, 0, 0)], .name ⟨false, 0, exCellFmla⟩] := by rw [h]; simp
    simp at this
  · intro i k hi hk
    have : ∀ i : Nat, (supKinds [NameRec.supbook .own, .sheets [(0, 0, 0)], .name ⟨false, 0, exCellFmla⟩])[i]? = some .own → i = 0 := by
      intro i hi
      match i, hi with
      | 0, _ => rfl
      | i + 1, hi => simp [supKinds] at hi
    rw [this i hi, this k hk]
  · have hsh : SheetBytes true [NameRec.supbook .own, .sheets [(0, 0, 0)], .name ⟨false, 0, exCellFmla⟩] 0 0 (leBytes 2 0) :=
      .xti (k := 0) rfl (by decide) rfl rfl (by decide)
    exact .one (.both (.area hsh (by unfold RowsCols; decide) (by unfold RowsCols; decide)) (.cell hsh (by unfold RowsCols; decide)))
  · intro a ha
    rw [List.mem_singleton] at ha
    subst ha
    exact ⟨⟨by decide, ⟨_, rfl⟩, ⟨_, rfl⟩, by decide, by decide⟩, by decide, ⟨_, rfl⟩, ⟨_, rfl⟩, by decide, by decide⟩

theorem exCell_result : ∃ res, ResultOf (pyNum exPyOps) 80 (fun _ => .error .unicodeError) (exCellGroups exCellFmla) [(['S'], 0)] 0 res :=
  ⟨_, _, _, rfl, rfl, rfl⟩

theorem exCell_single : exCellArea.Single [(['S'], 0)] 0 1 1 := by
  intro s r c
  have h : ∀ s : Nat, (∃ k, 0 ≤ k ∧ k ≤ 0 ∧ WorkSheetAt [(['S'], 0)] k s) ↔ s = 0 := by
    intro s
    constructor
    · rintro ⟨k, -, hk, -, h⟩
      rw [Nat.le_zero.1 hk] at h
      exact h.symm
    · rintro rfl
      exact ⟨0, Nat.le_refl _, Nat.le_refl _, ⟨_, rfl⟩, rfl⟩
  simp only [exCellArea, AreaExpr.cells, h]
  omega

/-- The name of the example gives the cell of the sheet. -/
example (sh : SheetView) : ∃ res, ResultOf (pyNum exPyOps) 80 (fun _ => .error .unicodeError) (exCellGroups exCellFmla) [(['S'], 0)] 0 res ∧
    nameCell [sh] res = sh.cell 1 1 := by
  obtain ⟨res, h⟩ := exCell_result
  refine ⟨res, h, ?_⟩
  have := (C104_name_cells_partial _ _ true 80 _ _ _ [sh] 0 res (by simp) (fun g hg b t ht => by
    simp only [exCellGroups, List.mem_cons, List.not_mem_nil, or_false] at hg
    rcases hg with rfl | rfl | rfl <;> cases ht) rfl h).1 _ exCell_stands
  exact this.cell _ _ _ _ sh rfl exCell_single rfl

/-- The name of the example has a result that is worked out. -/
example (sh : SheetView) (clipped : Bool) : ∃ s evals, namesEvaluated (pyNum exPyOps) 80 (fun _ => .error .unicodeError) s [(['S'], 0)] = .ok evals ∧
    ¬ NotWorkedOut (nameResult evals 0) ∧ ¬ ∃ e, nameArea [sh] clipped (nameResult evals 0) = .error e ∧ e ≠ .xlrdError := by
  obtain ⟨res, s, evals, h1, h2, h3⟩ := exCell_result
  have hr : ¬ NotWorkedOut (nameResult evals 0) := by
    rw [← h3, result_areas (by simp) (fun g hg b t ht => by
      simp only [exCellGroups, List.mem_cons, List.not_mem_nil, or_false] at hg
      rcases hg with rfl | rfl | rfl <;> cases ht) ⟨s, evals, h1, h2, h3⟩ exCell_stands]
    rintro (h | ⟨v, h, hv⟩)
    · cases h
    · cases h
      exact hv _ rfl
  exact ⟨s, evals, h2, hr, fun h => hr (((C104_exact _ _ _ _ _ _ h2 [sh] rfl 0).1 clipped).1 h)⟩

/-- `=S!$A$1:OFFSET(S!$A$1,1,0)` -/
def exOffsetFmla : List UInt8 :=
  [0x3A, 0, 0, 0, 0, 0, 0, 0x3A, 0, 0, 0, 0, 0, 0, 0x1E, 1, 0, 0x1E, 0, 0, 0x22, 3, 0x4E, 0, 0x11]

/-- `=S!$A$1:#REF!` -/
def exErrorFmla : List UInt8 := [0x3A, 0, 0, 0, 0, 0, 0, 0x1C, 0x17, 0x11]

/-- C104: a range up to a cell that a function gives, and a range with an error. -/
theorem C104_wrong_exceptions (sh : SheetView) (clipped : Bool) :
    (∃ res, ResultOf (pyNum exPyOps) 80 (fun _ => .error .unicodeError) (exCellGroups exOffsetFmla) [(['S'], 0)] 0 res ∧
      nameArea [sh] clipped res = .error .typeError ∧ nameCell [sh] res = .error .typeError) ∧
    ∃ res, ResultOf (pyNum exPyOps) 80 (fun _ => .error .unicodeError) (exCellGroups exErrorFmla) [(['S'], 0)] 0 res ∧
      nameArea [sh] clipped res = .error .attributeError ∧ nameCell [sh] res = .error .attributeError :=
  ⟨⟨_, ⟨_, _, rfl, rfl, rfl⟩, rfl, rfl⟩, ⟨_, ⟨_, _, rfl, rfl, rfl⟩, rfl, rfl⟩⟩

theorem C104_counterexample : ¬ NamesGiveCells false := by
  intro h
  obtain ⟨⟨res, hr, ha, -⟩, -⟩ := C104_wrong_exceptions ⟨⟨0, 0, -1, [], [], [], false, false, 0, 0, []⟩, [], []⟩ true
  have := (h _ _ true 80 _ _ _ [_] 0 res (by simp) (fun g hg b t ht => by
    simp only [exCellGroups, List.mem_cons, List.not_mem_nil, or_false] at hg
    rcases hg with rfl | rfl | rfl <;> cases ht) rfl hr).2 rfl true _ ha
  cases this

end CP
