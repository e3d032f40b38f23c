import Verif.Lemmas.RangeName
import Verif.Lemmas.Invariant
import Verif.Props.ReadXl
/-!
# C105: names of references
-/

namespace CP
open CP.Spec

theorem colnameI_nat {c : Nat} (h : c < 702) : ∃ s, colnameI (c : Int) = .ok s ∧ ColName s ∧ letterValue s = c + 1 := by
  obtain ⟨h1, h2⟩ := colname_spec c
  refine ⟨colname c, ?_, h1, h2⟩
  unfold colnameI
  rw [if_neg (by omega), Int.toNat_natCast, formulaColname_spec, if_pos h]

theorem decInt_succ (r : Nat) : decInt ((r : Int) + 1) = Nat.toDigits 10 (r + 1) := by
  rw [decInt_text, show (r : Int) + 1 = ((r + 1 : Nat) : Int) by omega, intText_nat]

theorem cellNameAbs_a1 {r c : Nat} (h : c < 702) : ∃ t, cellNameAbs (r : Int) (c : Int) false = .ok t ∧ A1Cell true true r c t := by
  obtain ⟨s, e, hs, hv⟩ := colnameI_nat h
  refine ⟨'$' :: s ++ '$' :: decInt ((r : Int) + 1), ?_, s, hs, hv, ?_⟩
  · unfold cellNameAbs
    rw [if_neg (by decide), e]
    rfl
  · rw [decInt_succ]
    simp

theorem quotedSheetName_word {names : List (List Char)} {s : Nat} {n : List Char} (h : names[s]? = some n) :
    ∃ t, quotedSheetName names (s : Int) = .ok t ∧ SheetWord n t := by
  unfold quotedSheetName
  dsimp only
  rw [if_pos (by omega), pyIndex_nat h]
  dsimp only
  by_cases c1 : '\'' ∈ n
  · rw [if_pos c1]
    exact ⟨_, rfl, .inr rfl⟩
  rw [if_neg c1]
  by_cases c2 : ' ' ∈ n
  · rw [if_pos c2]
    refine ⟨_, rfl, .inr ?_⟩
    show _ = '\'' :: doubled n ++ ['\'']
    rw [doubled_self c1]
  · rw [if_neg c2]
    exact ⟨_, rfl, .inl ⟨rfl, c1, c2⟩⟩

theorem sheetRange_text {names : List (List Char)} {s1 s2 : Nat} (h1 : s1 ≤ s2) (h2 : s2 < names.length) :
    ∃ t, sheetRange names (s1 : Int) ((s2 : Int) + 1) = .ok t ∧ SheetsText names s1 s2 t := by
  have e1 : names[s1]? = some names[s1] := List.getElem?_eq_getElem (by omega)
  have e2 : names[s2]? = some names[s2] := List.getElem?_eq_getElem h2
  obtain ⟨w, hw, hw1⟩ := quotedSheetName_word e1
  obtain ⟨w', hw', hw1'⟩ := quotedSheetName_word e2
  unfold sheetRange SheetsText
  rw [hw]
  dsimp only
  by_cases c : s1 = s2
  · rw [if_neg (by omega)]
    refine ⟨w, rfl, ?_⟩
    rw [if_pos c]
    exact ⟨_, e1, hw1⟩
  · rw [if_pos (by omega), show ((s2 : Int) + 1 - 1) = (s2 : Int) by omega, hw']
    refine ⟨w ++ ':' :: w', rfl, ?_⟩
    rw [if_neg c]
    exact ⟨_, _, w, w', e1, e2, hw1, hw1', rfl⟩

/-- C105 for fixed references: `rangename3d` names sheets and cells, and a name is that of one area only.  (Sheet names have no colon, and
are distinct; columns go up to ZZ.) -/
theorem C105_areas (names : List (List Char)) :
    (∀ s1 s2 r1 r2 c1 c2 : Nat, s1 ≤ s2 → s2 < names.length → r1 ≤ r2 → c1 ≤ c2 → c2 < 702 →
      ∃ t, rangeName3d names s1 ((s2 : Int) + 1) r1 ((r2 : Int) + 1) c1 ((c2 : Int) + 1) = .ok t ∧ SheetAreaText names s1 s2 r1 r2 c1 c2 t) ∧
    (names.Nodup → (∀ n ∈ names, ':' ∉ n) → ∀ (s1 s2 r1 r2 c1 c2 s1' s2' r1' r2' c1' c2' : Nat) (t : List Char),
      SheetAreaText names s1 s2 r1 r2 c1 c2 t → SheetAreaText names s1' s2' r1' r2' c1' c2' t →
        s1 = s1' ∧ s2 = s2' ∧ r1 = r1' ∧ r2 = r2' ∧ c1 = c1' ∧ c2 = c2') := by
  refine ⟨?_, fun h1 h2 s1 s2 r1 r2 c1 c2 s1' s2' r1' r2' c1' c2' t => sheetArea_unique h1 h2⟩
  intro s1 s2 r1 r2 c1 c2 hs hn hr hc h702
  obtain ⟨a, ha, ha1⟩ := sheetRange_text hs hn
  obtain ⟨x, hx, hx1⟩ := cellNameAbs_a1 (r := r1) (c := c1) (by omega)
  obtain ⟨y, hy, hy1⟩ := cellNameAbs_a1 (r := r2) (c := c2) h702
  have hb : ∃ b, rangeName2d r1 ((r2 : Int) + 1) c1 ((c2 : Int) + 1) = .ok b ∧ AreaText r1 r2 c1 c2 b := by
    unfold rangeName2d AreaText
    by_cases c : r1 = r2 ∧ c1 = c2
    · rw [if_pos (by omega)]
      refine ⟨x, hx, ?_⟩
      rw [if_pos c]
      exact hx1
    · rw [if_neg (by omega), hx]
      dsimp only
      rw [show ((r2 : Int) + 1 - 1) = (r2 : Int) by omega, show ((c2 : Int) + 1 - 1) = (c2 : Int) by omega, hy]
      refine ⟨x ++ ':' :: y, rfl, ?_⟩
      rw [if_neg c]
      exact ⟨x, y, hx1, hy1, rfl⟩
  obtain ⟨b, hb, hb1⟩ := hb
  refine ⟨a ++ '!' :: b, ?_, a, b, ha1, hb1, rfl⟩
  unfold rangeName3d
  rw [ha]
  dsimp only
  rw [hb]
  rfl

/-! ### Relative references -/

/-- The style with numbers: asked for, or needed as there is nothing that a relative part is relative to. -/
def Numbered (rowrel colrel : Bool) (browx bcolx : Option Int) (r1c1 : Bool) : Prop :=
  r1c1 = true ∨ (rowrel = true ∧ browx = none) ∨ (colrel = true ∧ bcolx = none)

/-- The text for a cell: in the style with numbers, or in the other one for the cell that is meant. -/
def CellText (numbered : Prop) (rowx colx : Int) (rowrel colrel : Bool) (browx bcolx : Option Int) (t : List Char) : Prop :=
  (numbered → t = NumberedCell rowrel colrel rowx colx) ∧
  (¬ numbered → A1Cell (!rowrel) (!colrel) (meant rowrel (browx.getD 0) rowx 65536) (meant colrel (bcolx.getD 0) colx 256) t)

/-- Fixed rows and columns are in the sheet. -/
def InSheet (rowx colx : Int) (rowrel colrel : Bool) : Prop := (rowrel = false → 0 ≤ rowx) ∧ (colrel = false → 0 ≤ colx ∧ colx < 702)

/-- C105 for cells as it ought to be (`whole := false`): each has its name.  `whole := true`: the base, if it is given, is given as row and
column. -/
def CellsHaveNames (whole : Bool) : Prop :=
  ∀ (rowx colx : Int) (rowrel colrel : Bool) (browx bcolx : Option Int) (r1c1 : Bool), InSheet rowx colx rowrel colrel →
    (whole = true → (browx = none ↔ bcolx = none)) →
    ∃ t, cellNameRel rowx colx rowrel colrel browx bcolx r1c1 = .ok t ∧ CellText (Numbered rowrel colrel browx bcolx r1c1) rowx colx rowrel colrel browx bcolx t

theorem rowName_numbered (rowx : Int) (rowrel : Bool) (browx : Option Int) : rowNameRel rowx rowrel browx true = NumberedPart 'R' rowrel rowx := by
  unfold rowNameRel NumberedPart
  simp only [ite_self, if_true, decInt_text]
  cases rowrel <;> by_cases h : rowx = 0 <;> simp [h]

theorem colName_numbered (colx : Int) (colrel : Bool) (bcolx : Option Int) : colNameRel colx colrel bcolx true = .ok (NumberedPart 'C' colrel colx) := by
  unfold colNameRel NumberedPart
  simp only [ite_self, if_true, decInt_text]
  cases colrel <;> by_cases h : colx = 0 <;> simp [h]

theorem rowName_a1 {rowx : Int} {rowrel : Bool} {b : Int} (h : rowrel = false → 0 ≤ rowx) :
    rowNameRel rowx rowrel (some b) false = (if !rowrel then ['$'] else []) ++ Nat.toDigits 10 (meant rowrel b rowx 65536 + 1) := by
  unfold rowNameRel meant
  cases rowrel with
  | false =>
    have h := h rfl
    simp
    rw [show rowx + 1 = ((rowx.toNat : Nat) : Int) + 1 by omega, decInt_succ]
  | true =>
    simp
    rw [show (b + rowx) % 65536 + 1 = ((((b + rowx) % 65536).toNat : Nat) : Int) + 1 by omega, decInt_succ]

theorem colName_a1 {colx : Int} {colrel : Bool} {b : Int} (h : colrel = false → 0 ≤ colx ∧ colx < 702) :
    ∃ s, colNameRel colx colrel (some b) false = .ok ((if !colrel then ['$'] else []) ++ s) ∧ ColName s ∧ letterValue s = meant colrel b colx 256 + 1 := by
  unfold colNameRel meant
  cases colrel with
  | false =>
    have h := h rfl
    obtain ⟨s, e, hs, hv⟩ := colnameI_nat (c := colx.toNat) (by omega)
    rw [show ((colx.toNat : Nat) : Int) = colx by omega] at e
    refine ⟨s, ?_, hs, by simpa using hv⟩
    simp [e, Except.map]
  | true =>
    obtain ⟨s, e, hs, hv⟩ := colnameI_nat (c := ((b + colx) % 256).toNat) (by omega)
    rw [show ((((b + colx) % 256).toNat : Nat) : Int) = (b + colx) % 256 by omega] at e
    refine ⟨s, ?_, hs, by simpa using hv⟩
    simp [e]

theorem cellName_numbered {rowx colx : Int} {rowrel colrel : Bool} {browx bcolx : Option Int} {r1c1 : Bool}
    (hn : Numbered rowrel colrel browx bcolx r1c1) : cellNameRel rowx colx rowrel colrel browx bcolx r1c1 = .ok (NumberedCell rowrel colrel rowx colx) := by
  unfold cellNameRel
  by_cases c : rowrel = false ∧ colrel = false
  · rw [if_pos c]
    obtain ⟨rfl, rfl⟩ := c
    rcases hn with rfl | ⟨h, -⟩ | ⟨h, -⟩
    · simp [cellNameAbs, NumberedCell, NumberedPart, decInt_text]
    · cases h
    · cases h
  · rw [if_neg c]
    dsimp only
    have hr : (if (rowrel = true ∧ browx = none) ∨ (colrel = true ∧ bcolx = none) then true else r1c1) = true := by
      split
      · rfl
      · rename_i k
        rcases hn with h | h | h
        · exact h
        · exact absurd (.inl h) k
        · exact absurd (.inr h) k
    rw [hr, colName_numbered, rowName_numbered]
    rfl

theorem cellName_a1 {rowx colx : Int} {rowrel colrel : Bool} {browx bcolx : Option Int} (hi : InSheet rowx colx rowrel colrel)
    (hb : rowrel = true ∨ colrel = true → browx ≠ none ∧ bcolx ≠ none) :
    ∃ t, cellNameRel rowx colx rowrel colrel browx bcolx false = .ok t ∧
      A1Cell (!rowrel) (!colrel) (meant rowrel (browx.getD 0) rowx 65536) (meant colrel (bcolx.getD 0) colx 256) t := by
  unfold cellNameRel
  by_cases c : rowrel = false ∧ colrel = false
  · rw [if_pos c]
    obtain ⟨rfl, rfl⟩ := c
    have h1 := hi.1 rfl
    have h2 := hi.2 rfl
    obtain ⟨t, ht, ha⟩ := cellNameAbs_a1 (r := rowx.toNat) (c := colx.toNat) (by omega)
    rw [show ((rowx.toNat : Nat) : Int) = rowx by omega, show ((colx.toNat : Nat) : Int) = colx by omega] at ht
    exact ⟨t, ht, ha⟩
  · rw [if_neg c]
    have hb := hb (by cases rowrel <;> cases colrel <;> simp_all)
    obtain ⟨br, rfl⟩ := Option.ne_none_iff_exists'.1 hb.1
    obtain ⟨bc, rfl⟩ := Option.ne_none_iff_exists'.1 hb.2
    obtain ⟨s, e, hs, hv⟩ := colName_a1 (b := bc) hi.2
    dsimp only
    rw [if_neg (by simp), e]
    dsimp only
    rw [rowName_a1 hi.1]
    refine ⟨_, rfl, s, hs, hv, ?_⟩
    simp

/-- C105 for cells: with a base given in full, or none. -/
theorem C105_cells_partial : CellsHaveNames true := by
  intro rowx colx rowrel colrel browx bcolx r1c1 hi hb
  by_cases hn : Numbered rowrel colrel browx bcolx r1c1
  · exact ⟨_, cellName_numbered hn, fun _ => rfl, fun h => absurd hn h⟩
  · have hr : r1c1 = false := by
      cases r1c1 with
      | false => rfl
      | true => exact absurd (.inl rfl) hn
    subst hr
    obtain ⟨t, ht, ha⟩ := cellName_a1 hi (fun h => by
      have hb := hb rfl
      rcases h with h | h
      · have : browx ≠ none := fun k => hn (.inr (.inl ⟨h, k⟩))
        exact ⟨this, fun k => this (hb.2 k)⟩
      · have : bcolx ≠ none := fun k => hn (.inr (.inr ⟨h, k⟩))
        exact ⟨fun k => this (hb.1 k), this⟩)
    exact ⟨t, ht, fun h => absurd h hn, fun _ => ha⟩

/-- C105: exactly which cells have their names: those in the style with numbers, and in the other one those with no relative part or a
base given in full. -/
theorem C105_exact (rowx colx : Int) (rowrel colrel : Bool) (browx bcolx : Option Int) (r1c1 : Bool) (hi : InSheet rowx colx rowrel colrel) :
    (∃ t, cellNameRel rowx colx rowrel colrel browx bcolx r1c1 = .ok t ∧
      CellText (Numbered rowrel colrel browx bcolx r1c1) rowx colx rowrel colrel browx bcolx t) ↔
    (Numbered rowrel colrel browx bcolx r1c1 ∨ (rowrel = true ∨ colrel = true → browx ≠ none ∧ bcolx ≠ none)) := by
  constructor
  · rintro ⟨t, ht, ⟨-, ha⟩⟩
    by_cases hn : Numbered rowrel colrel browx bcolx r1c1
    · exact .inl hn
    refine .inr fun hrel => ?_
    replace ha := ha hn
    have hr : r1c1 = false := by
      cases r1c1 with
      | false => rfl
      | true => exact absurd (.inl rfl) hn
    subst hr
    have hdig : ∀ n : Nat, '$' ∉ Nat.toDigits 10 n := fun n => not_digit (by decide)
    have hint : ∀ i : Int, '$' ∉ decInt i := by
      intro i hx
      rw [decInt_text] at hx
      have := intText_chars hx
      revert this
      decide
    -- a fixed part has a dollar sign
    have hd : ∀ (x : Bool), (rowrel = false ∨ colrel = false) → '$' ∈ t := by
      intro _ h
      obtain ⟨s, -, -, rfl⟩ := ha
      rcases h with rfl | rfl <;> simp
    by_cases h1 : rowrel = true
    · have hb1 : browx ≠ none := fun k => hn (.inr (.inl ⟨h1, k⟩))
      refine ⟨hb1, fun hb2 => ?_⟩
      by_cases h2 : colrel = true
      · exact hn (.inr (.inr ⟨h2, hb2⟩))
      · have h2 : colrel = false := by simpa using h2
        subst h1 h2 hb2
        obtain ⟨br, rfl⟩ := Option.ne_none_iff_exists'.1 hb1
        have := hd true (.inr rfl)
        simp [cellNameRel, colNameRel, rowNameRel] at ht
        subst ht
        simp at this
        rcases this with h | h
        · exact hint _ h
        · exact hint _ h
    · have h1 : rowrel = false := by simpa using h1
      have h2 : colrel = true := by
        rcases hrel with h | h
        · rw [h1] at h; cases h
        · exact h
      have hb2 : bcolx ≠ none := fun k => hn (.inr (.inr ⟨h2, k⟩))
      refine ⟨fun hb1 => ?_, hb2⟩
      subst h1 h2 hb1
      obtain ⟨bc, rfl⟩ := Option.ne_none_iff_exists'.1 hb2
      obtain ⟨s, e, hs, -⟩ := colName_a1 (colx := colx) (colrel := true) (b := bc) (fun h => by cases h)
      have := hd true (.inl rfl)
      simp [cellNameRel, rowNameRel] at ht
      rw [e] at ht
      simp at ht
      subst ht
      simp at this
      rcases this with h | h
      · have := hs.2 _ h
        unfold UpperLetter at this
        revert this
        decide
      · exact hint _ h
  · rintro (h | h)
    · exact ⟨_, cellName_numbered h, fun _ => rfl, fun k => absurd h k⟩
    · by_cases hn : Numbered rowrel colrel browx bcolx r1c1
      · exact ⟨_, cellName_numbered hn, fun _ => rfl, fun k => absurd hn k⟩
      · have hr : r1c1 = false := by
          cases r1c1 with
          | false => rfl
          | true => exact absurd (.inl rfl) hn
        subst hr
        obtain ⟨t, ht, ha⟩ := cellName_a1 hi h
        exact ⟨t, ht, fun k => absurd k hn, fun _ => ha⟩

/-- C105: names are those of one cell only, in either style. -/
theorem C105_distinct (ra ca ra' ca' : Bool) :
    (∀ (r c r' c' : Nat) (t : List Char), A1Cell ra ca r c t → A1Cell ra' ca' r' c' t → ra = ra' ∧ ca = ca' ∧ r = r' ∧ c = c') ∧
    (∀ r c r' c' : Int, (ra = false → 0 ≤ r) → (ca = false → 0 ≤ c) → (ra' = false → 0 ≤ r') → (ca' = false → 0 ≤ c') →
      NumberedCell ra ca r c = NumberedCell ra' ca' r' c' → ra = ra' ∧ ca = ca' ∧ r = r' ∧ c = c') :=
  ⟨fun _ _ _ _ _ h h' => a1Cell_unique h h', fun _ _ _ _ h1 h2 h1' h2' e => numberedCell_unique h1 h2 h1' h2' e⟩

/-- C105: without the row of the base, the cell in row 5 that is one column right of column C is named `DR5`; without its column, the one in
column B that is in the same row as row 6 is named `C26`: both are names of other cells. -/
theorem C105_wrong_cells :
    cellNameRel 4 1 false true none (some 2) false = .ok "DR5".toList ∧ A1Cell false false 4 121 "DR5".toList ∧
    cellNameRel 0 1 true false (some 5) none false = .ok "C26".toList ∧ A1Cell false false 25 2 "C26".toList := by
  refine ⟨by decide +kernel, ⟨"DR".toList, ⟨by decide, ?_⟩, rfl, rfl⟩, by decide +kernel, ⟨"C".toList, ⟨by decide, ?_⟩, rfl, rfl⟩⟩
  · unfold UpperLetter
    decide
  · unfold UpperLetter
    decide

theorem C105_counterexample : ¬ CellsHaveNames false := by
  intro h
  have h := h 4 1 false true none (some 2) false ⟨fun _ => by decide, fun h => by cases h⟩ (fun h => by cases h)
  have := (C105_exact 4 1 false true none (some 2) false ⟨fun _ => by decide, fun h => by cases h⟩).1 h
  rcases this with (h | ⟨h, -⟩ | ⟨-, h⟩) | h
  · cases h
  · cases h
  · cases h
  · exact (h (.inr rfl)).1 rfl

/-- The style of both cells of a range. -/
def NumberedRange (ref : RelRef) (browx bcolx : Option Int) (r1c1 : Bool) : Prop :=
  r1c1 = true ∨ ((ref.rlorel = true ∨ ref.rhirel = true) ∧ browx = none) ∨ ((ref.clorel = true ∨ ref.chirel = true) ∧ bcolx = none)

/-- C105 for ranges: `rangename3drel` names the two corners in one style, after the sheets (if they are not those of the cell itself), if
the base is given in full or not at all. -/
theorem C105_ranges_partial (names : List (List Char)) (ref : RelRef) (browx bcolx : Option Int) (r1c1 : Bool) (hb : browx = none ↔ bcolx = none)
    (h1 : InSheet ref.rlo ref.clo ref.rlorel ref.clorel) (h2 : InSheet (ref.rhi - 1) (ref.chi - 1) ref.rhirel ref.chirel) :
    ∃ a b, CellText (NumberedRange ref browx bcolx r1c1) ref.rlo ref.clo ref.rlorel ref.clorel browx bcolx a ∧
      CellText (NumberedRange ref browx bcolx r1c1) (ref.rhi - 1) (ref.chi - 1) ref.rhirel ref.chirel browx bcolx b ∧
      (ref.slorel = true → ref.shirel = true → ref.slo = 0 → ref.shi = 1 → rangeName3dRel names ref browx bcolx r1c1 = .ok (a ++ ':' :: b)) ∧
      (∀ s1 s2 : Nat, ref.slorel = false → ref.shirel = false → ref.slo = s1 → ref.shi = (s2 : Int) + 1 → s1 ≤ s2 → s2 < names.length →
        (∀ n ∈ names, n ≠ []) → ∃ sh, SheetsText names s1 s2 sh ∧ rangeName3dRel names ref browx bcolx r1c1 = .ok (sh ++ '!' :: (a ++ ':' :: b))) := by
  have key : ∃ a b, CellText (NumberedRange ref browx bcolx r1c1) ref.rlo ref.clo ref.rlorel ref.clorel browx bcolx a ∧
      CellText (NumberedRange ref browx bcolx r1c1) (ref.rhi - 1) (ref.chi - 1) ref.rhirel ref.chirel browx bcolx b ∧
      rangeName2dRel ref.rlo ref.rhi ref.clo ref.chi ref.rlorel ref.rhirel ref.clorel ref.chirel browx bcolx r1c1 = .ok (a ++ ':' :: b) := by
    unfold rangeName2dRel
    dsimp only
    by_cases hn : NumberedRange ref browx bcolx r1c1
    · have hr : (if (ref.clorel = true ∨ ref.chirel = true) ∧ bcolx = none then true else
          if (ref.rlorel = true ∨ ref.rhirel = true) ∧ browx = none then true else r1c1) = true := by
        split
        · rfl
        · split
          · rfl
          · rename_i k1 k2
            rcases hn with h | h | h
            · exact h
            · exact absurd h k2
            · exact absurd h k1
      rw [hr, cellName_numbered (.inl rfl), cellName_numbered (.inl rfl)]
      exact ⟨_, _, ⟨fun _ => rfl, fun h => absurd hn h⟩, ⟨fun _ => rfl, fun h => absurd hn h⟩, rfl⟩
    · have hr : r1c1 = false := by
        cases r1c1 with
        | false => rfl
        | true => exact absurd (.inl rfl) hn
      subst hr
      have k1 : ¬ ((ref.rlorel = true ∨ ref.rhirel = true) ∧ browx = none) := fun k => hn (.inr (.inl k))
      have k2 : ¬ ((ref.clorel = true ∨ ref.chirel = true) ∧ bcolx = none) := fun k => hn (.inr (.inr k))
      rw [if_neg k2, if_neg k1]
      have base : ∀ {x y : Bool}, (x = true → ref.rlorel = true ∨ ref.rhirel = true) → (y = true → ref.clorel = true ∨ ref.chirel = true) →
          x = true ∨ y = true → browx ≠ none ∧ bcolx ≠ none := by
        intro x y hx hy h
        rcases h with h | h
        · have : browx ≠ none := fun k => k1 ⟨hx h, k⟩
          exact ⟨this, fun k => this (hb.2 k)⟩
        · have : bcolx ≠ none := fun k => k2 ⟨hy h, k⟩
          exact ⟨fun k => this (hb.1 k), this⟩
      obtain ⟨a, ha, ha1⟩ := cellName_a1 h1 (base .inl .inl)
      obtain ⟨b, hb', hb1⟩ := cellName_a1 h2 (base .inr .inr)
      rw [ha]
      dsimp only
      rw [hb']
      exact ⟨a, b, ⟨fun h => absurd h hn, fun _ => ha1⟩, ⟨fun h => absurd h hn, fun _ => hb1⟩, rfl⟩
  obtain ⟨a, b, ha, hb, e⟩ := key
  refine ⟨a, b, ha, hb, ?_, ?_⟩
  · intro h1 h2 h3 h4
    unfold rangeName3dRel sheetRangeRel
    rw [h1, h2, h3, h4, if_neg (by decide), if_pos (by decide), e]
    rfl
  · intro s1 s2 h1 h2 h3 h4 hs hl hne
    obtain ⟨sh, hsh, ht⟩ := sheetRange_text hs hl
    refine ⟨sh, ht, ?_⟩
    unfold rangeName3dRel sheetRangeRel
    rw [h1, h2, h3, h4, if_pos ⟨rfl, rfl⟩, hsh, e]
    dsimp only
    rw [if_neg]
    rintro rfl
    unfold SheetsText at ht
    split at ht
    · obtain ⟨n, hn, (⟨rfl, -⟩ | h)⟩ := ht
      · exact hne _ (List.mem_of_getElem? hn) rfl
      · cases h
    · obtain ⟨_, _, w, w', _, _, _, _, h⟩ := ht
      simp at h

/-! ### Examples -/

/-- The example of the documentation, `Ref3D(1, 4, 5, 20, 7, 10)`. -/
example : rangeName3d ["Sheet1".toList, "Sheet2".toList, "Sheet3".toList, "Sheet4".toList] 1 4 5 20 7 10 = .ok "Sheet2:Sheet4!$H$6:$J$20".toList := by
  decide +kernel

example : ["Sheet1".toList, "it's".toList].Nodup ∧ ∀ n ∈ ["Sheet1".toList, "it's".toList], ':' ∉ n := by decide

example : rangeName3d ["it's".toList] 0 1 0 1 0 1 = .ok "'it''s'!$A$1".toList := by decide +kernel

/-- `Ref3D(coords=(0, 1, -32, -22, -13, 13), relflags=(0, 0, 1, 1, 1, 1))` -/
example : rangeName3dRel ["Sheet1".toList] ⟨0, 1, -32, -22, -13, 13, false, false, true, true, true, true⟩ none none false =
    .ok "Sheet1!R[-32]C[-13]:R[-23]C[12]".toList := by decide +kernel

example : InSheet (-32) (-13) true true := ⟨fun h => (by cases h), fun h => (by cases h)⟩

end CP
