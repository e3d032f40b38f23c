import Verif.Lemmas.XlsxBook
import Verif.Props.XlsxText
import Verif.Props.XlsxStyles
import Verif.Props.XlsxSheet
/-!
# C64: xlsx files
-/

namespace CP
open Spec

theorem strings_eq {E : XlEnv} {zf : Zip} (hz : (zf.map fun p => plainName E p.1).Nodup) {name : List Char} {strs : List (List Char)}
    (h : PartStrings E zf name strs) : partSst E zf name = strs := by
  unfold partSst
  rcases h with ⟨h1, rfl⟩ | ⟨root, h1, h2⟩
  · rw [openPart_none hz h1]
  · rw [openPart_some hz h1]
    exact C62_strings h2

theorem sheets_eq {E : XlEnv} {zf : Zip} (hz : (zf.map fun p => plainName E p.1).Nodup) {sst : List (List Char)}
    {xfMap : List (Int × Nat)} {R : Reading} (hf : Fits E sst xfMap R) {targets : List (List Char × List Char)}
    {sheets : List (List Char × List CellOp)} (h : Each (SheetPart E zf R) targets sheets) :
    ∃ bs, readSheets E zf sst xfMap false targets = .ok bs ∧
      Each (fun (s : List Char × List CellOp) (b : BookSheet) => b.name = s.1 ∧ GridHolds s.2 b.grid) sheets bs := by
  induction h with
  | nil => exact ⟨[], rfl, .nil⟩
  | @cons t s targets sheets h1 _ ih =>
    obtain ⟨name, path⟩ := t
    obtain ⟨name', ops⟩ := s
    obtain ⟨rfl, ⟨root, k1, k2⟩, k3⟩ := h1
    obtain ⟨x, g, e1, e2, e3⟩ := C61_worksheet hf k2
    obtain ⟨bs, e4, e5⟩ := ih
    refine ⟨⟨name', g⟩ :: bs, ?_, .cons ⟨rfl, e3⟩ e5⟩
    rw [readSheets, openPart_some hz k1]
    dsimp only
    rw [e1]
    dsimp only
    rw [readSheetRels_none hz k3]
    dsimp only
    rw [e2]
    dsimp only
    rw [e4]

/-- C64: an xlsx file is read without an exception.  The date mode is as the workbook says,
and the sheets are its work sheets, in order, with their names, each with the cells that its
part says (as in C61; shared strings and types of styles are those of C62 and C63).  Parts
are found whatever the case of their names and with either slash; other kinds of sheets are
left out. -/
theorem C64_book {E : XlEnv} (hE : XlLaws E) {zf : Zip} {mode : Nat} {sheets : List (List Char × List CellOp)}
    (h : BookIs E zf mode sheets) :
    ∃ bs, openXlsx E false zf = .ok (mode, bs) ∧
      Each (fun (s : List Char × List CellOp) (b : BookSheet) => b.name = s.1 ∧ GridHolds s.2 b.grid) sheets bs := by
  obtain ⟨hz, relsRoot, rels, wb, targets, types, s1, s2, h1, h2, h3, h4, h5, h6, h7, h8, h9⟩ := h
  have w1 : partRels = "xl/_rels/workbook.xml.rels".toList := by decide
  have w2 : partWorkbook = "xl/workbook.xml".toList := by decide
  have w3 : partProps = "docprops/core.xml".toList := by decide
  have w4 : partStyles = "xl/styles.xml".toList := by decide
  have w5 : partStrings = "sharedstrings.xml".toList := by decide
  have w6 : ['x', 'l', '/'] ++ "sharedstrings.xml".toList = "xl/sharedstrings.xml".toList := by decide
  obtain ⟨d, e1, hd⟩ := processRels_eq h2
  have hst : ∃ st, readStyles E (openPart E zf "xl/styles.xml".toList) = .ok st ∧
      ∀ k : Nat, dget st.xfMap (k : Int) = (styleTypes types)[k]? := by
    rcases h6 with ⟨k1, rfl⟩ | ⟨root, k1, k2⟩
    · rw [openPart_none hz k1]; exact C63_no_styles E
    · rw [openPart_some hz k1]; exact C63_styles hE k2
  obtain ⟨st, e2, hst⟩ := hst
  have hprops : readProps E zf = none := by
    unfold readProps
    rw [w3]
    by_cases hp : ∃ e, HasPart E zf "docprops/core.xml".toList e
    · obtain ⟨e, hp⟩ := hp
      rw [openPart_some hz hp]
      exact h5 e hp
    · rw [openPart_none hz fun e he => hp ⟨e, he⟩]
  have hf : Fits E (s1 ++ s2) st.xfMap { float := E.float, strings := s1 ++ s2, typeOf := fun k => (styleTypes types)[k]? } :=
    ⟨hE, rfl, rfl, fun n => (hst n).symm⟩
  obtain ⟨bs, e3, e4⟩ := sheets_eq hz hf h9
  refine ⟨bs, ?_, e4⟩
  unfold openXlsx
  rw [w2, openPart_some hz h3]
  dsimp only
  rw [w1, openPart_some hz h1]
  dsimp only
  rw [e1]
  dsimp only
  rw [workbook_eq hE hd h4 []]
  dsimp only
  rw [hprops]
  dsimp only
  rw [w4, e2]
  dsimp only
  rw [w5, w6, strings_eq hz h7, strings_eq hz h8, List.nil_append, e3]

/-! ## An example -/

def exRel (id typ target : List Char) : Elem :=
  .mk ⟨.pkgrel, "Relationship".toList⟩ [(bare "Id".toList, id), (bare "Type".toList, typ), (bare "Target".toList, target)] none []

/-- Relations to a work sheet and a chart. -/
def exRels : Elem :=
  .mk ⟨.pkgrel, "Relationships".toList⟩ [] none [
    exRel "r1".toList "http://x/worksheet".toList "Worksheets\\Sheet1.xml".toList,
    exRel "r2".toList "http://x/chartsheet".toList "/xl/chart.xml".toList]

def exSheetElem (name k id : List Char) : Elem :=
  .mk (ssml "sheet".toList) [(bare "name".toList, name), (bare "sheetId".toList, k), (⟨.odrel, "id".toList⟩, id)] none []

def exWorkbook : Elem :=
  .mk (ssml "workbook".toList) [] none [
    .mk (ssml "workbookPr".toList) [(bare "date1904".toList, "1".toList)] none [],
    .mk (ssml "sheets".toList) [] none [exSheetElem "C".toList "1".toList "r2".toList, exSheetElem "A".toList "2".toList "r1".toList]]

def exZip : Zip :=
  [("xl\\workbook.xml".toList, exWorkbook), ("xl/_rels/workbook.xml.rels".toList, exRels), ("xl/styles.xml".toList, exStyles),
    ("xl/sharedStrings.xml".toList, exStrings), ("xl/worksheets/sheet1.xml".toList, exXSheet)]

theorem exZip_book : BookIs exXl exZip 1 [("A".toList, exOps [' ', 'a'])] := by
  have hno : ∀ name, (∀ p ∈ exZip, plainName exXl p.1 ≠ name) → NoPart exXl exZip name :=
    fun name h e ⟨actual, h1, h2⟩ => h _ h1 h2
  have hdig : ∀ c : Char, 48 ≤ c.toNat → c.toNat ≤ 57 → NumberText (some [c]) (c.toNat - 48) := fun c h1 h2 =>
    ⟨[c], rfl, by simp, by simp [DecDigit, h1, h2], by simp [decValue]⟩
  refine ⟨by decide +kernel, exRels,
    [("r1".toList, "worksheet".toList, "xl/worksheets/sheet1.xml".toList), ("r2".toList, "chartsheet".toList, "xl/chart.xml".toList)],
    exWorkbook, [("A".toList, "xl/worksheets/sheet1.xml".toList)], [2, 3, 2, 3], [[' ', 'a'], ['b', '\n']], [],
    ⟨"xl/_rels/workbook.xml.rels".toList, by simp [exZip], by decide +kernel⟩, ⟨?_, by decide +kernel⟩,
    ⟨"xl\\workbook.xml".toList, by simp [exZip], by decide +kernel⟩, ?_, fun _ _ => rfl,
    Or.inr ⟨exStyles, ⟨"xl/styles.xml".toList, by simp [exZip], by decide +kernel⟩, exStyles_are⟩,
    Or.inr ⟨exStrings, ⟨"xl/sharedStrings.xml".toList, by simp [exZip], by decide +kernel⟩, exStrings_are⟩,
    Or.inl ⟨hno _ (by decide +kernel), rfl⟩, ?_⟩
  · refine .cons ⟨by decide +kernel, ⟨"http://x/worksheet".toList, by decide +kernel, by decide +kernel, Or.inr ⟨"http://x".toList, by decide +kernel⟩⟩,
      "Worksheets\\Sheet1.xml".toList, by decide +kernel, Or.inr (by decide +kernel)⟩ (.cons ⟨by decide +kernel,
        ⟨"http://x/chartsheet".toList, by decide +kernel, by decide +kernel, Or.inr ⟨"http://x".toList, by decide +kernel⟩⟩,
        "/xl/chart.xml".toList, by decide +kernel, Or.inl (by decide +kernel)⟩ .nil)
  · show WorkbookAre exXl _ 0 [_, _, _, _, _] 1 _
    refine .other (by decide +kernel) (by decide +kernel) (by decide +kernel) ?_
    refine .mode (m1 := 1) (by decide +kernel) (Or.inr (Or.inr ⟨Or.inl (by decide +kernel), rfl⟩)) ?_
    refine .other (by decide +kernel) (by decide +kernel) (by decide +kernel) ?_
    refine .otherSheet (k := 1) (w := "C".toList) (id := "r2".toList) (typ := "chartsheet".toList) (path := "xl/chart.xml".toList)
      (by decide +kernel) ?_ (by decide +kernel) (by decide +kernel) (by simp) (by decide) ?_
    · have : (exSheetElem "C".toList "1".toList "r2".toList).get (bare "sheetId".toList) = some ['1'] := by decide +kernel
      show NumberText ((exSheetElem "C".toList "1".toList "r2".toList).get (bare "sheetId".toList)) 1
      rw [this]; exact hdig '1' (by decide) (by decide)
    refine .sheet (k := 2) (w := "A".toList) (id := "r1".toList) (by decide +kernel) ?_ (by decide +kernel) ?_ (by decide +kernel)
      (by simp) .nil
    · have : (exSheetElem "A".toList "2".toList "r1".toList).get (bare "sheetId".toList) = some ['2'] := by decide +kernel
      show NumberText ((exSheetElem "A".toList "2".toList "r1".toList).get (bare "sheetId".toList)) 2
      rw [this]; exact hdig '2' (by decide) (by decide)
    · have : "A".toList = ['A'] := by decide
      rw [this]
      exact .char (by rintro ⟨e, n, r, ⟨a, b, c, d, rfl, _⟩, h⟩; simp at h) .nil
  · refine .cons ⟨rfl, ⟨exXSheet, ⟨"xl/worksheets/sheet1.xml".toList, by simp [exZip], by decide +kernel⟩,
      exXSheet_is rfl rfl rfl rfl⟩, "sheet1.xml".toList, ⟨by decide +kernel, Or.inr ⟨"xl/worksheets".toList, by decide +kernel⟩⟩,
      Or.inl (hno _ (by decide +kernel))⟩ .nil

example : ∃ bs, openXlsx exXl false exZip = .ok (1, bs) := by
  obtain ⟨bs, h, _⟩ := C64_book exXl_laws exZip_book
  exact ⟨bs, h⟩

/-- Parts are not found whatever the case of their names, if they hold the relations of a
sheet: with those (empty ones here) stored under a name with capitals, the file is not read,
but a KeyError raised. -/
theorem C64_counterexample : ∃ E zf name e mode sheets, XlLaws E ∧ BookIs E zf mode sheets ∧ e.children = [] ∧
    openXlsx E false (zf ++ [(name, e)]) = .error .keyError := by
  refine ⟨exXl, exZip, "xl/worksheets/_rels/Sheet1.xml.rels".toList, .mk ⟨.pkgrel, "Relationships".toList⟩ [] none [], 1, _,
    exXl_laws, exZip_book, rfl, ?_⟩
  have : (match openXlsx exXl false (exZip ++ [("xl/worksheets/_rels/Sheet1.xml.rels".toList,
      .mk ⟨.pkgrel, "Relationships".toList⟩ [] none [])]) with
    | .error e => decide (e = .keyError)
    | .ok _ => false) = true := by decide +kernel
  split at this
  · rename_i h
    rw [h]
    simpa using this
  · simp at this

end CP
