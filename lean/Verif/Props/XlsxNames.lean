import Verif.Lemmas.XlsxNames
import Verif.Props.XlsxBook
/-!
# C79: defined names, properties and comments of xlsx files leave the cells alone
-/

namespace CP
open Spec

/-- C79: an xlsx file with defined names, core properties (whatever is in them) and comments is read without an exception,
with the date mode and the cells as in C64.  The reader is the one with `do_defined_names`, `process_coreprops` and
`process_comments_stream` in place. -/
theorem C79_xlsx {E : XlEnv} (hE : XlLaws E) {zf : Zip} {mode : Nat} {sheets : List (List Char × List CellOp)} (h : FullBookIs E zf mode sheets) :
    ∃ bs, openXlsx E.concrete false zf = .ok (mode, bs) ∧
      Each (fun (s : List Char × List CellOp) (b : BookSheet) => b.name = s.1 ∧ GridHolds s.2 b.grid) sheets bs := by
  have hE' : XlLaws E.concrete := ⟨hE.upper, hE.same, hE.digits, hE.empty, hE.letters⟩
  refine C64_book hE' (bookIs_mono (E := withNames E) (E' := E.concrete) rfl rfl rfl (fun e he => ?_) (fun e he => ?_) (fun _ => rfl) h)
  · refine definedNames_none hE (Classical.byContradiction fun hn => ?_)
    simp [withNames, hn] at he
  · refine sheetComments_none hE (Classical.byContradiction fun hn => ?_)
    simp [withNames, hn] at he

/-! ## An example -/

def exNotes : Elem :=
  .mk (ssml "comments".toList) [] none [
    .mk (ssml "authors".toList) [] none [.mk (ssml "author".toList) [] none []],
    .mk (ssml "commentList".toList) [] none [
      .mk (ssml "comment".toList) [(bare "ref".toList, "b2".toList), (bare "authorId".toList, "0".toList)] none []]]

/-- A sheet with a comment on B2, a defined name and core properties are added to the book of C64. -/
def exNoteZip : Zip :=
  [("xl/workbook.xml".toList, .mk (ssml "workbook".toList) [] none [
      .mk (ssml "sheets".toList) [] none [exSheetElem "A".toList "2".toList "r1".toList],
      .mk (ssml "definedNames".toList) [] none [
        .mk (ssml "definedName".toList) [(bare "name".toList, "n".toList), (bare "localSheetId".toList, "7".toList), (bare "hidden".toList, "true".toList)]
          (some "1/0".toList) []]]),
    ("xl/_rels/workbook.xml.rels".toList, exRels), ("docProps/core.xml".toList, .mk (bare "any".toList) [] none []),
    ("xl/styles.xml".toList, exStyles), ("xl/sharedStrings.xml".toList, exStrings), ("xl/worksheets/sheet1.xml".toList, exXSheet),
    ("xl/worksheets/_rels/sheet1.xml.rels".toList, .mk ⟨.pkgrel, "Relationships".toList⟩ [] none [
      exRel "r1".toList "http://x/comments".toList "../comments1.xml".toList]),
    ("xl/comments1.xml".toList, exNotes)]

/-- With the paths of relations. -/
def exNoteXl : XlEnv := { exXl with path := fun t => if t = "../comments1.xml".toList then "xl/comments1.xml".toList else t }

theorem exNoteXl_laws : XlLaws exNoteXl := ⟨exXl_laws.upper, exXl_laws.same, exXl_laws.digits, exXl_laws.empty, exXl_laws.letters⟩

theorem exNumber {s : Option (List Char)} (c : Char) (h : s = some [c]) (h1 : 48 ≤ c.toNat) (h2 : c.toNat ≤ 57) : NumberText s (c.toNat - 48) :=
  ⟨[c], h, by simp, by simp [DecDigit, h1, h2], by simp [decValue]⟩

theorem exNoteZip_book : FullBookIs exNoteXl exNoteZip 0 [("A".toList, exOps [' ', 'a'])] := by
  have hno : ∀ name, (∀ p ∈ exNoteZip, plainName exNoteXl p.1 ≠ name) → NoPart (withNames exNoteXl) exNoteZip name :=
    fun name h e ⟨actual, h1, h2⟩ => h _ h1 h2
  refine ⟨by show (exNoteZip.map fun p => plainName exNoteXl p.1).Nodup; decide +kernel, exRels,
    [("r1".toList, "worksheet".toList, "xl/worksheets/sheet1.xml".toList), ("r2".toList, "chartsheet".toList, "xl/chart.xml".toList)],
    _, [("A".toList, "xl/worksheets/sheet1.xml".toList)], [2, 3, 2, 3], [[' ', 'a'], ['b', '\n']], [],
    ⟨"xl/_rels/workbook.xml.rels".toList, by simp [exNoteZip], by decide +kernel⟩, ⟨?_, by decide +kernel⟩,
    ⟨"xl/workbook.xml".toList, List.mem_cons_self, by decide +kernel⟩, ?_, fun _ _ => rfl,
    Or.inr ⟨exStyles, ⟨"xl/styles.xml".toList, by simp [exNoteZip], by decide +kernel⟩, exStyles_are⟩,
    Or.inr ⟨exStrings, ⟨"xl/sharedStrings.xml".toList, by simp [exNoteZip], by decide +kernel⟩, exStrings_are⟩,
    Or.inl ⟨hno _ (by decide +kernel), rfl⟩, ?_⟩
  · refine .cons ⟨by decide +kernel, ⟨"http://x/worksheet".toList, by decide +kernel, by decide +kernel, Or.inr ⟨"http://x".toList, by decide +kernel⟩⟩,
      "Worksheets\\Sheet1.xml".toList, by decide +kernel, Or.inr ?_⟩ (.cons ⟨by decide +kernel,
        ⟨"http://x/chartsheet".toList, by decide +kernel, by decide +kernel, Or.inr ⟨"http://x".toList, by decide +kernel⟩⟩,
        "/xl/chart.xml".toList, by decide +kernel, Or.inl ?_⟩ .nil)
    · show (plainName exNoteXl _).head? ≠ _ ∧ _ = _ ++ plainName exNoteXl _
      decide +kernel
    · show plainName exNoteXl _ = _
      decide +kernel
  · show WorkbookAre (withNames exNoteXl) _ 0 [_, _, _, _, _] 0 _
    refine .other (by decide +kernel) (by decide +kernel) (by decide +kernel) ?_
    refine .other (by decide +kernel) (by decide +kernel) (by decide +kernel) ?_
    refine .sheet (k := 2) (w := "A".toList) (id := "r1".toList) (by decide +kernel) ?_ (by decide +kernel) ?_ (by decide +kernel)
      (by simp) ?_
    · exact exNumber '2' (by decide +kernel) (by decide) (by decide)
    · have : "A".toList = ['A'] := by decide
      rw [this]
      exact .char (by rintro ⟨e, n, r, ⟨a, b, c, d, rfl, _⟩, h⟩; simp at h) .nil
    refine .names (by decide +kernel) ?_ (.other (by decide +kernel) (by decide +kernel) (by decide +kernel) .nil)
    refine if_pos fun d hd => ?_
    simp only [Elem.children, List.mem_cons, List.not_mem_nil, or_false] at hd
    subst hd
    refine ⟨.inr ⟨7, exNumber '7' (by decide +kernel) (by decide) (by decide)⟩, .inl (by decide +kernel), ⟨1, .inr (.inr ⟨.inr (by decide +kernel), rfl⟩)⟩,
      ⟨0, .inl ⟨by decide +kernel, rfl⟩⟩, ⟨0, .inl ⟨by decide +kernel, rfl⟩⟩, ⟨0, .inl ⟨by decide +kernel, rfl⟩⟩⟩
  · refine .cons ⟨rfl, ⟨exXSheet, ⟨"xl/worksheets/sheet1.xml".toList, by simp [exNoteZip], by decide +kernel⟩,
      exXSheet_is rfl rfl rfl rfl⟩, "sheet1.xml".toList, ⟨by decide +kernel, Or.inr ⟨"xl/worksheets".toList, by decide +kernel⟩⟩,
      Or.inr ⟨_, by simp only [exNoteZip]; exact .tail _ (.tail _ (.tail _ (.tail _ (.tail _ (.tail _ (.head _)))))), ?_, ?_⟩⟩ .nil
    · show plainName exNoteXl _ = _
      decide +kernel
    · intro e he
      have : relations (.mk ⟨.pkgrel, "Relationships".toList⟩ [] none [exRel "r1".toList "http://x/comments".toList "../comments1.xml".toList]) =
        [exRel "r1".toList "http://x/comments".toList "../comments1.xml".toList] := by simp [relations, Elem.children, exRel, Elem.tag]
      rw [this] at he
      simp only [List.mem_cons, List.not_mem_nil, or_false] at he
      subst he
      refine ⟨"http://x/comments".toList, "../comments1.xml".toList, "comments".toList, by decide +kernel,
        ⟨by decide +kernel, Or.inr ⟨"http://x".toList, by decide +kernel⟩⟩, by decide +kernel, .inr (.inr ⟨exNotes, ?_, ?_, if_pos ?_⟩)⟩
      · exact .tail _ (.tail _ (.tail _ (.tail _ (.tail _ (.tail _ (.tail _ (.head _)))))))
      · have : plainName exNoteXl (exNoteXl.path "../comments1.xml".toList) = exNoteXl.path "../comments1.xml".toList := by decide +kernel
        exact this
      · refine ⟨_, _, _, rfl, rfl, rfl, fun e he _ => ?_⟩
        simp only [Elem.children, List.mem_cons, List.not_mem_nil, or_false] at he
        subst he
        refine ⟨⟨0, exNumber '0' (by decide +kernel) (by decide) (by decide), by decide⟩, "b2".toList, 1, 1, by decide +kernel, ?_, by omega⟩
        exact ⟨['b'], ['2'], by decide, by simp, by simp [letterIndex], ⟨by simp, by simp [DecDigit], by simp⟩, by decide, by decide⟩

example : ∃ bs, openXlsx exNoteXl.concrete false exNoteZip = .ok (0, bs) := by
  obtain ⟨bs, h, _⟩ := C79_xlsx exNoteXl_laws exNoteZip_book
  exact ⟨bs, h⟩

end CP
