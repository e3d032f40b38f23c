import Verif.Spec.XlsxBook
/-!
# Specification: xlsx files with the relations of sheets stored under any names

As `BookIs`, but the relations of sheets and their comments need not be stored under their
plain names.
-/

namespace CP.Spec

/-- A relation of a sheet, by its type and path: if it leads to comments, then these can be
read. -/
def NoteAny (E : XlEnv) (zf : Zip) (typ path : List Char) : Prop :=
  typ ≠ "comments".toList ∨ NoPart E zf path ∨ ∃ notes, HasPart E zf path notes ∧ E.notes notes = none

/-- The relations of a sheet, if it has some, are sound: their ids are distinct, and if one of
them leads to comments, then these can be read. -/
def SheetRelsAny (E : XlEnv) (zf : Zip) (path : List Char) : Prop :=
  ∃ last, LastPart path last ∧
    (NoPart E zf ("xl/worksheets/_rels/".toList ++ last ++ ".rels".toList) ∨
      ∃ root, HasPart E zf ("xl/worksheets/_rels/".toList ++ last ++ ".rels".toList) root ∧
        ((relations root).map fun e => e.get (bare "Id".toList)).Nodup ∧
        ∀ e ∈ relations root, ∃ typ target t, e.get (bare "Type".toList) = some typ ∧ LastPart typ t ∧
          e.get (bare "Target".toList) = some target ∧ E.path target ≠ [] ∧ NoteAny E zf t (E.path target))

/-- A sheet of the book: its name, and what its part does. -/
def SheetPartAny (E : XlEnv) (zf : Zip) (R : Reading) (s : List Char × List Char) (t : List Char × List CellOp) : Prop :=
  t.1 = s.1 ∧ (∃ root, HasPart E zf s.2 root ∧ SheetIs R root t.2) ∧ SheetRelsAny E zf s.2

/-- The book in a zip file: its date mode, and its sheets. -/
def BookIsAny (E : XlEnv) (zf : Zip) (mode : Nat) (sheets : List (List Char × List CellOp)) : Prop :=
  (zf.map fun p => plainName E p.1).Nodup ∧
  ∃ relsRoot rels wb targets types s1 s2,
    HasPart E zf "xl/_rels/workbook.xml.rels".toList relsRoot ∧ RelsAre E relsRoot rels ∧
    HasPart E zf "xl/workbook.xml".toList wb ∧ WorkbookAre E rels 0 wb.iter mode targets ∧
    (∀ e, HasPart E zf "docprops/core.xml".toList e → E.props e = none) ∧
    PartStyles E zf types ∧
    PartStrings E zf "xl/sharedstrings.xml".toList s1 ∧ PartStrings E zf "sharedstrings.xml".toList s2 ∧
    Each (SheetPartAny E zf { float := E.float, strings := s1 ++ s2, typeOf := fun k => (styleTypes types)[k]? }) targets sheets

end CP.Spec
