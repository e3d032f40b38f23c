import Verif.Spec.XlsxBook
/-!
# Specification: defined names and comments of an xlsx file

From the schema of SpreadsheetML (ECMA-376, part 1, 18.2.5, 18.2.6, 18.7).
-/

namespace CP.Spec

/-- An attribute that may be missing, with a number. -/
def NumberAttr (e : Elem) (name : List Char) : Prop := e.get (bare name) = none ∨ ∃ n, NumberText (e.get (bare name)) n

/-- An attribute that may be missing, with a truth value. -/
def BoolAttr (e : Elem) (name : List Char) : Prop := ∃ n, BoolOf (e.get (bare name)) n

/-- Defined names: the numbers of their sheets and function groups, and their flags.  The formulas and all other
attributes may be anything. -/
def DefinedNamesAre (e : Elem) : Prop :=
  ∀ d ∈ e.children, NumberAttr d "localSheetId".toList ∧ NumberAttr d "functionGroupId".toList ∧ BoolAttr d "hidden".toList ∧
    BoolAttr d "function".toList ∧ BoolAttr d "vbProcedure".toList ∧ BoolAttr d "xlm".toList

/-- Comments: a list of authors, and a list of comments on cells, by authors in the list.  The texts may be anything. -/
def CommentsAre (root : Elem) : Prop :=
  ∃ authors list rest, root.children = authors :: list :: rest ∧ authors.tag = ssml "authors".toList ∧ list.tag = ssml "commentList".toList ∧
    ∀ e ∈ list.children, e.tag = ssml "comment".toList →
      (∃ n, NumberText (e.get (bare "authorId".toList)) n ∧ n < authors.children.length) ∧
      ∃ ref r c, e.get (bare "ref".toList) = some ref ∧ CellName ref r c ∧ c < 16384

open Classical in
/-- What is used of python, with these names and comments, and any core properties. -/
noncomputable def withNames (E : XlEnv) : XlEnv :=
  { E with
    names := fun e => if DefinedNamesAre e then none else some .generic
    notes := fun e => if CommentsAre e then none else some .generic
    props := fun _ => none }

/-- A book with defined names, core properties and comments. -/
def FullBookIs (E : XlEnv) (zf : Zip) (mode : Nat) (sheets : List (List Char × List CellOp)) : Prop := BookIs (withNames E) zf mode sheets

end CP.Spec
