import Verif.Model.Xlsx
import Verif.Spec.XlsxSheet
import Verif.Spec.Formatting
/-!
# Specification: the strings, the styles and the sheets of an xlsx file

The environment `XlEnv` stands for functions of Python here.
-/

namespace CP.Spec

/-- The items of two lists correspond to each other. -/
inductive Each {α β : Type} (P : α → β → Prop) : List α → List β → Prop
  | nil : Each P [] []
  | cons {a b as bs} : P a b → Each P as bs → Each P (a :: as) (b :: bs)

/-- A string of digits for the number `n`. -/
def NumberText (s : Option (List Char)) (n : Nat) : Prop :=
  ∃ ds, s = some ds ∧ ds ≠ [] ∧ (∀ c ∈ ds, DecDigit c) ∧ decValue ds = n

/-! ## Strings -/

/-- The shared strings: one for each `si` element, in order. -/
def StringsAre (root : Elem) (strs : List (List Char)) : Prop :=
  root.tag ≠ ssml ['s', 'i'] ∧ (∀ c ∈ root.children, ∀ e ∈ iterList c.children, e.tag ≠ ssml ['s', 'i']) ∧
    Each ItemText (root.children.filter fun c => c.tag = ssml ['s', 'i']) strs

/-- A hexadecimal digit. -/
def hexChar (n : Nat) : Char := Char.ofNat (if n < 10 then 48 + n else 55 + n)

/-- A text as written to a file: characters of `bad` and an underscore before an `x` are
escaped. -/
def escaped (bad : Char → Bool) : List Char → List Char
  | [] => []
  | c :: cs =>
    if bad c ∨ (c = '_' ∧ cs.head? = some 'x') then
      ['_', 'x', hexChar (c.toNat / 4096), hexChar (c.toNat / 256 % 16), hexChar (c.toNat / 16 % 16), hexChar (c.toNat % 16), '_'] ++
        escaped bad cs
    else c :: escaped bad cs

/-! ## Styles -/

/-- The element has this name, in the main namespace or in none. -/
def isMain (e : Elem) (name : List Char) : Bool := (e.tag.ns = .ssml || e.tag.ns = .none) && e.tag.name = name

/-- The number and the code of a format. -/
def FormatOf (e : Elem) (f : Nat × List Char) : Prop :=
  NumberText (e.get (bare "numFmtId".toList)) f.1 ∧ e.get (bare "formatCode".toList) = some f.2

/-- The formats for dates and times that need no definition. -/
def builtinDates : List Nat := [14, 15, 16, 17, 18, 19, 20, 21, 22, 45, 46, 47]

/-- The format number `n` is one for dates: as its last definition says, or by default. -/
def DateId (fs : List (Nat × List Char)) (n : Nat) : Prop :=
  (∃ a code b, fs = a ++ (n, code) :: b ∧ n ∉ b.map Prod.fst ∧ DateFormat code) ∨ (n ∉ fs.map Prod.fst ∧ n ∈ builtinDates)

/-- The type of cells with a style, given the formats: 2 for numbers, 3 for dates. -/
def TypeOfXf (fs : List (Nat × List Char)) (e : Elem) (ty : Nat) : Prop :=
  ∃ n, ((e.get (bare "numFmtId".toList) = none ∧ n = 0) ∨ NumberText (e.get (bare "numFmtId".toList)) n) ∧
    ((DateId fs n ∧ ty = 3) ∨ (¬ DateId fs n ∧ ty = 2))

/-- None of the elements that matter in the styles at or below `es`. -/
def StyleQuiet (es : List Elem) : Prop :=
  ∀ e ∈ iterList es, isMain e "cellStyleXfs".toList = false ∧ isMain e "cellXfs".toList = false ∧
    isMain e "numFmt".toList = false ∧ isMain e "xf".toList = false

/-- The styles: `types` for the children of `cellXfs`, in order, with the formats defined
before it. -/
def StylesAre (root : Elem) (types : List Nat) : Prop :=
  ∃ a x b fs after, StyleQuiet [.mk root.tag root.attrib root.text []] ∧ root.children = a ++ x :: b ∧
    isMain x "cellXfs".toList = true ∧ (∀ e ∈ iterList a, isMain e "cellXfs".toList = false) ∧
    Each FormatOf ((iterList a).filter fun e => isMain e "numFmt".toList) fs ∧
    (∀ c ∈ x.children, isMain c "xf".toList = true ∧ StyleQuiet c.children) ∧ Each (TypeOfXf fs) x.children types ∧
    (∀ e ∈ iterList b, isMain e "cellXfs".toList = false ∧ isMain e "xf".toList = false) ∧
    Each FormatOf ((iterList b).filter fun e => isMain e "numFmt".toList) after

/-- The type for each style; without any styles there is one for numbers. -/
def styleTypes (types : List Nat) : List Nat := if types = [] then [2] else types

/-! ## The book -/

/-- What comes after the last slash. -/
def LastPart (s last : List Char) : Prop := '/' ∉ last ∧ (s = last ∨ ∃ p, s = p ++ '/' :: last)

/-- A name with slashes, in lower case. -/
def plainName (E : XlEnv) (s : List Char) : List Char := E.low (s.map fun c => if c = '\\' then '/' else c)

/-- The part of the file that a relation leads to. -/
def PathOf (E : XlEnv) (target path : List Char) : Prop :=
  plainName E target = '/' :: path ∨ ((plainName E target).head? ≠ some '/' ∧ path = "xl/".toList ++ plainName E target)

/-- The relations among the children of an element. -/
def relations (root : Elem) : List Elem := root.children.filter fun e => e.tag = ⟨.pkgrel, "Relationship".toList⟩

/-- A relation: its name, its type and the part it leads to. -/
def RelOf (E : XlEnv) (e : Elem) (r : List Char × List Char × List Char) : Prop :=
  e.get (bare "Id".toList) = some r.1 ∧
    (∃ typ, e.get (bare "Type".toList) = some typ ∧ LastPart typ r.2.1) ∧
    ∃ target, e.get (bare "Target".toList) = some target ∧ PathOf E target r.2.2

/-- The relations of the book. -/
def RelsAre (E : XlEnv) (root : Elem) (rels : List (List Char × List Char × List Char)) : Prop :=
  Each (RelOf E) (relations root) rels ∧ (rels.map Prod.fst).Nodup

/-- A truth value. -/
def BoolOf (s : Option (List Char)) (n : Nat) : Prop :=
  (s = none ∧ n = 0) ∨ ((s = some "0".toList ∨ s = some "false".toList) ∧ n = 0) ∨
    ((s = some "1".toList ∨ s = some "true".toList) ∧ n = 1)

/-- The elements of the workbook in document order: `m` is the date mode before them; the
result is the date mode after them, and the names of the work sheets and of their parts.
Sheets of other kinds are left out. -/
inductive WorkbookAre (E : XlEnv) (rels : List (List Char × List Char × List Char)) :
    Nat → List Elem → Nat → List (List Char × List Char) → Prop
  | nil {m} : WorkbookAre E rels m [] m []
  | other {m e es m' sheets} : isMain e "workbookPr".toList = false → isMain e "definedNames".toList = false →
      isMain e "sheet".toList = false → WorkbookAre E rels m es m' sheets → WorkbookAre E rels m (e :: es) m' sheets
  | names {m e es m' sheets} : isMain e "definedNames".toList = true → E.names e = none →
      WorkbookAre E rels m es m' sheets → WorkbookAre E rels m (e :: es) m' sheets
  | mode {m m1 e es m' sheets} : isMain e "workbookPr".toList = true → BoolOf (e.get (bare "date1904".toList)) m1 →
      WorkbookAre E rels m1 es m' sheets → WorkbookAre E rels m (e :: es) m' sheets
  | sheet {m e es m' sheets k w name id path} : isMain e "sheet".toList = true → NumberText (e.get (bare "sheetId".toList)) k →
      e.get (bare "name".toList) = some w → Unescaped w name → e.get ⟨.odrel, "id".toList⟩ = some id →
      (id, "worksheet".toList, path) ∈ rels → WorkbookAre E rels m es m' sheets →
      WorkbookAre E rels m (e :: es) m' ((name, path) :: sheets)
  | otherSheet {m e es m' sheets k w id typ path} : isMain e "sheet".toList = true → NumberText (e.get (bare "sheetId".toList)) k →
      e.get (bare "name".toList) = some w → e.get ⟨.odrel, "id".toList⟩ = some id →
      (id, typ, path) ∈ rels → typ ≠ "worksheet".toList → WorkbookAre E rels m es m' sheets →
      WorkbookAre E rels m (e :: es) m' sheets

/-- The part with a name.  Names count without regard to case, and with either slash. -/
def HasPart (E : XlEnv) (zf : Zip) (name : List Char) (e : Elem) : Prop :=
  ∃ actual, (actual, e) ∈ zf ∧ plainName E actual = name

/-- There is no part with this name. -/
def NoPart (E : XlEnv) (zf : Zip) (name : List Char) : Prop := ∀ e, ¬ HasPart E zf name e

/-- The relations of a sheet, if it has some, can be read: they are stored under their plain
name; if one of them leads to comments, then these can be read, and are stored under their
plain name, too. -/
def SheetRelsOk (E : XlEnv) (zf : Zip) (path : List Char) : Prop :=
  ∃ last, LastPart path last ∧
    (NoPart E zf ("xl/worksheets/_rels/".toList ++ last ++ ".rels".toList) ∨
      ∃ root, ("xl/worksheets/_rels/".toList ++ last ++ ".rels".toList, root) ∈ zf ∧
        plainName E ("xl/worksheets/_rels/".toList ++ last ++ ".rels".toList) =
          "xl/worksheets/_rels/".toList ++ last ++ ".rels".toList ∧
        ∀ e ∈ relations root, ∃ typ target t, e.get (bare "Type".toList) = some typ ∧ LastPart typ t ∧
          e.get (bare "Target".toList) = some target ∧
          (t ≠ "comments".toList ∨ NoPart E zf (E.path target) ∨
            ∃ notes, (E.path target, notes) ∈ zf ∧ plainName E (E.path target) = E.path target ∧ E.notes notes = none))

/-- The shared strings of a part, if it is there. -/
def PartStrings (E : XlEnv) (zf : Zip) (name : List Char) (strs : List (List Char)) : Prop :=
  (NoPart E zf name ∧ strs = []) ∨ ∃ root, HasPart E zf name root ∧ StringsAre root strs

/-- The types of styles, if there are styles. -/
def PartStyles (E : XlEnv) (zf : Zip) (types : List Nat) : Prop :=
  (NoPart E zf "xl/styles.xml".toList ∧ types = []) ∨ ∃ root, HasPart E zf "xl/styles.xml".toList root ∧ StylesAre root types

/-- A sheet of the book: its name, and what its part does. -/
def SheetPart (E : XlEnv) (zf : Zip) (R : Reading) (s : List Char × List Char) (t : List Char × List CellOp) : Prop :=
  t.1 = s.1 ∧ (∃ root, HasPart E zf s.2 root ∧ SheetIs R root t.2) ∧ SheetRelsOk E zf s.2

/-- The book in a zip file: its date mode, and its sheets. -/
def BookIs (E : XlEnv) (zf : Zip) (mode : Nat) (sheets : List (List Char × List CellOp)) : Prop :=
  (zf.map fun p => plainName E p.1).Nodup ∧
  ∃ relsRoot rels wb targets types s1 s2,
    HasPart E zf "xl/_rels/workbook.xml.rels".toList relsRoot ∧ RelsAre E relsRoot rels ∧
    HasPart E zf "xl/workbook.xml".toList wb ∧ WorkbookAre E rels 0 wb.iter mode targets ∧
    (∀ e, HasPart E zf "docprops/core.xml".toList e → E.props e = none) ∧
    PartStyles E zf types ∧
    PartStrings E zf "xl/sharedstrings.xml".toList s1 ∧ PartStrings E zf "sharedstrings.xml".toList s2 ∧
    Each (SheetPart E zf { float := E.float, strings := s1 ++ s2, typeOf := fun k => (styleTypes types)[k]? }) targets sheets

end CP.Spec
