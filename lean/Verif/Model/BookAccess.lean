import Verif.Model.Py
/-!
# Model of the methods of `Book` that look at sheets, xlrd/book.py

Books of version 5 and later and xlsx books; `bool(sheet)` is True, as `Sheet` has neither `__len__`
nor `__bool__`.  What is in a sheet is a parameter (`α`), as is how it is read (`read`: the position
in the stream and the name) and what of the book reading looks at and changes (`κ`: in xls files the
country settings, by which a COUNTRY record in one sheet can make that of another fail).
-/

namespace CP

/-- A `Sheet` object: what was read, and its attribute `number` (sheet.py:328 `self.number = number`). -/
structure SheetObj (α : Type) where
  cells : α
  number : Int
  deriving DecidableEq

/-- The attributes of a `Book` that matter here, book.py:583-588 and 606: `_sheet_names`, `_sheet_list`, `nsheets`,
`_sh_abs_posn` (which stays empty for xlsx books), `_resources_released`; and what reading depends on. -/
structure BookObj (κ α : Type) where
  names : List (List Char)
  sheets : List (Option (SheetObj α))
  nsheets : Nat
  places : List Int
  released : Bool
  env : κ

/-- `l[i] = x`; out of range it is an IndexError. -/
def pySetItem {α : Type} (l : List α) (i : Int) (x : α) : Except Exc (List α) :=
  let j := if i < 0 then i + l.length else i
  if j < 0 ∨ l.length ≤ j then .error .indexError else .ok (l.set j.toNat x)

variable {κ α : Type}

/-- book.py:721-740 `get_sheet`: with update_pos.  There are as many names as positions, so that the look-up of the
name does not fail. -/
def BookObj.getSheet (read : κ → Int → List Char → κ × Except Exc α) (b : BookObj κ α) (i : Int) : BookObj κ α × Except Exc (SheetObj α) :=
  if b.released then (b, .error .xlrdError)
  else
    match pyIndex b.places i with
    | .error e => (b, .error e)
    | .ok pos =>
      match pyIndex b.names i with
      | .error e => (b, .error e)
      | .ok name =>
        match read b.env pos name with
        | (env, .error e) => ({ b with env := env }, .error e)
        | (env, .ok x) =>
          match pySetItem b.sheets i (some ⟨x, i⟩) with
          | .error e => ({ b with env := env }, .error e)
          | .ok l => ({ b with sheets := l, env := env }, .ok ⟨x, i⟩)

/-- book.py:463-468 `sheet_by_index` -/
def BookObj.sheetByIndex (read : κ → Int → List Char → κ × Except Exc α) (b : BookObj κ α) (i : Int) : BookObj κ α × Except Exc (SheetObj α) :=
  match pyIndex b.sheets i with
  | .error e => (b, .error e)
  | .ok (some s) => (b, .ok s)
  | .ok none => b.getSheet read i

/-- `self._sheet_names.index(sheet_name)`, with XLRDError for ValueError: book.py:483-486, 519-522, 534-537 -/
def BookObj.nameIndex (b : BookObj κ α) (name : List Char) : Except Exc Int :=
  match b.names.findIdx? (fun n => n = name) with
  | some k => .ok k
  | none => .error .xlrdError

/-- book.py:478-487 `sheet_by_name` -/
def BookObj.sheetByName (read : κ → Int → List Char → κ × Except Exc α) (b : BookObj κ α) (name : List Char) :
    BookObj κ α × Except Exc (SheetObj α) :=
  match b.nameIndex name with
  | .error e => (b, .error e)
  | .ok i => b.sheetByIndex read i

/-- book.py:470-476 `__iter__`, as `list(book)` runs it: from sheet number `k` on, `n` sheets. -/
def BookObj.iterFrom (read : κ → Int → List Char → κ × Except Exc α) : BookObj κ α → Nat → Nat → BookObj κ α × Except Exc (List (SheetObj α))
  | b, _, 0 => (b, .ok [])
  | b, k, n + 1 =>
    match b.sheetByIndex read k with
    | (b, .error e) => (b, .error e)
    | (b, .ok s) =>
      match BookObj.iterFrom read b (k + 1) n with
      | (b, .error e) => (b, .error e)
      | (b, .ok l) => (b, .ok (s :: l))

/-- book.py:458-460: the loop of `sheets`. -/
def BookObj.loadFrom (read : κ → Int → List Char → κ × Except Exc α) : BookObj κ α → Nat → Nat → BookObj κ α × Except Exc Unit
  | b, _, 0 => (b, .ok ())
  | b, k, n + 1 =>
    match pyIndex b.sheets (k : Int) with
    | .error e => (b, .error e)
    | .ok (some _) => BookObj.loadFrom read b (k + 1) n
    | .ok none =>
      match b.getSheet read k with
      | (b, .error e) => (b, .error e)
      | (b, .ok _) => BookObj.loadFrom read b (k + 1) n

/-- What client code does with a book: `sheets()`, `sheet_by_index(i)` (or `book[i]`), `sheet_by_name(s)` (or `book[s]`,
book.py:489-498), `list(book)`, `sheet_names()`, `sheet_loaded`, `unload_sheet`, `release_resources` (or the end of a
`with` block), `get_sheet(i)`. -/
inductive BookOp where
  | sheets
  | byIndex (i : Int)
  | byName (s : List Char)
  | list
  | names
  | loaded (i : Int)
  | loadedName (s : List Char)
  | unload (i : Int)
  | unloadName (s : List Char)
  | release
  | get (i : Int)

/-- What it gets. -/
inductive BookAns (α : Type) where
  | sheet (s : SheetObj α)
  | sheets (l : List (Option (SheetObj α)))
  | names (l : List (List Char))
  | truth (b : Bool)
  | nothing
  | raised (e : Exc)

/-- A sheet, or an exception. -/
def sheetAns : BookObj κ α × Except Exc (SheetObj α) → BookObj κ α × BookAns α
  | (b, .error e) => (b, .raised e)
  | (b, .ok s) => (b, .sheet s)

/-- book.py:523 -/
def BookObj.loadedAns (b : BookObj κ α) (i : Int) : BookAns α :=
  match pyIndex b.sheets i with
  | .error e => .raised e
  | .ok s => .truth s.isSome

/-- book.py:538 -/
def BookObj.unloadAns (b : BookObj κ α) (i : Int) : BookObj κ α × BookAns α :=
  match pySetItem b.sheets i none with
  | .error e => (b, .raised e)
  | .ok l => ({ b with sheets := l }, .nothing)

/-- One step: book.py:452-461 `sheets`, 463-498 as above, 500-507 `sheet_names`, 509-523 `sheet_loaded`, 525-538 `unload_sheet`,
540-560 `release_resources`. -/
def BookObj.step (read : κ → Int → List Char → κ × Except Exc α) (b : BookObj κ α) : BookOp → BookObj κ α × BookAns α
  | .sheets =>
    match b.loadFrom read 0 b.nsheets with
    | (b, .error e) => (b, .raised e)
    | (b, .ok ()) => (b, .sheets b.sheets)
  | .byIndex i => sheetAns (b.sheetByIndex read i)
  | .byName s => sheetAns (b.sheetByName read s)
  | .list =>
    match b.iterFrom read 0 b.nsheets with
    | (b, .error e) => (b, .raised e)
    | (b, .ok l) => (b, .sheets (l.map some))
  | .names => (b, .names b.names)
  | .loaded i => (b, b.loadedAns i)
  | .loadedName s =>
    match b.nameIndex s with
    | .error e => (b, .raised e)
    | .ok i => (b, b.loadedAns i)
  | .unload i => b.unloadAns i
  | .unloadName s =>
    match b.nameIndex s with
    | .error e => (b, .raised e)
    | .ok i => b.unloadAns i
  | .release => ({ b with released := true }, .nothing)
  | .get i => sheetAns (b.getSheet read i)

end CP
