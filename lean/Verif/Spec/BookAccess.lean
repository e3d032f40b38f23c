import Verif.Model.BookAccess
import Verif.Spec.SheetAccess
/-!
# Specification: the sheets of an open book
-/

namespace CP.Spec
variable {κ α : Type}

/-- How a book was opened: an xls file on demand, an xls file at once, an xlsx file. -/
inductive BookKind
  | onDemand
  | whole
  | xlsx
  deriving DecidableEq

/-- The book as `open_workbook` gives it, for a file with these names and sheets: on demand nothing is
loaded, otherwise all of it, and for xls files the resources are released then.  On demand the sheets can be read in any order:
that keeps the book in states (`Good`) in which each gives what the file has. -/
inductive OpenBook (read : κ → Int → List Char → κ × Except Exc α) (content : List (List Char × α)) : BookKind → BookObj κ α → Prop
  | onDemand {places : List Int} {env : κ} (Good : κ → Prop) : places.length = content.length → Good env →
      (∀ (k : Nat) pos name x, places[k]? = some pos → content[k]? = some (name, x) →
        ∀ env, Good env → ∃ env', Good env' ∧ read env pos name = (env', .ok x)) →
      OpenBook read content .onDemand ⟨content.map Prod.fst, content.map fun _ => none, content.length, places, false, env⟩
  | whole {places : List Int} {env : κ} :
      OpenBook read content .whole ⟨content.map Prod.fst, content.mapIdx fun k c => some ⟨c.2, k⟩, content.length, places, true, env⟩
  | xlsx {env : κ} :
      OpenBook read content .xlsx ⟨content.map Prod.fst, content.mapIdx fun k c => some ⟨c.2, k⟩, content.length, [], false, env⟩

/-- The book after any steps; `rel` says whether `release_resources` was called. -/
inductive BookReached (read : κ → Int → List Char → κ × Except Exc α) (content : List (List Char × α)) (kind : BookKind) :
    (rel : Bool) → BookObj κ α → Prop
  | opened {b} : OpenBook read content kind b → BookReached read content kind false b
  | step {rel b op} : BookReached read content kind rel b → op ≠ .release → BookReached read content kind rel (b.step read op).1
  | release {rel b} : BookReached read content kind rel b → BookReached read content kind true (b.step read .release).1

/-- The place of the first sheet with this name. -/
def FirstSheetNamed (content : List (List Char × α)) (s : List Char) (k : Nat) : Prop :=
  (∃ x, content[k]? = some (s, x)) ∧ ∀ j x, j < k → content[j]? ≠ some (s, x)

/-- `sheet_loaded(k)` is True. -/
def IsLoaded (read : κ → Int → List Char → κ × Except Exc α) (b : BookObj κ α) (k : Nat) : Prop := (b.step read (.loaded k)).2 = .truth true

/-- Sheets can be read: the book was opened on demand, and its resources are not released. -/
def Readable (kind : BookKind) (rel : Bool) : Prop := kind = .onDemand ∧ rel = false

/-- The exception if they cannot. -/
def noMore (kind : BookKind) (rel : Bool) : Exc := if kind = .xlsx ∧ rel = false then .indexError else .xlrdError

/-- The step asks for the sheet at this place. -/
def AsksFor (content : List (List Char × α)) (k : Nat) : BookOp → Prop
  | .sheets => k < content.length
  | .list => k < content.length
  | .byIndex i => IsIndexOf content.length i k
  | .get i => IsIndexOf content.length i k
  | .byName s => FirstSheetNamed content s k
  | _ => False

/-- The step unloads the sheet at this place. -/
def Unloads (content : List (List Char × α)) (k : Nat) : BookOp → Prop
  | .unload i => IsIndexOf content.length i k
  | .unloadName s => FirstSheetNamed content s k
  | _ => False

end CP.Spec
