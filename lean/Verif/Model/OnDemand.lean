import Verif.Model.BookAccess
import Verif.Model.XlsBook
/-!
# Model of xls books that are opened on demand, xlrd/book.py
-/

namespace CP
variable {σ τ : Type}

/-- xlrd/book.py:721-740 `get_sheet` of an xls book, from the position and the name on: `getbof` and `Sheet.read`, with the
country settings of the book before and after.  (After an error they are left as they were; reading may have set them.) -/
def demandRead (E : BookEnv σ τ) (bv : Nat) (G : Globals τ) (ragged : Bool) (mem : Bytes) (countries : Nat × Nat) (pos : Int)
    (_ : List Char) : (Nat × Nat) × Except Exc Grid :=
  match getbof mem pos 0x10 with
  | .error e => (countries, .error e)
  | .ok (_, pos) =>
    match readSheet (sheetEnv E bv G) ragged E.obj0 countries (recordsAt mem pos) with
    | .error e => (countries, .error e)
    | .ok (g, countries) => (countries, .ok g)

/-- A book opened on demand: the date mode, how sheets are read, and the object. -/
structure DemandBook where
  datemode : Nat
  read : Nat × Nat → Int → List Char → (Nat × Nat) × Except Exc Grid
  book : BookObj (Nat × Nat) Grid

/-- xlrd/book.py:89-142 `open_workbook_xls` with `on_demand=True` after `biff2_8_load`.  Before BIFF 5 `on_demand` is set to
False, so that all sheets are there and the resources are released (`read` does not matter then). -/
def openDemand (E : BookEnv σ τ) (ragged : Bool) (mem : Bytes) (base : Int) : Except Exc DemandBook :=
  match getbof mem base 5 with
  | .error e => .error e
  | .ok (bv, pos) =>
    if bv = 0 then .error .xlrdError
    else if bv < 50 then
      match E.old bv mem base with
      | .error e => .error e
      | .ok (datemode, gs) => .ok ⟨datemode, fun c _ _ => (c, .error .xlrdError),
          ⟨gs.map BookSheet.name, gs.mapIdx fun k s => some ⟨s.grid, k⟩, gs.length, gs.map fun _ => 0, true, (0, 0)⟩⟩
    else
      let recs := recordsAt mem pos
      match globalsLoop E bv base (recs.length + 1) (Globals.init E.names0) recs with
      | .error e => .error e
      | .ok G => .ok ⟨G.datemode, demandRead E bv G ragged mem,
          ⟨G.sheets.map Prod.fst, G.sheets.map fun _ => none, G.sheets.length, G.sheets.map Prod.snd, false, G.countries⟩⟩

end CP
