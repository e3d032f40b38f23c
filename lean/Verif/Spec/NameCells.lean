import Verif.Spec.XlsNames
/-!
# Specification: names that stand for cells

Written from the file format and from what the operators of Excel mean: a space is for the cells that are in both
areas, a colon for the smallest area with both in it, a comma for both areas.
-/

namespace CP.Spec

/-- Areas: sheets (by their numbers among all sheets of the book), rows and columns, first and last; what is in both of
two areas; the smallest area with two areas in it. -/
inductive AreaExpr
  | box (s1 s2 r1 r2 c1 c2 : Nat)
  | both (a b : AreaExpr)
  | span (a b : AreaExpr)

/-- Work sheet number `s` has the number `k` among all sheets. -/
def WorkSheetAt (all : List (List Char × Nat)) (k s : Nat) : Prop :=
  (∃ name, all[k]? = some (name, 0)) ∧ ((all.take k).filter fun p => p.2 = 0).length = s

/-- `x` is between two of the numbers `S`. -/
def Amid (S : Nat → Prop) (x : Nat) : Prop := ∃ y z, S y ∧ S z ∧ y ≤ x ∧ x ≤ z

/-- The cells of an area: the number of the work sheet, row and column. -/
def AreaExpr.cells (all : List (List Char × Nat)) : AreaExpr → Nat → Nat → Nat → Prop
  | .box s1 s2 r1 r2 c1 c2, s, r, c => (∃ k, s1 ≤ k ∧ k ≤ s2 ∧ WorkSheetAt all k s) ∧ (r1 ≤ r ∧ r ≤ r2) ∧ c1 ≤ c ∧ c ≤ c2
  | .both a b, s, r, c => a.cells all s r c ∧ b.cells all s r c
  | .span a b, s, r, c =>
    Amid (fun s => ∃ r c, a.cells all s r c ∨ b.cells all s r c) s ∧ Amid (fun r => ∃ s c, a.cells all s r c ∨ b.cells all s r c) r ∧
      Amid (fun c => ∃ s r, a.cells all s r c ∨ b.cells all s r c) c

/-- Areas begin and end with work sheets and do not end before they begin; areas without cells (`#NULL!`) have no
smallest area with them. -/
def AreaExpr.Ok (all : List (List Char × Nat)) : AreaExpr → Prop
  | .box s1 s2 r1 r2 c1 c2 => s1 ≤ s2 ∧ (∃ name, all[s1]? = some (name, 0)) ∧ (∃ name, all[s2]? = some (name, 0)) ∧ r1 ≤ r2 ∧ c1 ≤ c2
  | .both a b => a.Ok all ∧ b.Ok all
  | .span a b => a.Ok all ∧ b.Ok all ∧ (∃ s r c, a.cells all s r c) ∧ ∃ s r c, b.cells all s r c

/-- The sheets of a reference: in BIFF 8 by the number of a reference to the book itself, before by their
numbers, after a number that is not positive (and eight bytes more). -/
inductive SheetBytes (v8 : Bool) (ds : List NameRec) : Nat → Nat → List UInt8 → Prop
  | xti {i k s1 s2} : v8 = true → i < 65536 → (xtisOf ds)[i]? = some (k, s1, s2) → (supKinds ds)[k]? = some .own → s2 < 0xFFFE →
      SheetBytes v8 ds s1 s2 (leBytes 2 i)
  | own {x mid s1 s2} : v8 = false → x = 0 ∨ 32768 ≤ x → x < 65536 → mid.length = 8 → s1 < 32768 → s2 < 32768 →
      SheetBytes v8 ds s1 s2 (leBytes 2 x ++ mid ++ leBytes 2 s1 ++ leBytes 2 s2)

/-- A row and a column without `$` have flags in the two highest bits of the column (BIFF 8) or of the row. -/
def RowsCols (v8 : Bool) (r c : Nat) : Prop := r < (if v8 then 65536 else 16384) ∧ c < 256

/-- The tokens of an area with `$` before all its rows and columns, in reverse Polish notation. -/
inductive AreaBytes (v8 : Bool) (ds : List NameRec) : AreaExpr → List UInt8 → Prop
  | cell {s1 s2 r c sh} : SheetBytes v8 ds s1 s2 sh → RowsCols v8 r c →
      AreaBytes v8 ds (.box s1 s2 r r c c) (0x3A :: (sh ++ (leBytes 2 r ++ leBytes (if v8 then 2 else 1) c)))
  | area {s1 s2 r1 r2 c1 c2 sh} : SheetBytes v8 ds s1 s2 sh → RowsCols v8 r1 c1 → RowsCols v8 r2 c2 →
      AreaBytes v8 ds (.box s1 s2 r1 r2 c1 c2)
        (0x3B :: (sh ++ (leBytes 2 r1 ++ leBytes 2 r2 ++ leBytes (if v8 then 2 else 1) c1 ++ leBytes (if v8 then 2 else 1) c2)))
  | both {a b x y} : AreaBytes v8 ds a x → AreaBytes v8 ds b y → AreaBytes v8 ds (.both a b) (x ++ (y ++ [0x0F]))
  | span {a b x y} : AreaBytes v8 ds a x → AreaBytes v8 ds b y → AreaBytes v8 ds (.span a b) (x ++ (y ++ [0x11]))
  | before {a x t} : Noop t → AreaBytes v8 ds a x → AreaBytes v8 ds a (t ++ x)
  | after {a x t} : AreaBytes v8 ds a x → Noop t → AreaBytes v8 ds a (x ++ t)

/-- The tokens of areas with commas between them. -/
inductive AreasBytes (v8 : Bool) (ds : List NameRec) : List AreaExpr → List UInt8 → Prop
  | one {a x} : AreaBytes v8 ds a x → AreasBytes v8 ds [a] x
  | more {as a x y} : AreasBytes v8 ds as x → AreaBytes v8 ds a y → AreasBytes v8 ds (as ++ [a]) (x ++ (y ++ [0x10]))
  | before {as x t} : Noop t → AreasBytes v8 ds as x → AreasBytes v8 ds as (t ++ x)
  | after {as x t} : AreasBytes v8 ds as x → Noop t → AreasBytes v8 ds as (x ++ t)

/-- Only one SUPBOOK record is for the book itself. -/
def OneOwn (ds : List NameRec) : Prop := ∀ i k : Nat, (supKinds ds)[i]? = some .own → (supKinds ds)[k]? = some .own → i = k

/-- Among the records `gs` of external references and names, the name number `j` (not a macro, no binary data) stands for
the areas `as`. -/
def StandsFor (v8 : Bool) (gs : List NameGroup) (all : List (List Char × Nat)) (j : Nat) (as : List AreaExpr) : Prop :=
  ∃ ds o, Each (NameGroupIs v8) gs ds ∧ (∀ a b, ds = a ++ .externName :: b → v8 = true → supKinds a ≠ []) ∧ OneOwn ds ∧ (nameDefs ds)[j]? = some o ∧
    o.special = false ∧ AreasBytes v8 ds as o.fmla ∧ ∀ a ∈ as, a.Ok all

/-- The area is of one work sheet, `s`, and has cells. -/
def AreaExpr.On (all : List (List Char × Nat)) (a : AreaExpr) (s : Nat) : Prop :=
  (∃ r c, a.cells all s r c) ∧ ∀ s' r c, a.cells all s' r c → s' = s

/-- The area is one cell. -/
def AreaExpr.Single (all : List (List Char × Nat)) (a : AreaExpr) (s r c : Nat) : Prop :=
  ∀ s' r' c', a.cells all s' r' c' ↔ s' = s ∧ r' = r ∧ c' = c

end CP.Spec
