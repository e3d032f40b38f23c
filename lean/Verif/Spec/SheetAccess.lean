import Verif.Model.SheetAccess
/-!
# Specification: slices and indices as those of lists
-/

namespace CP.Spec

/-- An index counted from the end if it is negative. -/
def fromEnd (n : Nat) (i : Int) : Int := if i < 0 then n + i else i

/-- The places of `l[a:b]` (`l[a:]` for `b` none) for a list of `n` items, in order. -/
def positions (n : Nat) (a : Int) (b : Option Int) : List Nat :=
  (List.range n).filter fun k => decide (fromEnd n a ≤ k ∧ ∀ e ∈ b, (k : Int) < fromEnd n e)

/-- The items of a list at some places. -/
def itemsAt {α : Type} (l : List α) (ks : List Nat) : List α := ks.filterMap fun k => l[k]?

/-- The tables of a sheet have one shape with `nrows` rows. -/
structure Shaped (g : Grid) : Prop where
  rows : g.values.length = g.nrows
  types : g.types.map List.length = g.values.map List.length
  xfs : g.fmt = true → g.xfs.map List.length = g.values.map List.length

/-- `l` lists, without an exception, what `f` gives at some places. -/
def ListsAt {α : Type} (f : Nat → Except Exc α) (ks : List Nat) (l : List α) : Prop :=
  ks.map f = l.map .ok

/-- The number of the format that counts: that of the cell, else of the row, else of the column,
else 15. -/
def formatOf (own : Int) (row col : Option Int) : Int :=
  if 0 ≤ own then own
  else match row.filter (0 ≤ ·) with
    | some x => x
    | none => match col.filter (· ≠ -1) with
      | some x => x
      | none => 15

/-- `i` is an index of the place `k` among `n`: counted from the start or from the end. -/
def IsIndexOf (n : Nat) (i : Int) (k : Nat) : Prop := k < n ∧ (i = k ∨ i = (k : Int) - n)

/-- A cell found by any of its indices is the same; for all sheets or for those without formats. -/
def SameByIndex (all : Bool) : Prop :=
  ∀ (s : SheetView), Shaped s.grid → (all = true ∨ s.grid.fmt = false) →
    ∀ (i j : Int) (r c : Nat) (l : List Val), s.grid.values[r]? = some l → IsIndexOf s.grid.nrows i r → IsIndexOf l.length j c →
      s.cell i j = s.cell r c

end CP.Spec
