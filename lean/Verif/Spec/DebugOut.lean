import Verif.Spec.Text
/-!
# The last line of a text file that could be read
-/

namespace CP.Spec

/-- Line `n`, counted from 1, is the last one that could be read.  `Reads` tells if a file of these
lines can be read, `Blank` which lines are passed over, and `before` lines are above the data.  The line
is the first line of data or a line that is not blank; the file up to it can be read; below it there are
blank lines only until the line `m`, with which the file cannot be read any more. -/
def LastGood (Reads : List (List Char) → Prop) (Blank : List Char → Prop) (before : Nat)
    (ls : List (List Char)) (n : Nat) : Prop :=
  before < n ∧ (n = before + 1 ∨ ∃ l, ls[n - 1]? = some l ∧ ¬ Blank l) ∧ Reads (ls.take n) ∧
  ∃ m, n < m ∧ m ≤ ls.length ∧ (∀ k, n < k → k < m → ∃ l, ls[k - 1]? = some l ∧ Blank l) ∧
    (∃ l, ls[m - 1]? = some l ∧ ¬ Blank l) ∧ ∀ k, m ≤ k → ¬ Reads (ls.take k)

/-- There is one such line at most. -/
theorem lastGood_unique {Reads : List (List Char) → Prop} {Blank : List Char → Prop} {before : Nat}
    {ls : List (List Char)} {n n' : Nat} (h : LastGood Reads Blank before ls n)
    (h' : LastGood Reads Blank before ls n') : n = n' := by
  have key : ∀ {a b : Nat}, LastGood Reads Blank before ls a → LastGood Reads Blank before ls b → ¬ a < b := by
    rintro a b ⟨a1, a2, a3, m, m1, m2, m3, m4, m5⟩ ⟨b1, b2, b3, -⟩ hlt
    by_cases hm : m ≤ b
    · exact m5 b hm b3
    · obtain ⟨l, hl, hb⟩ := m3 b hlt (by omega)
      rcases b2 with rfl | ⟨l', hl', hb'⟩
      · omega
      · rw [hl] at hl'
        cases hl'
        exact hb' hb
  have := key h h'
  have := key h' h
  omega

/-- The lines above the data: those skipped, the last of which has the names, if there are such in the
file (one line at least then). -/
def linesBefore (skiprows : Int) (namesInFile : Bool) : Nat :=
  if namesInFile then (skiprows - 1).toNat + 1 else skiprows.toNat

end CP.Spec
