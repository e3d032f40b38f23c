import Verif.Lemmas.ReadXl
/-!
# Specification: names of references

How references are written, in the style with letters for columns (A1) and in the one with numbers for both (R1C1).
-/

namespace CP.Spec

/-- The name of a sheet as it is written: as it is, or between quotes, the quotes in it written twice. -/
def SheetWord (n t : List Char) : Prop :=
  (t = n ∧ '\'' ∉ n ∧ ' ' ∉ n) ∨ t = '\'' :: n.flatMap (fun c => if c = '\'' then ['\'', '\''] else [c]) ++ ['\'']

/-- Two sheets, or one. -/
def SheetsText (names : List (List Char)) (s1 s2 : Nat) (t : List Char) : Prop :=
  if s1 = s2 then ∃ n, names[s1]? = some n ∧ SheetWord n t
  else ∃ n n' w w', names[s1]? = some n ∧ names[s2]? = some n' ∧ SheetWord n w ∧ SheetWord n' w' ∧ t = w ++ ':' :: w'

/-- A cell in the A1 style; rows and columns are numbered from 0, those that are fixed have a dollar sign. -/
def A1Cell (rowfix colfix : Bool) (r c : Nat) (t : List Char) : Prop :=
  ∃ s, ColName s ∧ letterValue s = c + 1 ∧
    t = (if colfix then ['$'] else []) ++ s ++ (if rowfix then ['$'] else []) ++ Nat.toDigits 10 (r + 1)

/-- An int in decimal digits. -/
def SignedText (i : Int) : List Char := if i < 0 then '-' :: Nat.toDigits 10 i.natAbs else Nat.toDigits 10 i.natAbs

/-- A row or column in the R1C1 style: its number from 1, or how far it is away. -/
def NumberedPart (letter : Char) (rel : Bool) (x : Int) : List Char :=
  letter :: (if rel = false then SignedText (x + 1) else if x = 0 then [] else '[' :: SignedText x ++ [']'])

/-- A cell in the R1C1 style. -/
def NumberedCell (rowrel colrel : Bool) (r c : Int) : List Char := NumberedPart 'R' rowrel r ++ NumberedPart 'C' colrel c

/-- An area from one cell to another, or of one cell (`$B$2:$C$3`, `$B$2`). -/
def AreaText (r1 r2 c1 c2 : Nat) (t : List Char) : Prop :=
  if r1 = r2 ∧ c1 = c2 then A1Cell true true r1 c1 t
  else ∃ a b, A1Cell true true r1 c1 a ∧ A1Cell true true r2 c2 b ∧ t = a ++ ':' :: b

/-- An area of sheets; all bounds are the last ones that belong to it. -/
def SheetAreaText (names : List (List Char)) (s1 s2 r1 r2 c1 c2 : Nat) (t : List Char) : Prop :=
  ∃ a b, SheetsText names s1 s2 a ∧ AreaText r1 r2 c1 c2 b ∧ t = a ++ '!' :: b

/-- The cell that is meant: fixed, or so far from the base (and beyond the last one from the first on). -/
def meant (rel : Bool) (base x : Int) (size : Int) : Nat := if rel then ((base + x) % size).toNat else x.toNat

end CP.Spec
