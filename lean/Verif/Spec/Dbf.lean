import Verif.Model.Py
/-!
# Specification of DBF files

Written from the file format: a 32 byte header, 32 byte field descriptors, a carriage
return, and fixed width records led by a flag byte.
-/

namespace CP.Spec

/-- Two lists of the same length, related element by element. -/
inductive Each2 {α β : Type} (R : α → β → Prop) : List α → List β → Prop
  | nil : Each2 R [] []
  | cons {a b as bs} : R a b → Each2 R as bs → Each2 R (a :: as) (b :: bs)

/-- The `k` bytes of `n`, least significant first. -/
def leBytes : Nat → Nat → List UInt8
  | 0, _ => []
  | k + 1, n => UInt8.ofNat (n % 256) :: leBytes k (n / 256)

structure DbfColumn where
  name : List Char
  typ : UInt8
  size : Nat
  deci : Nat

/-- A record: the flag byte and the raw bytes of the cells. -/
structure DbfRow where
  flag : UInt8
  cells : List (List UInt8)

/-- Not marked deleted. -/
def DbfRow.Live (r : DbfRow) : Prop := r.flag = 32

instance (r : DbfRow) : Decidable r.Live := inferInstanceAs (Decidable (_ = _))

/-- `d` is the descriptor of a column; the reserved bytes are arbitrary. -/
def IsDescriptor (d : List UInt8) (c : DbfColumn) : Prop :=
  c.name.length ≤ 11 ∧ (∀ x ∈ c.name, 0 < x.toNat ∧ x.toNat < 128) ∧
  c.size < 256 ∧ c.deci < 256 ∧
  ∃ a b, a.length = 4 ∧ b.length = 14 ∧
    d = (c.name.map fun x => UInt8.ofNat x.toNat) ++ List.replicate (11 - c.name.length) 0 ++
      [c.typ] ++ a ++ [UInt8.ofNat c.size, UInt8.ofNat c.deci] ++ b

/-- The row has a cell of the right width for each column. -/
def DbfRow.Fits (cols : List DbfColumn) (r : DbfRow) : Prop :=
  Each2 (fun c x => x.length = c.size) cols r.cells

/-- `file` is a DBF file of the columns and rows given; reserved bytes and what follows
the last record are arbitrary. -/
def IsDbf (file : List UInt8) (cols : List DbfColumn) (rows : List DbfRow) : Prop :=
  rows.length < 256 ^ 4 ∧ 32 * cols.length + 33 < 256 ^ 2 ∧ (∀ r ∈ rows, r.Fits cols) ∧
  ∃ a b descs tail, a.length = 4 ∧ b.length = 22 ∧ Each2 IsDescriptor descs cols ∧
    file = a ++ leBytes 4 rows.length ++ leBytes 2 (32 * cols.length + 33) ++ b ++
      descs.flatten ++ [13] ++ (rows.map fun r => r.flag :: r.cells.flatten).flatten ++ tail

/-- Whitespace: space, tab, newline, vertical tab, form feed, carriage return. -/
def IsWhite (b : UInt8) : Prop := b = 32 ∨ (9 ≤ b.toNat ∧ b.toNat ≤ 13)

/-- Nothing but whitespace. -/
def BlankField (b : List UInt8) : Prop := ∀ x ∈ b, IsWhite x

/-- Nothing but whitespace and NULs. -/
def BlankNul (b : List UInt8) : Prop := ∀ x ∈ b, IsWhite x ∨ x = 0

/-- The value of decimal digits, most significant first; each byte is a digit. -/
inductive ByteDigits : List UInt8 → Nat → Prop
  | nil : ByteDigits [] 0
  | snoc {ds n d} : ByteDigits ds n → d < 10 → ByteDigits (ds ++ [UInt8.ofNat (48 + d)]) (n * 10 + d)

/-- A decimal integer, with or without sign, within whitespace. -/
inductive IntText : List UInt8 → Int → Prop
  | plain {w ds w' n} : BlankField w → BlankField w' → ds ≠ [] → ByteDigits ds n → IntText (w ++ ds ++ w') n
  | plus {w ds w' n} : BlankField w → BlankField w' → ds ≠ [] → ByteDigits ds n → IntText (w ++ 43 :: ds ++ w') n
  | minus {w ds w' n} : BlankField w → BlankField w' → ds ≠ [] → ByteDigits ds n →
      IntText (w ++ 45 :: ds ++ w') (-(n : Int))

/-- A date of the Gregorian calendar, years 1 to 9999. -/
def IsDate (y m d : Nat) : Prop :=
  1 ≤ y ∧ y ≤ 9999 ∧ 1 ≤ d ∧
  ((m ∈ [1, 3, 5, 7, 8, 10, 12] ∧ d ≤ 31) ∨ (m ∈ [4, 6, 9, 11] ∧ d ≤ 30) ∨
   (m = 2 ∧ (d ≤ 28 ∨ (d = 29 ∧ 4 ∣ y ∧ (¬ 100 ∣ y ∨ 400 ∣ y)))))

/-- The type letters. -/
abbrev tyN : UInt8 := 78
abbrev tyD : UInt8 := 68
abbrev tyL : UInt8 := 76
abbrev tyF : UInt8 := 70

/-- What a cell means, given how decimal fractions are read (`fl`). -/
inductive CellMeans (fl : List UInt8 → Except Exc Val) : DbfColumn → List UInt8 → Val → Prop
  | noNumber {c raw} : c.typ = tyN → BlankNul raw → CellMeans fl c raw .nan
  | integer {c raw i} : c.typ = tyN → c.deci = 0 → IntText (raw.filter (· ≠ 0)) i →
      CellMeans fl c raw (.int i)
  | decimal {c raw w ds v} : c.typ = tyN → c.deci ≠ 0 → raw.filter (· ≠ 0) = w ++ ds → BlankField w →
      (∃ x, ds.head? = some x ∧ ¬ IsWhite x) → fl ds = .ok v → CellMeans fl c raw v
  | noDate {c raw} : c.typ = tyD → BlankField raw → CellMeans fl c raw .none
  | date {c ys ms ds rest y m d} : c.typ = tyD → ys.length = 4 → ms.length = 2 → ds.length = 2 →
      ByteDigits ys y → ByteDigits ms m → ByteDigits ds d → IsDate y m d →
      CellMeans fl c (ys ++ ms ++ ds ++ rest) (.date y m d)
  | true {c b} : c.typ = tyL → b ∈ [89, 121, 84, 116] → CellMeans fl c [b] (.str ['T'])
  | false {c b} : c.typ = tyL → b ∈ [78, 110, 70, 102] → CellMeans fl c [b] (.str ['F'])
  | unknown {c b} : c.typ = tyL → b ∉ [89, 121, 84, 116] → b ∉ [78, 110, 70, 102] →
      CellMeans fl c [b] (.str ['?'])
  | noFloat {c raw} : c.typ = tyF → BlankField raw → CellMeans fl c raw .nan
  | float {c raw v} : c.typ = tyF → ¬ BlankField raw → fl raw = .ok v → CellMeans fl c raw v
  | text {c raw s} : c.typ ≠ tyN → c.typ ≠ tyD → c.typ ≠ tyL → c.typ ≠ tyF →
      (∀ x ∈ s, x.toNat < 128) → raw = (s.map fun x => UInt8.ofNat x.toNat) →
      CellMeans fl c raw (.str s)

end CP.Spec
