import Verif.Model.Xml
import Verif.Spec.Xlsx
import Verif.Spec.SheetCells
/-!
# Specification: what the parts of an xlsx file say

Relations between XML elements and what they stand for.  They say what files a reader has to
accept, not what is done with others.
-/

namespace CP.Spec

/-! ## Text -/

/-- The value of a hexadecimal digit, 16 for other characters. -/
def hexDigit (c : Char) : Nat :=
  if 48 ≤ c.toNat ∧ c.toNat ≤ 57 then c.toNat - 48
  else if 65 ≤ c.toNat ∧ c.toNat ≤ 70 then c.toNat - 55
  else if 97 ≤ c.toNat ∧ c.toNat ≤ 102 then c.toNat - 87
  else 16

/-- `s` is an escape `_xHHHH_` for the character number `n`. -/
def Escape (s : List Char) (n : Nat) : Prop :=
  ∃ a b c d, s = ['_', 'x', a, b, c, d, '_'] ∧ hexDigit a < 16 ∧ hexDigit b < 16 ∧ hexDigit c < 16 ∧ hexDigit d < 16 ∧
    n = 4096 * hexDigit a + 256 * hexDigit b + 16 * hexDigit c + hexDigit d

/-- The text that a text with escapes stands for, read from the left. -/
inductive Unescaped : List Char → List Char → Prop
  | nil : Unescaped [] []
  | esc {e n rest t} : Escape e n → Unescaped rest t → Unescaped (e ++ rest) (Char.ofNat n :: t)
  | char {c rest t} : (¬ ∃ e n r, Escape e n ∧ c :: rest = e ++ r) → Unescaped rest t → Unescaped (c :: rest) (c :: t)

/-- White space of XML. -/
def XmlBlank (c : Char) : Prop := c = '\t' ∨ c = '\n' ∨ c = ' ' ∨ c = '\r'

/-- `t` is `s` without white space at both ends. -/
def XmlTrimmed (s t : List Char) : Prop :=
  ∃ a b, s = a ++ t ++ b ∧ (∀ c ∈ a, XmlBlank c) ∧ (∀ c ∈ b, XmlBlank c) ∧
    (∀ c, t.head? = some c → ¬ XmlBlank c) ∧ ∀ c, t.getLast? = some c → ¬ XmlBlank c

/-- White space is to be preserved. -/
def Preserves (e : Elem) : Prop :=
  e.get ⟨.xml, ['s', 'p', 'a', 'c', 'e']⟩ = some ['p', 'r', 'e', 's', 'e', 'r', 'v', 'e']

/-- The text of an element. -/
def TextOf (e : Elem) (t : List Char) : Prop :=
  (e.text = none ∧ t = []) ∨
  ∃ s, e.text = some s ∧ ((Preserves e ∧ Unescaped s t) ∨ (¬ Preserves e ∧ ∃ u, XmlTrimmed s u ∧ Unescaped u t))

/-- The text elements of a string item: its own, and those of its runs.  (Phonetic runs do
not count.) -/
def textNodes (e : Elem) : List Elem :=
  e.children.flatMap fun c =>
    if c.tag = ssml ['t'] then [c] else if c.tag = ssml ['r'] then c.children.filter fun x => x.tag = ssml ['t'] else []

/-- The texts of elements, one after the other. -/
inductive TextsOf : List Elem → List Char → Prop
  | nil : TextsOf [] []
  | cons {e es t u} : TextOf e t → TextsOf es u → TextsOf (e :: es) (t ++ u)

/-- The text of a string item. -/
def ItemText (e : Elem) (t : List Char) : Prop := TextsOf (textNodes e) t

/-! ## Cells -/

/-- What is known of the other parts of the file: the shared strings and the type of cell
for a style (2 for numbers, 3 for dates).  `float` is how text is read as a number. -/
structure Reading where
  float : List Char → Except Exc Val
  strings : List (List Char)
  typeOf : Nat → Option Nat

/-- The one value of a cell, beside formulas. -/
def HasValue (cell v : Elem) : Prop :=
  ∃ a b, cell.children = a ++ v :: b ∧ v.tag = ssml ['v'] ∧ ∀ x ∈ a ++ b, x.tag = ssml ['f']

/-- A cell without a value, or with an empty one. -/
def NoValue (cell : Elem) : Prop :=
  (∀ x ∈ cell.children, x.tag = ssml ['f']) ∨ ∃ v, HasValue cell v ∧ (v.text = none ∨ v.text = some [])

/-- The type of a cell, as given in the file. -/
def CellTag (cell : Elem) (t : List Char) : Prop := cell.get (bare ['t']) = some t

/-- A cell of numbers. -/
def NumberTag (cell : Elem) : Prop := cell.get (bare ['t']) = none ∨ CellTag cell ['n']

/-- The codes of errors. -/
def ErrorCode (t : List Char) (n : Nat) : Prop :=
  (t, n) ∈ [("#NULL!".toList, 0), ("#DIV/0!".toList, 7), ("#VALUE!".toList, 15), ("#REF!".toList, 23), ("#NAME?".toList, 29),
    ("#NUM!".toList, 36), ("#N/A".toList, 42)]

/-- What a cell shows, none for nothing.  The types: 1 text, 2 number, 3 date, 4 boolean, 5
error. -/
inductive Shows (R : Reading) (cell : Elem) (xf : Nat) : Option PutCell → Prop
  | number {v t x ty} : NumberTag cell → HasValue cell v → v.text = some t → t ≠ [] → R.float t = .ok x → R.typeOf xf = some ty →
      Shows R cell xf (some ⟨ty, x, xf⟩)
  | noNumber : NumberTag cell → NoValue cell → Shows R cell xf none
  | shared {v ds s} : CellTag cell ['s'] → HasValue cell v → v.text = some ds → ds ≠ [] → (∀ c ∈ ds, DecDigit c) →
      R.strings[decValue ds]? = some s → Shows R cell xf (some ⟨1, .str s, xf⟩)
  | noShared : CellTag cell ['s'] → NoValue cell → Shows R cell xf none
  | string {v t} : CellTag cell ['s', 't', 'r'] → HasValue cell v → TextOf v t → Shows R cell xf (some ⟨1, .str t, xf⟩)
  | boolTrue {v} : CellTag cell ['b'] → HasValue cell v → v.text = some ['1'] ∨ v.text = some ['t', 'r', 'u', 'e'] →
      Shows R cell xf (some ⟨4, .int 1, xf⟩)
  | boolFalse {v} : CellTag cell ['b'] → HasValue cell v → v.text = some ['0'] ∨ v.text = some ['f', 'a', 'l', 's', 'e'] →
      Shows R cell xf (some ⟨4, .int 0, xf⟩)
  | error {v t n} : CellTag cell ['e'] → HasValue cell v → v.text = some t → ErrorCode t n → Shows R cell xf (some ⟨5, .int n, xf⟩)
  | inline {e t} : CellTag cell ['i', 'n', 'l', 'i', 'n', 'e', 'S', 't', 'r'] → cell.children = [e] → e.tag = ssml ['i', 's'] →
      ItemText e t → t ≠ [] → Shows R cell xf (some ⟨1, .str t, xf⟩)
  | noInline {e} : CellTag cell ['i', 'n', 'l', 'i', 'n', 'e', 'S', 't', 'r'] → cell.children = [e] → e.tag = ssml ['i', 's'] →
      ItemText e [] → Shows R cell xf none

/-- The style of a cell. -/
def StyleOf (cell : Elem) (xf : Nat) : Prop :=
  (cell.get (bare ['s']) = none ∧ xf = 0) ∨
  ∃ ds, cell.get (bare ['s']) = some ds ∧ ds ≠ [] ∧ (∀ c ∈ ds, DecDigit c) ∧ decValue ds = xf

/-- The column `c` of a cell in row `r`: as its name says; without a name the next one, `n`. -/
def ColumnOf (cell : Elem) (r n c : Nat) : Prop :=
  c < 16384 ∧ ((cell.get (bare ['r']) = none ∧ c = n) ∨ ∃ s, cell.get (bare ['r']) = some s ∧ CellName s r c)

/-- The cells of row `r`; `n` is the column of the next one without a name. -/
inductive CellsAre (R : Reading) (r : Nat) : Nat → List Elem → List CellOp → Prop
  | nil {n} : CellsAre R r n [] []
  | blank {n c xf cell rest ops} : ColumnOf cell r n c → StyleOf cell xf → Shows R cell xf none → CellsAre R r (c + 1) rest ops →
      CellsAre R r n (cell :: rest) ops
  | put {n c xf p cell rest ops} : ColumnOf cell r n c → StyleOf cell xf → Shows R cell xf (some p) →
      CellsAre R r (c + 1) rest ops → CellsAre R r n (cell :: rest) (.put r c p :: ops)

/-- The row number `r` (from 0): as given; if it is not, the next one, `n`. -/
def RowOf (row : Elem) (n r : Nat) : Prop :=
  r < 1048576 ∧
    ((row.get (bare ['r']) = none ∧ r = n) ∨ ∃ ds, row.get (bare ['r']) = some ds ∧ RowDigits ds ∧ decValue ds = r + 1)

/-- The elements that matter in a work sheet. -/
def sheetTags : List QName :=
  [ssml ['r', 'o', 'w'], ssml ['d', 'i', 'm', 'e', 'n', 's', 'i', 'o', 'n'], ssml ['m', 'e', 'r', 'g', 'e', 'C', 'e', 'l', 'l']]

/-- None of these elements at or below one of `es`. -/
def Quiet (es : List Elem) : Prop := ∀ e ∈ iterList es, e.tag ∉ sheetTags

/-- The rows of a sheet; `n` is the next one without a number. -/
inductive RowsAre (R : Reading) : Nat → List Elem → List CellOp → Prop
  | nil {n} : RowsAre R n [] []
  | row {n r row rest cs ops} : row.tag = ssml ['r', 'o', 'w'] → Quiet row.children → RowOf row n r →
      CellsAre R r 0 row.children cs → RowsAre R (r + 1) rest ops → RowsAre R n (row :: rest) (cs ++ ops)

/-- A range of cells `B1:D5`, or a cell. -/
def RangeOf (ref : List Char) (r1 c1 r2 c2 : Nat) : Prop :=
  c1 < 16384 ∧ c2 < 16384 ∧
    ((∃ a b, ref = a ++ ':' :: b ∧ CellName a r1 c1 ∧ CellName b r2 c2) ∨ (CellName ref r1 c1 ∧ r2 = r1 ∧ c2 = c1))

/-- Merged ranges. -/
inductive MergesAre : List Elem → List CellOp → Prop
  | nil : MergesAre [] []
  | cons {e rest ref r1 c1 r2 c2 ops} : e.tag = ssml ['m', 'e', 'r', 'g', 'e', 'C', 'e', 'l', 'l'] → e.children = [] →
      e.get (bare ['r', 'e', 'f']) = some ref → RangeOf ref r1 c1 r2 c2 → r2 < 1048576 → MergesAre rest ops →
      MergesAre (e :: rest) (.merge r1 (r2 + 1) c1 (c2 + 1) :: ops)

/-- Parts of a work sheet other than its rows: the dimension, merged ranges, and what does
not matter. -/
inductive OtherParts : List Elem → List CellOp → Prop
  | nil : OtherParts [] []
  | quiet {e rest ops} : Quiet [e] → OtherParts rest ops → OtherParts (e :: rest) ops
  | dimension {e rest ops} : e.tag = ssml ['d', 'i', 'm', 'e', 'n', 's', 'i', 'o', 'n'] → e.children = [] →
      (e.get (bare ['r', 'e', 'f']) = none ∨
        ∃ ref r1 c1 r2 c2, e.get (bare ['r', 'e', 'f']) = some ref ∧ RangeOf ref r1 c1 r2 c2) →
      OtherParts rest ops → OtherParts (e :: rest) ops
  | merges {e rest ms ops} : e.tag ∉ sheetTags → MergesAre e.children ms → OtherParts rest ops → OtherParts (e :: rest) (ms ++ ops)

/-- A work sheet: one element holds the rows. -/
def SheetIs (R : Reading) (root : Elem) (ops : List CellOp) : Prop :=
  ∃ a data b o1 cs o2, root.tag ∉ sheetTags ∧ root.children = a ++ data :: b ∧ data.tag ∉ sheetTags ∧
    OtherParts a o1 ∧ RowsAre R 0 data.children cs ∧ OtherParts b o2 ∧ ops = o1 ++ cs ++ o2

end CP.Spec
