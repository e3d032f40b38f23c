import Verif.Spec.Numeral
import Verif.Spec.Float64
import Verif.Spec.Dbf
/-!
# Decimal numbers in files, in terms of the bytes and of what is written
-/

namespace CP.Spec

/-- The value read for the number `w`: the nearest float, the float that was written with 17 digits, or an infinity
from half a unit above the largest float. -/
inductive FloatOf (w : Rat) : Val → Prop
  | nearest {y} : NearestDouble y w → w.abs < 2 ^ 1024 - 2 ^ 970 → FloatOf w (.flt y)
  | written {x} : IsDouble x → x.abs < 2 ^ 1024 → To17Digits w x → FloatOf w (.flt x)
  | over : 2 ^ 1024 - 2 ^ 970 ≤ w.abs → FloatOf w (.inf (decide (w < 0)))

/-- The bytes are a numeral for `w` in ASCII, with whitespace around it. -/
def NumeralBytes (b : List UInt8) (w : Rat) : Prop :=
  ∃ l n r, b = l ++ n ++ r ∧ BlankField l ∧ BlankField r ∧ NumeralIs asciiDec (n.map fun x => Char.ofNat x.toNat) w

/-- The field holds the decimal number `w`: in a column of type N with decimals, where NULs do not count, or one of
type F. -/
def DecimalField (c : DbfColumn) (raw : List UInt8) (w : Rat) : Prop :=
  (c.typ = tyN ∧ c.deci ≠ 0 ∧ NumeralBytes (raw.filter (· ≠ 0)) w) ∨ (c.typ = tyF ∧ NumeralBytes raw w)

/-- What a cell holds: a decimal number, or something else, for which no float is read. -/
def CellHolds (c : DbfColumn) (raw : List UInt8) (v : Val) : Prop :=
  (∃ w, DecimalField c raw w ∧ FloatOf w v) ∨ CellMeans (fun _ => .error .valueError) c raw v

/-- What a row holds: a value for each cell. -/
def RowHolds (cols : List DbfColumn) (r : DbfRow) (vs : List Val) : Prop :=
  Each2 (fun p v => CellHolds p.1 p.2 v) (cols.zip r.cells) vs

end CP.Spec
