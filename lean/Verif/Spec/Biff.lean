import Verif.Spec.Dbf
/-!
# Numbers and strings in the records of .xls files

Written from the file format (and from IEEE 754 and Unicode), not from the code.
-/

namespace CP.Spec

/-! ### Numbers -/

/-- The number with this sign, (biased) exponent and fraction. -/
def ieee (neg : Bool) (e m : Nat) : Val :=
  let sign : Rat := if neg then -1 else 1
  if e = 2047 then (if m = 0 then .inf neg else .nan)
  else if e = 0 then .flt (sign * (m : Rat) / ((2 ^ 1074 : Nat) : Rat))
  else .flt (sign * ((2 ^ 52 + m : Nat) : Rat) * ((2 ^ e : Nat) : Rat) / ((2 ^ 1075 : Nat) : Rat))

/-- The double made of these 64 bits: a sign, 11 bits of exponent, 52 bits of fraction. -/
def DoubleIs (bits : Nat) (v : Val) : Prop :=
  ∃ neg e m, e < 2 ^ 11 ∧ m < 2 ^ 52 ∧ bits = (if neg then 2 ^ 63 else 0) + e * 2 ^ 52 + m ∧ v = ieee neg e m

/-- An RK number: 30 bits, the flag "integer" and the flag "divide by 100".  The bits are a
signed integer or the upper bits of a double, whose lower ones are 0. -/
def RkIs (rnd : Rat → Rat) (n : Nat) (v : Val) : Prop :=
  ∃ (hundred int : Bool) (k : Nat) (w : Val), k < 2 ^ 30 ∧ n = hundred.toNat + 2 * int.toNat + 4 * k ∧
    (int = true → w = .flt (if k < 2 ^ 29 then (k : Int) else (k : Int) - 2 ^ 30 : Int)) ∧
    (int = false → DoubleIs (k * 2 ^ 34) w) ∧
    (hundred = false → v = w) ∧
    (hundred = true → v = match w with
      | .flt q => .flt (rnd (q / 100))
      | w => w)

/-! ### Text -/

/-- The UTF-16 code units of a character. -/
def utf16Units (c : Char) : List Nat :=
  if c.toNat < 0x10000 then [c.toNat]
  else [0xD800 + (c.toNat - 0x10000) / 0x400, 0xDC00 + (c.toNat - 0x10000) % 0x400]

/-- The UTF-16 code units of a text. -/
def textUnits (t : List Char) : List Nat := t.flatMap utf16Units

/-- How code units are stored: all with two bytes, or, if they are small, all with one. -/
def UnitBytes (wide : Bool) (us : List Nat) (b : List UInt8) : Prop :=
  if wide then (∀ u ∈ us, u < 65536) ∧ b = us.flatMap (leBytes 2)
  else (∀ u ∈ us, u < 256) ∧ b = us.map UInt8.ofNat

/-- The flags in the options byte of a string. -/
def Wide (o : UInt8) : Bool := o.toNat.testBit 0
def Phonetic (o : UInt8) : Bool := o.toNat.testBit 2
def Rich (o : UInt8) : Bool := o.toNat.testBit 3

/-- The beginning of a string: the number of code units, the options, and the numbers of
formatting runs and of bytes of phonetic data, if there are any. -/
def StringHead (lenlen n : Nat) (o : UInt8) (rt sz : Nat) (head : List UInt8) : Prop :=
  n < 256 ^ lenlen ∧ rt < 65536 ∧ sz < 2 ^ 31 ∧ (Rich o = false → rt = 0) ∧ (Phonetic o = false → sz = 0) ∧
    head = leBytes lenlen n ++ [o] ++ (if Rich o then leBytes 2 rt else []) ++ (if Phonetic o then leBytes 4 sz else [])

/-- A string in one record, and all that follows: formatting runs, phonetic data, other
things. -/
def StringIs (lenlen : Nat) (b : List UInt8) (t : List Char) : Prop :=
  (t = [] ∧ ∃ more, b = leBytes lenlen 0 ++ more) ∨
  ∃ o rt sz head text more, StringHead lenlen (textUnits t).length o rt sz head ∧
    UnitBytes (Wide o) (textUnits t) text ∧ b = head ++ text ++ more

/-! ### The shared string table

A place in the table is what is left of the record and the records after it.  `whole` is for
tables where no record ends between the two units of a character, and where phonetic data
does not go on beyond the next record. -/

/-- `n` code units, before one place and after another.  At the end of a record the next one
begins with an options byte. -/
inductive SstUnits (whole : Bool) : (wide : Bool) → Nat → List UInt8 → List (List UInt8) →
    List Nat → List UInt8 → List (List UInt8) → Prop
  | last {wide us b cur rest} : UnitBytes wide us b → (whole = true → ∃ t, us = textUnits t) →
      SstUnits whole wide us.length (b ++ cur) rest us cur rest
  | over {wide us b o n next rest us' cur' rest'} : UnitBytes wide us b → (whole = true → ∃ t, us = textUnits t) →
      0 < n → SstUnits whole (Wide o) n next rest us' cur' rest' →
      SstUnits whole wide (us.length + n) b ((o :: next) :: rest) (us ++ us') cur' rest'

/-- Formatting runs of four bytes. -/
inductive SstRuns : Nat → List UInt8 → List (List UInt8) → List UInt8 → List (List UInt8) → Prop
  | zero {cur rest} : SstRuns 0 cur rest cur rest
  | run {n r cur rest cur' rest'} : r.length = 4 → SstRuns n cur rest cur' rest' → SstRuns (n + 1) (r ++ cur) rest cur' rest'
  | over {n next rest cur' rest'} : SstRuns (n + 1) next rest cur' rest' → SstRuns (n + 1) [] (next :: rest) cur' rest'

/-- `n` bytes of any kind. -/
inductive SstSkip (whole : Bool) : Nat → List UInt8 → List (List UInt8) → List UInt8 → List (List UInt8) → Prop
  | within {p cur rest} : SstSkip whole p.length (p ++ cur) rest cur rest
  | over {n cur next rest cur' rest'} : 0 < n → (whole = true → n < next.length) → SstSkip whole n next rest cur' rest' →
      SstSkip whole (cur.length + n) cur (next :: rest) cur' rest'

/-- One string of the table. -/
inductive SstString (whole : Bool) : List UInt8 → List (List UInt8) → List Char → List UInt8 → List (List UInt8) → Prop
  | mk {t o rt sz head cur rest cur1 rest1 cur2 rest2 cur3 rest3} :
      StringHead 2 (textUnits t).length o rt sz head →
      SstUnits whole (Wide o) (textUnits t).length cur rest (textUnits t) cur1 rest1 →
      SstRuns rt cur1 rest1 cur2 rest2 → SstSkip whole sz cur2 rest2 cur3 rest3 →
      SstString whole (head ++ cur) rest t cur3 rest3

/-- The strings from a place on.  A string may begin with the next record. -/
inductive SstStrings (whole : Bool) : List UInt8 → List (List UInt8) → List (List Char) → Prop
  | nil {cur rest} : SstStrings whole cur rest []
  | cons {cur rest t cur' rest' ts} : SstString whole cur rest t cur' rest' → SstStrings whole cur' rest' ts →
      SstStrings whole cur rest (t :: ts)
  | turn {next rest ts} : SstStrings whole next rest ts → SstStrings whole [] (next :: rest) ts

/-- The SST record and the CONTINUE records after it (none of them empty): the number of uses
of strings, the number of strings, the strings; the first begins in the SST record. -/
def SstIs (whole : Bool) (data : List UInt8) (conts : List (List UInt8)) (ts : List (List Char)) : Prop :=
  (∀ c ∈ conts, c ≠ []) ∧ ts.length < 2 ^ 31 ∧
    ∃ uses strings, data = leBytes 4 uses ++ leBytes 4 ts.length ++ strings ∧ (ts ≠ [] → strings ≠ []) ∧
      SstStrings whole strings conts ts

end CP.Spec
