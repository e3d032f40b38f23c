import Verif.Spec.XlsObjects

/-!
# Specification: hyperlinks to any URL, and how many of its characters have two code units
-/

namespace CP.Spec

/-- The number of characters beyond the BMP. -/
def astral (t : List Char) : Nat := (t.filter fun c => 0x10000 ≤ c.toNat).length

/-- The data of an HLINK record for the range with the URL `t`, of any characters, and perhaps more
after it. -/
def UrlLinkIs (range data : List UInt8) (t : List Char) (extra : List UInt8) : Prop :=
  range.length = 8 ∧ ∃ (f : LinkFlags) (name frame location more : List UInt8), f.value < 2 ^ 32 ∧
    (if f.name then LinkString name else name = []) ∧ (if f.frame then LinkString frame else frame = []) ∧
    f.moniker = true ∧ f.asString = false ∧ Char.ofNat 0 ∉ t ∧ UrlExtra extra ∧ 2 * ((textUnits t).length + 1) + extra.length < 2 ^ 32 ∧
    (if f.location then LinkString location else location = []) ∧ (f.siteName = true → f.name = true) ∧
    data = range ++ stdLink ++ [2, 0, 0, 0] ++ leBytes 4 f.value ++ name ++ frame ++
      (urlMonikerId ++ leBytes 4 (2 * ((textUnits t).length + 1) + extra.length) ++ (wideText t ++ [0, 0] ++ extra)) ++ location ++ more

end CP.Spec
