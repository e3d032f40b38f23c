import Verif.Spec.Lookup
import Verif.Model.PackName
/-!
# Specification: names, representation and attributes of a pack
-/

namespace CP.Spec

/-- `s` is the number `k` in decimal: a sign if negative, digits without superfluous
zeros. -/
def IsDecimal (k : Int) (s : List Char) : Prop :=
  ∃ ds, ds ≠ [] ∧ (∀ c ∈ ds, DecDigit c) ∧ (ds.head? = some '0' → ds = ['0']) ∧
    ((0 ≤ k ∧ s = ds ∧ k = decValue ds) ∨ (k < 0 ∧ s = '-' :: ds ∧ -k = decValue ds))

/-- `w` is the first word of `s`: whitespace, the word, and the end or whitespace. -/
def FirstWord (ws : Char → Prop) (s w : List Char) : Prop :=
  ∃ a rest, s = a ++ w ++ rest ∧ (∀ c ∈ a, ws c) ∧ w ≠ [] ∧ (∀ c ∈ w, ¬ ws c) ∧
    ∀ c, rest.head? = some c → ws c

/-- The data key a channel argument stands for. -/
def ChannelKey (pre : List Char) (isKey : Int → Prop) (names : List (Int × Val)) :
    Ch → Int → Prop
  | .int k, key => k = key ∧ isKey key
  | .str s, key => ResolvesStr pre isKey names s key

/-- What the doc string of `name` promises: `v` is the name of the channel with data key
`key`, by the arguments `firstwordonly` and `fallback`. -/
inductive NameIs (E : NameEnv) (pre : List Char) (names : List (Int × Val)) (key : Int) :
    FirstWordArg → FallbackArg → Val → Prop
  /-- `fallback=True`: the prefix and the number, whatever `firstwordonly` is. -/
  | fallback {fw ds} : IsDecimal key ds → NameIs E pre names key fw .isTrue (.str (pre ++ ds))
  /-- No `firstwordonly`: the name. -/
  | whole {fw v} : fw = .bool false ∨ fw = .str [] ∨ fw = .other false →
      (key, v) ∈ names → NameIs E pre names key fw (.other false) v
  /-- `firstwordonly=True`: the first word of the name. -/
  | word {s w} : (key, .str s) ∈ names → FirstWord (fun c => E.ws c = true) s w →
      NameIs E pre names key (.bool true) (.other false) (.str w)
  /-- The same for a name that is not a str but has words. -/
  | oddWord {x v} : (key, x) ∈ names → (∀ s, x ≠ .str s) → E.nonStr x = .ok v →
      NameIs E pre names key (.bool true) (.other false) v
  /-- A pattern: the first match. -/
  | found {pat x m ms} : pat ≠ [] → (key, x) ∈ names → E.findall pat x = .ok (m :: ms) →
      NameIs E pre names key (.str pat) (.other false) m

/-- `txt` shows the items in a dict display: in ascending order of keys, each key in
decimal with its value. -/
inductive Shown {ν : Type} (repr : ν → List Char) (sep : List Char) :
    List (Int × ν) → List Char → Prop
  | nil : Shown repr sep [] []
  | one {k v ds} : IsDecimal k ds → Shown repr sep [(k, v)] (ds ++ ": ".toList ++ repr v)
  | cons {k v ds q qs t} : IsDecimal k ds → Shown repr sep (q :: qs) t →
      Shown repr sep ((k, v) :: q :: qs) (ds ++ ": ".toList ++ repr v ++ sep ++ t)

/-- The items of a dict in ascending order of keys. -/
def InOrder {ν : Type} (d items : List (Int × ν)) : Prop :=
  items.Perm d ∧ (items.map Prod.fst).Pairwise (· < ·)

/-- The seven attributes a pack always has, with their types. -/
structure WellTyped (a : List (String × AVal)) : Prop where
  pre : ∃ s, dget a "FALLBACK_PREFIX" = some (.str s)
  data : ∃ d, dget a "data" = some (.npdict d)
  /-- An `NpDict` is an `IntKeyDict`. -/
  names : (∃ d, dget a "names" = some (.ikdict d)) ∨ ∃ d, dget a "names" = some (.npdict d)
  fn : ∃ s, dget a "fn" = some (.str s)
  filenames : ∃ v, dget a "filenames" = some v
  nof : ∃ v, dget a "nof" = some v ∧
    (v = .none ∨ v = .str "nan".toList ∨ v = .str "filter".toList)
  mindur : ∃ v, dget a "mindur" = some v ∧ (v = .none ∨ ∃ i, v = .int i)
  /-- If there is a mask, it is an array. -/
  mask : ∀ v, dget a "mask" = some v → ∃ m, v = .arr m

/-- `nof` as the value of an attribute. -/
def nofVal : Option String → AVal
  | none => .none
  | some s => .str s.toList

/-- `mindur` as the value of an attribute. -/
def mindurVal : Option Int → AVal
  | none => .none
  | some i => .int i

/-- The attributes are those of a pack of the value level model. -/
structure OfPack (a : List (String × AVal)) (p : Pack) : Prop where
  pre : dget a "FALLBACK_PREFIX" = some (.str p.pre)
  data : dget a "data" = some (.npdict p.data)
  names : dget a "names" = some (.ikdict p.names)
  fn : dget a "fn" = some (.str p.fn)
  filenames : dget a "filenames" = some (.strs p.filenames)
  nof : dget a "nof" = some (nofVal p.nof)
  mindur : dget a "mindur" = some (mindurVal p.mindur)
  mask : dget a "mask" = some (.arr p.mask)
  cached : dget a "_cached_slicelist" = some (.slices p.cached)

/-- Attempts that leave the private attribute alone, do not delete the mask, and assign
to `filenames` and `names` only a list of str and not an `NpDict`. -/
def Regular : AttrOp → Prop
  | .set n v => n ≠ "_cached_slicelist" ∧ (n = "filenames" → ∃ l, v = .strs l) ∧
      (n = "names" → ∀ d, v ≠ .npdict d)
  | .del n => n ≠ "_cached_slicelist" ∧ n ≠ "mask"

end CP.Spec
