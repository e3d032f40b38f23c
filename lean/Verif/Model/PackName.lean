import Verif.Model.Pack
import Verif.Model.PyText
/-!
# Names, representation and attributes of a pack, channelpack/pack.py

`name` with all its arguments, `__repr__`, and `__setattr__`/`__delattr__` over the
attributes of one object.
-/

namespace CP

/-- The argument `firstwordonly` of `name`: a bool, a str, or anything else, of which
only the truth value counts. -/
inductive FirstWordArg where
  | bool (b : Bool)
  | str (s : List Char)
  | other (truthy : Bool)
  deriving DecidableEq, Repr

/-- The argument `fallback` of `name`: `True`, or anything else with its truth value. -/
inductive FallbackArg where
  | isTrue
  | other (truthy : Bool)
  deriving DecidableEq, Repr

/-- What `name` uses of the str type and of `re`: the whitespace of `str.split`, the
first element of `split()` of a name that is not a str, and `re.findall(pattern, name)`
(for a name of any type). -/
structure NameEnv where
  ws : Char → Bool
  nonStr : Val → Except Exc Val
  findall : List Char → Val → Except Exc (List Val)

/-- pack.py:591-601: the name under `key` as `firstwordonly` asks for it. -/
def Pack.nameBy (E : NameEnv) (p : Pack) (key : Int) (fw : FirstWordArg) : Except Exc Val :=
  let nm : Except Exc Val := match dget p.names key with
    | some v => .ok v
    | none => .error .keyError
  match fw with
  | .bool false | .str [] | .other false => nm
  | .bool true =>
    match nm with
    | .error e => .error e
    | .ok (.str s) =>
      match splitWs E.ws s with
      | w :: _ => .ok (.str w)
      | [] => .error .indexError
    | .ok v => E.nonStr v
  | .str pat =>
    match nm with
    | .error e => .error e
    | .ok v =>
      match E.findall pat v with
      | .error e => .error e
      | .ok (m :: _) => .ok m
      | .ok [] => .error .valueError
  | .other true => .error .typeError

/-- pack.py:562-601 `name` with all arguments. -/
def Pack.nameFull (E : NameEnv) (p : Pack) (ch : Ch) (fw : FirstWordArg) (fb : FallbackArg) :
    Except Exc Val :=
  match p.datakey ch with
  | .error e => .error e
  | .ok key =>
    match fb with
    | .isTrue => .ok (.str (p.pre ++ decInt key))
    | .other true => .error .typeError
    | .other false => p.nameBy E key fw

/-- `sep.join(str(key) + ': ' + repr(d[key]) for key in sorted(d.keys()))`,
pack.py:611-614. -/
def reprItems {ν : Type} (repr : ν → List Char) (sep : List Char) (d : List (Int × ν)) :
    List Char :=
  joinStr sep ((sortInts (dkeys d)).filterMap fun k =>
    (dget d k).map fun v => decInt k ++ [':', ' '] ++ repr v)

/-- pack.py:603-616 `__repr__`.  `reprArr` and `reprVal` are `repr` of arrays and names. -/
def Pack.repr (reprArr : Arr → List Char) (reprVal : Val → List Char) (p : Pack) : List Char :=
  "ChannelPack(\ndata={".toList ++ reprItems reprArr ",\n      ".toList p.data ++
    "},\nnames={".toList ++ reprItems reprVal ",\n       ".toList p.names ++ "})".toList

/-! ### Attributes -/

/-- Values of attributes: a str, None, an int (or bool), a 1-d array as used for the
mask, an `NpDict`, an `IntKeyDict`, a list of str, a list of slices, anything else. -/
inductive AVal where
  | str (s : List Char)
  | none
  | int (i : Int)
  | arr (m : Mask)
  | npdict (d : List (Int × Arr))
  | ikdict (d : List (Int × Val))
  | strs (l : List (List Char))
  | slices (l : List (Nat × Nat))
  | obj (n : Nat)
  deriving DecidableEq, Repr

/-- The attributes of an instance, its `__dict__`. -/
abbrev Attrs := List (String × AVal)

/-- What the attribute protocol uses of other code: the conversions `NpDict(value)` and
`IntKeyDict(value)` (modelled in Verif/Model/IntKeyDict.lean) and what
`filenames.append(value)` or `filenames[0] = value` does to a `filenames` that is not a
list of str: the new content and the exception. -/
structure AttrEnv where
  toNp : AVal → Except Exc (List (Int × Arr))
  toIk : AVal → Except Exc (List (Int × Val))
  oddNames : AVal → List Char → AVal × Option Exc

/-- `value in ChannelPack.nofvalids`, pack.py:196, 224.  (Other objects are taken to be
different from 'nan' and 'filter'.) -/
def nofValid : AVal → Bool
  | .none => true
  | .str s => s = "nan".toList || s = "filter".toList
  | _ => false

/-- pack.py:324-358 `duration(m, samplerate=1, mindur=True)` over the attributes: the
mask and the slices are looked up, AttributeError if one is missing.  An object in the
place of the mask or the slices that cannot be used is a TypeError. -/
def attrDuration (a : Attrs) (m : Int) : Attrs × Option Exc :=
  match dget a "_cached_slicelist" with
  | Option.none => (a, some .attributeError)
  | some (.slices sl) =>
    match dget a "mask" with
    | Option.none => (a, some .attributeError)
    | some (.arr mask) =>
      let bits := sl.foldl (durationStep m true) mask.bits
      (dset (dset a "mask" (.arr { mask with bits := bits }))
        "_cached_slicelist" (.slices (slicelist bits)), Option.none)
    | some _ => (a, some .typeError)
  | some _ => (a, some .typeError)

/-- pack.py:233-234, 240-241: `if self.mindur is not None: self.duration(...)`. -/
def attrMindur (a : Attrs) : Attrs × Option Exc :=
  match dget a "mindur" with
  | Option.none => (a, some .attributeError)
  | some .none => (a, Option.none)
  | some (.int m) => attrDuration a m
  | some _ => (a, some .typeError)

/-- pack.py:230-234: assignment of an array to `mask`. -/
def attrSetMask (a : Attrs) (m : Mask) : Attrs × Option Exc :=
  attrMindur (dset (dset a "mask" (.arr m)) "_cached_slicelist" (.slices (slicelist m.bits)))

/-- pack.py:309-322 `mask_reset` over the attributes, right after `data` was set. -/
def attrMaskReset (a : Attrs) (d : List (Int × Arr)) : Attrs × Option Exc :=
  match sortInts (dkeys d) with
  | [] => attrSetMask a ⟨false, []⟩
  | k :: _ =>
    match dget d k with
    | some x => attrSetMask a ⟨true, x.els.map selfEq⟩
    | Option.none => (a, some .keyError)   -- unreachable: k is a key

/-- pack.py:223-256 `__setattr__`: the attributes after the assignment and the
exception. -/
def attrSet (E : AttrEnv) (a : Attrs) (name : String) (v : AVal) : Attrs × Option Exc :=
  if name = "nof" then
    if nofValid v then (dset a name v, Option.none) else (a, some .valueError)
  else if name = "FALLBACK_PREFIX" then
    match v with
    | .str _ => (dset a name v, Option.none)
    | _ => (a, some .typeError)
  else if name = "mask" then
    match v with
    | .arr m => attrSetMask a m
    | _ => (a, some .typeError)
  else if name = "mindur" then
    match v with
    | .none => attrMindur (dset a name v)
    | .int _ => attrMindur (dset a name v)
    | _ => (a, some .typeError)
  else if name = "data" then
    match v with
    | .npdict _ => (dset a name v, Option.none)
    | _ =>
      match E.toNp v with
      | .error e => (a, some e)
      | .ok d => attrMaskReset (dset a name (.npdict d)) d
  else if name = "names" then
    match v with
    | .ikdict _ => (dset a name v, Option.none)
    | .npdict _ => (dset a name v, Option.none)      -- an NpDict is an IntKeyDict
    | _ =>
      match E.toIk v with
      | .error e => (a, some e)
      | .ok d => (dset a name (.ikdict d), Option.none)
  else if name = "fn" then
    match v with
    | .str s =>
      match dget a "filenames" with
      | Option.none => (a, some .attributeError)
      | some (.strs []) => (dset (dset a "filenames" (.strs [s])) name v, Option.none)
      | some (.strs (_ :: rest)) =>
        (dset (dset a "filenames" (.strs (s :: rest))) name v, Option.none)
      | some w =>
        match E.oddNames w s with
        | (w', Option.none) => (dset (dset a "filenames" w') name v, Option.none)
        | (w', some e) => (dset a "filenames" w', some e)
    | _ => (a, some .typeError)
  else (dset a name v, Option.none)

/-- pack.py:258-263 `__delattr__`; `object.__delattr__` removes an attribute of the
instance, AttributeError if it has none of that name. -/
def attrDel (a : Attrs) (name : String) : Attrs × Option Exc :=
  if name ∈ ["FALLBACK_PREFIX", "data", "fn", "filenames", "names", "nof", "mindur"] then
    (a, some .attributeError)
  else match dget a name with
    | some _ => (a.filter (·.1 ≠ name), Option.none)
    | Option.none => (a, some .attributeError)

/-- An attempt to assign or delete an attribute. -/
inductive AttrOp where
  | set (name : String) (v : AVal)
  | del (name : String)

/-- The attributes after an attempt, successful or not. -/
def attrStep (E : AttrEnv) (a : Attrs) : AttrOp → Attrs
  | .set n v => (attrSet E a n v).1
  | .del n => (attrDel a n).1

/-- pack.py:199-221 `__init__`: the assignments in order, `data` and `names` being
converted already; `none` if one of them raises. -/
def attrInit (E : AttrEnv) (data : List (Int × Arr)) (names : List (Int × Val)) :
    Option Attrs :=
  let set (a : Option Attrs) (n : String) (v : AVal) : Option Attrs :=
    match a with
    | Option.none => Option.none
    | some a =>
      match attrSet E a n v with
      | (a', Option.none) => some a'
      | (_, some _) => Option.none
  let a := set (some []) "FALLBACK_PREFIX" (.str ['c', 'h'])
  let a := set a "data" (.npdict data)
  let a := set a "filenames" (.strs [])
  let a := set a "fn" (.str [])
  let a := set a "names" (.ikdict names)
  let a := set a "nof" .none
  let a := set a "mindur" .none
  match a with
  | Option.none => Option.none
  | some a =>
    match attrMaskReset a data with
    | (a', Option.none) => some a'
    | (_, some _) => Option.none

end CP
