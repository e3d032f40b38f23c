import Verif.Model.Datautils
/-!
# Model of IntKeyDict and NpDict, channelpack/pack.py:15-132
-/

namespace CP

/-- Python objects as they occur as keys, values or elements of pairs: ints (bools are
ints), 1-d numpy arrays, and anything else, told apart by a number.  All objects are
taken to be hashable. -/
inductive Obj where
  | int (i : Int)
  | arr (a : Arr)
  | obj (n : Nat)
  deriving DecidableEq, Repr

/-- `isinstance(o, int)` -/
def Obj.isInt : Obj → Bool
  | .int _ => true
  | _ => false

/-- The content of a dict. -/
abbrev Dict := List (Obj × Obj)

/-- An element of an iterable passed to `update`: a list, tuple or the like (`__len__`
and `__getitem__`), a set (`__len__` only), an iterator (neither), or something that
is not iterable. -/
inductive Item where
  | seq (xs : List Obj)
  | set (xs : List Obj)
  | iter (xs : List Obj)
  | atom
  deriving DecidableEq, Repr

/-- The positional arguments of `update` or the constructor: none, a dict, a
re-iterable collection (list, tuple), a one-shot iterator (zip, generator), a string of
`n` characters, something not iterable, more than one argument.  (Mappings that are
not dicts are not modelled.  For `many` the exception may really be that of a check of
the first argument; the dict is unchanged either way.) -/
inductive Arg where
  | none
  | dict (ps : Dict)
  | list (items : List Item)
  | oneshot (items : List Item)
  | str (n : Nat)
  | notIterable
  | many

/-- What iterating an item gives; `none` if it is not iterable. -/
def Item.elems : Item → Option (List Obj)
  | .seq xs => some xs
  | .set xs => some xs
  | .iter xs => some xs
  | .atom => .none

/-- `dict.update(iterable)` of the builtin dict: item by item; an item that is not
iterable is a TypeError, one without exactly two elements a ValueError, and what came
before stays in the dict. -/
def pyUpdateItems : Dict → List Item → Dict × Option Exc
  | d, [] => (d, none)
  | d, it :: rest =>
    match it.elems with
    | .none => (d, some .typeError)
    | some [k, v] => pyUpdateItems (dset d k v) rest
    | some _ => (d, some .valueError)

/-- `dict.update(arg)` of the builtin dict. -/
def pyUpdate (d : Dict) : Arg → Dict × Option Exc
  | .none => (d, none)
  | .dict ps => (dupdate d ps, none)
  | .list items => pyUpdateItems d items
  | .oneshot items => pyUpdateItems d items
  | .str 0 => (d, none)
  | .str _ => (d, some .valueError)
  | .notIterable => (d, some .typeError)
  | .many => (d, some .typeError)

/-- Outcome of the check loop: an exception, or the items the loop did not consume. -/
inductive Check where
  | raises (e : Exc)
  | left (rest : List Item)

/-- pack.py:39-44: the loop over the items of an iterable.  A too long item ends it
("not our problem"). -/
def checkItems : List Item → Check
  | [] => .left []
  | .seq xs :: rest =>
    if xs.length > 2 then .left rest
    else match xs with
      | [] => .raises .indexError              -- seq[0] of an empty sequence
      | k :: _ => if k.isInt then checkItems rest else .raises .typeError
  | .set xs :: rest => if xs.length > 2 then .left rest else checkItems rest
  | .iter _ :: rest => checkItems rest
  | .atom :: rest => checkItems rest

/-- pack.py:46-50: the keyword check and the call of `dict.update`. -/
def finishUpdate (d : Dict) (arg : Arg) (kwargs : List Obj) : Dict × Option Exc :=
  if kwargs ≠ [] then (d, some .typeError) else pyUpdate d arg

/-- pack.py:28-50 `IntKeyDict.update`.  Keyword names are strings, so only the values
of `kwargs` are given.  After the check loop a one-shot iterator has only the
unconsumed items left for `dict.update`. -/
def intKeyUpdate (d : Dict) (arg : Arg) (kwargs : List Obj) : Dict × Option Exc :=
  match arg with
  | .dict ps =>
    if ps.all (·.1.isInt) then finishUpdate d arg kwargs else (d, some .typeError)
  | .list items =>
    match checkItems items with
    | .raises e => (d, some e)
    | .left _ => finishUpdate d arg kwargs
  | .oneshot items =>
    match checkItems items with
    | .raises e => (d, some e)
    | .left rest => finishUpdate d (.oneshot rest) kwargs
  | _ => finishUpdate d arg kwargs

/-- pack.py:23-26 `IntKeyDict.__setitem__` -/
def intKeySetitem (d : Dict) (k v : Obj) : Dict × Option Exc :=
  if k.isInt then (dset d k v, none) else (d, some .typeError)

/-- pack.py:52-55 `IntKeyDict.setdefault` (returns None) -/
def intKeySetdefault (d : Dict) (k v : Obj) : Dict × Option Exc :=
  if k.isInt then
    match dget d k with
    | some _ => (d, none)
    | .none => (dset d k v, none)
  else (d, some .typeError)

/-- `np.array(value, copy=False)` and the ndim check (pack.py:75-76, 128-132): `conv`
gives the 1-d array, or `none` when ndim is not 1. -/
abbrev Conv := Obj → Option Arr

/-- pack.py:86-89: conversion of a dict argument. -/
def convDict (conv : Conv) : Dict → Except Exc Dict
  | [] => .ok []
  | (k, v) :: rest =>
    match conv v with
    | .none => .error .valueError
    | some a =>
      match convDict conv rest with
      | .error e => .error e
      | .ok r => .ok ((k, .arr a) :: r)

/-- pack.py:99-106: conversion of the items of an iterable: the last element of an item
with `__getitem__` is converted, other items are passed on. -/
def convItems (conv : Conv) : List Item → Except Exc (List Item)
  | [] => .ok []
  | it :: rest =>
    match it with
    | .seq xs =>
      match xs.getLast? with
      | .none => .error .indexError           -- seq[-1] of an empty sequence
      | some v =>
        match conv v with
        | .none => .error .valueError
        | some a =>
          match convItems conv rest with
          | .error e => .error e
          | .ok r => .ok (.seq (xs.dropLast ++ [.arr a]) :: r)
    | it =>
      match convItems conv rest with
      | .error e => .error e
      | .ok r => .ok (it :: r)

/-- pack.py:116-119: conversion of keyword values. -/
def convKw (conv : Conv) : List Obj → Except Exc (List Obj)
  | [] => .ok []
  | v :: rest =>
    match conv v with
    | .none => .error .valueError
    | some a =>
      match convKw conv rest with
      | .error e => .error e
      | .ok r => .ok (.arr a :: r)

/-- pack.py:79-114, the proxy arguments.  A string iterates over one-character
strings, whose arrays are 0-dimensional. -/
def convArg (conv : Conv) : Arg → Except Exc Arg
  | .dict ps => match convDict conv ps with
    | .ok r => .ok (.dict r)
    | .error e => .error e
  | .list items => match convItems conv items with
    | .ok r => .ok (.list r)
    | .error e => .error e
  | .oneshot items => match convItems conv items with
    | .ok r => .ok (.list r)
    | .error e => .error e
  | .str 0 => .ok (.list [])
  | .str _ => .error .valueError
  | a => .ok a

/-- pack.py:79-121 `NpDict.update`. -/
def npUpdate (conv : Conv) (d : Dict) (arg : Arg) (kwargs : List Obj) : Dict × Option Exc :=
  match convArg conv arg with
  | .error e => (d, some e)
  | .ok arg' =>
    match convKw conv kwargs with
    | .error e => (d, some e)
    | .ok kw' => intKeyUpdate d arg' kw'

/-- pack.py:74-77 `NpDict.__setitem__` -/
def npSetitem (conv : Conv) (d : Dict) (k v : Obj) : Dict × Option Exc :=
  match conv v with
  | .none => (d, some .valueError)
  | some a => intKeySetitem d k (.arr a)

/-- pack.py:123-126 `NpDict.setdefault` -/
def npSetdefault (conv : Conv) (d : Dict) (k v : Obj) : Dict × Option Exc :=
  match conv v with
  | .none => (d, some .valueError)
  | some a => intKeySetdefault d k (.arr a)

/-- The operations of a history of one dict; `del` and `clear` are those of dict. -/
inductive DOp where
  | setitem (k v : Obj)
  | setdefault (k v : Obj)
  | update (arg : Arg) (kwargs : List Obj)
  | del (k : Obj)
  | clear

/-- One operation; `conv` is `none` for an IntKeyDict and the conversion for an NpDict. -/
def dStep (conv : Option Conv) (d : Dict) : DOp → Dict × Option Exc
  | .setitem k v => match conv with
    | .none => intKeySetitem d k v
    | some c => npSetitem c d k v
  | .setdefault k v => match conv with
    | .none => intKeySetdefault d k v
    | some c => npSetdefault c d k v
  | .update arg kw => match conv with
    | .none => intKeyUpdate d arg kw
    | some c => npUpdate c d arg kw
  | .del k => match dget d k with
    | some _ => (d.filter (·.1 ≠ k), none)
    | .none => (d, some .keyError)
  | .clear => ([], none)

/-- pack.py:18-21, 69-72: the constructor is `update` of an empty dict; `none` when it
raises.  (More than one argument or a non-empty string raises in both.) -/
def dInit (conv : Option Conv) (arg : Arg) (kw : List Obj) : Option Dict :=
  match dStep conv [] (.update arg kw) with
  | (d, none) => some d
  | (_, some _) => .none

end CP
