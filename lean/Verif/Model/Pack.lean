import Verif.Model.Datautils
/-!
# Model of the ChannelPack class, channelpack/pack.py

Value level: a pack owns its dicts and arrays.  Sharing of objects between
packs is the subject of `Verif.Model.World`.
-/

namespace CP

/-- `int(x)` of a float: truncation toward zero. -/
def truncRat (q : Rat) : Int := if 0 ≤ q then q.floor else -(-q).floor

/-- Decimal digit character of a number below 10. -/
def digitChar (n : Nat) : Char := Char.ofNat (48 + n)

/-- Value of an ASCII decimal digit.  (`\d` and `int()` in Python also take
other Unicode decimal digits; see Model/Fallback for those in fallback names.) -/
def digitVal (c : Char) : Option Nat :=
  if 48 ≤ c.toNat ∧ c.toNat ≤ 57 then some (c.toNat - 48) else none

/-- `\d` -/
def isDigit (c : Char) : Bool := (digitVal c).isSome

/-- `str(n)` of a natural number. -/
def decNat (n : Nat) : List Char :=
  if n < 10 then [digitChar n] else decNat (n / 10) ++ [digitChar (n % 10)]
decreasing_by omega

/-- `str(i)` of an int. -/
def decInt (i : Int) : List Char :=
  if i < 0 then '-' :: decNat i.natAbs else decNat i.natAbs

/-- `int(s)` of a string of ASCII digits. -/
def parseNat (s : List Char) : Nat :=
  s.foldl (fun acc c => 10 * acc + (digitVal c).getD 0) 0

/-- numpy dtype promotion as used by `np.append` of arrays of different kind:
resulting kind (`none`: numpy raises TypeError) and the cast of one element. -/
structure NpEnv where
  promote : Kind → Kind → Option Kind
  cast : Kind → Val → Val

/-- `np.append(a, b)` (pack.py:297).  Widths of a kind are not modelled; a wider
type of the same kind holds the same values. -/
def npAppend (E : NpEnv) (a b : Arr) : Except Exc Arr :=
  if a.kind = b.kind then .ok ⟨a.kind, a.els ++ b.els⟩
  else match E.promote a.kind b.kind with
    | some k => .ok ⟨k, a.els.map (E.cast k) ++ b.els.map (E.cast k)⟩
    | none => .error .typeError

/-- State of a ChannelPack: the attributes of pack.py:199-221.  `nof` is kept
raw (any string or None).  `pre` is FALLBACK_PREFIX. -/
structure Pack where
  pre : List Char
  data : List (Int × Arr)
  names : List (Int × Val)
  fn : List Char
  filenames : List (List Char)
  nof : Option String
  mindur : Option Int
  mask : Mask
  cached : List (Nat × Nat)
  deriving DecidableEq, Repr

/-- `bits[s:t] = False` -/
def falsify (bits : List Bool) (st : Nat × Nat) : List Bool :=
  bits.mapIdx fun i b => if st.1 ≤ i ∧ i < st.2 then false else b

/-- pack.py:347-352, the loop body of `duration` for one slice. -/
def durationStep (req : Int) (mindur : Bool) (bits : List Bool) (sc : Nat × Nat) : List Bool :=
  let part : Int := (sc.2 : Int) - sc.1
  if part < req ∧ mindur = true then falsify bits sc
  else if part > req ∧ mindur = false then falsify bits sc
  else bits

/-- pack.py:324-358 `duration`.  `prod` is the value of `duration * samplerate`
(a finite number; see `Pack.durationOf` in Model/Duration for the multiplication). -/
def Pack.duration (p : Pack) (prod : Rat) (mindur : Bool := true) : Pack :=
  let bits := p.cached.foldl (durationStep (truncRat prod) mindur) p.mask.bits
  { p with mask := { p.mask with bits := bits }, cached := slicelist bits }

/-- pack.py:233-234, 240-241 `duration(self.mindur, samplerate=1, mindur=True)` if mindur
is not None. -/
def Pack.applyMindur (p : Pack) : Pack :=
  match p.mindur with
  | none => p
  | some m => p.duration m true

/-- pack.py:230-234: assignment of an array to `mask`. -/
def Pack.setMask (p : Pack) (m : Mask) : Pack :=
  { p with mask := m, cached := slicelist m.bits }.applyMindur

/-- pack.py:238-241: assignment of None or an int to `mindur`. -/
def Pack.setMindur (p : Pack) (m : Option Int) : Pack :=
  { p with mindur := m }.applyMindur

/-- `v == v`, false for NaN (and NaT, also represented by `nan`). -/
def selfEq : Val → Bool
  | .nan => false
  | _ => true

/-- pack.py:309-322 `mask_reset`. -/
def Pack.maskReset (p : Pack) : Pack :=
  match sortInts (dkeys p.data) with
  | [] => p.setMask ⟨false, []⟩
  | k :: _ =>
    match dget p.data k with
    | some a => p.setMask ⟨true, a.els.map selfEq⟩
    | none => p   -- unreachable: k is a key

/-- pack.py:199-221 `__init__` with the already converted dicts. -/
def Pack.init (data : List (Int × Arr)) (names : List (Int × Val)) : Pack :=
  Pack.maskReset
    { pre := ['c', 'h'], data := data, names := names, fn := [], filenames := [[]],
      nof := none, mindur := none, mask := ⟨false, []⟩, cached := [] }

/-- pack.py:196 `nofvalids` -/
def nofvalids : List (Option String) := [some "nan", some "filter", none]

/-- pack.py:224-225, 256: assignment to `nof`. -/
def Pack.setNof (p : Pack) (v : Option String) : Pack × Option Exc :=
  if v ∈ nofvalids then ({ p with nof := v }, none) else (p, some .valueError)

/-- pack.py:247-254: assignment of a string to `fn`. -/
def Pack.setFn (p : Pack) (v : List Char) : Pack :=
  { p with
    filenames := match p.filenames with
      | [] => [v]
      | _ :: rest => v :: rest
    fn := v }

/-- numpy `mask &= result` (pack.py:394): `result` has the dtype bool, or float
when it is empty (`np.array(())`, pack.py:392).  Float operands raise
TypeError, otherwise `result` must broadcast to the length of the mask. -/
def npIand (m : Mask) (result : List Bool) : Except Exc Mask :=
  if m.isBool = false ∨ result = [] then .error .typeError
  else if result.length = m.bits.length then .ok ⟨true, List.zipWith (· && ·) m.bits result⟩
  else match result with
    | [r] => .ok ⟨true, m.bits.map (· && r)⟩
    | _ => .error .valueError

/-- pack.py:360-395 `startstop`, as (pack afterwards, result). -/
def Pack.startstop (p : Pack) (startb stopb : List Bool) (apply : Bool) :
    Pack × Except Exc (List Bool) :=
  let result := startstopBool startb stopb
  if apply then
    match npIand p.mask result with
    | .ok m => (p.setMask m, .ok result)
    | .error e => (p, .error e)
  else (p, .ok result)

/-- pack.py:296-297, the append loop; keys already appended stay appended when
numpy raises. -/
def appendLoop (E : NpEnv) : List (Int × Arr) → List (Int × Arr) →
    List (Int × Arr) × Option Exc
  | d, [] => (d, none)
  | d, (k, b) :: rest =>
    match dget d k with
    | none => (d, some .keyError)
    | some a =>
      match npAppend E a b with
      | .error e => (d, some e)
      | .ok c => appendLoop E (dset d k c) rest

/-- `set(a) == set(b)` -/
def sameKeys (a b : List Int) : Bool := a.all (· ∈ b) && b.all (· ∈ a)

/-- pack.py:291-297, the data part of `append_pack`: data afterwards and exception. -/
def appendData (E : NpEnv) (d o : List (Int × Arr)) : List (Int × Arr) × Option Exc :=
  if d = [] then (o, none)
  else if o = [] then (d, none)
  else if sameKeys (dkeys d) (dkeys o) then appendLoop E d o
  else (d, some .valueError)

/-- pack.py:299-303, the names part. -/
def appendNames (n o : List (Int × Val)) : List (Int × Val) × Option Exc :=
  if n = [] then (o, none)
  else if o = [] then (n, none)
  else if sameKeys (dkeys n) (dkeys o) then (n, none)
  else (n, some .valueError)

/-- pack.py:265-307 `append_pack`: the pack afterwards and the exception, if any. -/
def Pack.appendPack (E : NpEnv) (p other : Pack) : Pack × Option Exc :=
  match appendData E p.data other.data with
  | (d, some e) => ({ p with data := d }, some e)
  | (d, none) =>
    match appendNames p.names other.names with
    | (n, some e) => ({ p with data := d, names := n }, some e)
    | (n, none) =>
      (Pack.maskReset { p with
        data := d, names := n, filenames := p.filenames ++ other.filenames }, none)

/-- pack.py:408-417 `parts` -/
def Pack.parts (p : Pack) : List Nat := List.range p.cached.length

/-- A channel argument: int or str. -/
inductive Ch where
  | int (k : Int)
  | str (s : List Char)
  deriving DecidableEq, Repr

/-- `re.match(prefix + r'(\d+)', ch)` and `int(m.group(1))` (pack.py:552-556) for
a prefix without special regex characters (the class documents that the prefix
is a valid Python variable name, pack.py:184). -/
def matchFallback (pre ch : List Char) : Option Nat :=
  if pre.isPrefixOf ch then
    match (ch.drop pre.length).takeWhile isDigit with
    | [] => none
    | ds => some (parseNat ds)
  else none

/-- pack.py:542-547, the loop over names: `none` when no name equals `ch`. -/
def lookupName (data : List (Int × Arr)) (ch : List Char) :
    List (Int × Val) → Option (Except Exc Int)
  | [] => none
  | (key, name) :: rest =>
    if name = .str ch then
      some (if (dget data key).isSome then .ok key else .error .keyError)
    else lookupName data ch rest

/-- pack.py:518-560 `_datakey` for an int or str argument. -/
def Pack.datakey (p : Pack) : Ch → Except Exc Int
  | .int k => if (dget p.data k).isSome then .ok k else .error .keyError
  | .str s =>
    match lookupName p.data s p.names with
    | some r => r
    | none =>
      match matchFallback p.pre s with
      | some k => if (dget p.data k).isSome then .ok k else .error .keyError
      | none => .error .keyError

/-- `a[mask]` of a 1-d array: IndexError unless the mask is boolean and as long
as the array. -/
def boolIndex (a : Arr) (m : Mask) : Except Exc Arr :=
  if m.isBool = true ∧ m.bits.length = a.els.length then
    .ok ⟨a.kind, ((a.els.zip m.bits).filter (·.2)).map (·.1)⟩
  else .error .indexError

/-- `a[s:t]` of a 1-d array. -/
def Arr.slice (a : Arr) (st : Nat × Nat) : Arr := ⟨a.kind, pySlice a.els st.1 st.2⟩

/-- pack.py:419-465 `__call__` -/
def Pack.call (p : Pack) (ch : Ch) (part : Option Int) (nof : Option String) :
    Except Exc Arr :=
  match p.datakey ch with
  | .error e => .error e
  | .ok key =>
    match dget p.data key with
    | none => .error .keyError
    | some a =>
      match part with
      | some i =>
        match pyIndex p.cached i with
        | .ok sl => .ok (a.slice sl)
        | .error _ => .error .indexError
      | none =>
        if nof = some "nan" then masked a p.mask
        else if nof = some "filter" then boolIndex a p.mask
        else if nof = some "ignore" then .ok a
        else if p.nof = some "nan" then masked a p.mask
        else if p.nof = some "filter" then boolIndex a p.mask
        else if p.nof ≠ none ∧ p.nof ≠ some "" then .error .valueError
        else .ok a

/-- `zip(*cols)`: rows until the shortest column ends; no columns, no rows. -/
def zipCols : List (List Val) → List (List Val)
  | [] => []
  | [c] => c.map fun v => [v]
  | c :: cs => List.zipWith (· :: ·) c (zipCols cs)

/-- collections.namedtuple accepts the names: identifiers that are not keywords
(`ident`, a parameter), no leading underscore, no duplicates. -/
def validFields (ident : List Char → Bool) (ns : List (List Char)) : Bool :=
  ns.all (fun n => ident n && n.head? != some '_') && decide ns.Nodup

/-- All names as strings; `none` when some name is not a string (its `str()` is
then no identifier, so namedtuple raises ValueError; not modelled: names that are
floats NaN or infinity, or other objects with an identifier for `str()`). -/
def strNames : List Val → Option (List (List Char))
  | [] => some []
  | .str s :: rest => (strNames rest).map (s :: ·)
  | _ :: _ => none

/-- Evaluate the calls left to right, the first exception wins. -/
def callAll (f : List Char → Except Exc Arr) : List (List Char) → Except Exc (List (List Val))
  | [] => .ok []
  | n :: ns =>
    match f n with
    | .error e => .error e
    | .ok a =>
      match callAll f ns with
      | .error e => .error e
      | .ok as => .ok (a.els :: as)

/-- pack.py:504-507: the field names of `records`. -/
def Pack.recordNames (p : Pack) (fallback : Bool) : Option (List (List Char)) :=
  if fallback then some ((sortInts (dkeys p.data)).map fun k => p.pre ++ decInt k)
  else strNames ((sortInts (dkeys p.names)).filterMap (dget p.names))

/-- pack.py:467-516 `records`, run to its end: the field names and the rows. -/
def Pack.records (ident : List Char → Bool) (p : Pack) (part : Option Int)
    (nof : Option String) (fallback : Bool) :
    Except Exc (List (List Char) × List (List Val)) :=
  match p.recordNames fallback with
  | none => .error .valueError
  | some ns =>
    if validFields ident ns then
      match callAll (fun n => p.call (.str n) part nof) ns with
      | .error e => .error e
      | .ok cols => .ok (ns, zipCols cols)
    else .error .valueError

/-- pack.py:584-592 `name` with `firstwordonly=False`: the fallback string or the
name in names. -/
def Pack.name (p : Pack) (ch : Ch) (fallback : Bool) : Except Exc Val :=
  match p.datakey ch with
  | .error e => .error e
  | .ok key =>
    if fallback then .ok (.str (p.pre ++ decInt key))
    else match dget p.names key with
      | some v => .ok v
      | none => .error .keyError

/-! ### Operations on one pack -/

/-- The ways client code operates on a pack: attribute assignments, item
assignments in `data` and `names`, and the mutating methods.  (Not included: assigning
`filenames`, in-place edits of arrays obtained from the pack (see `Model/Views.lean`), `del pack.mask`.) -/
inductive Op where
  | setMask (m : Mask)
  | setMaskBad
  | setMindur (m : Option Int)
  | setMindurBad
  | setNof (v : Option String)
  | setData (d : List (Int × Arr))
  | setDataBad (e : Exc)
  | setDataNp (d : List (Int × Arr))
  | setNames (n : List (Int × Val))
  | setFn (s : List Char)
  | setFnBad
  | setPrefix (s : List Char)
  | setPrefixBad
  | dataItem (k : Int) (a : Arr)
  | dataDel (k : Int)
  | nameItem (k : Int) (v : Val)
  | maskReset
  | duration (prod : Rat) (mindur : Bool)
  | startstop (startb stopb : List Bool) (apply : Bool)
  | appendPack (other : Pack)

/-- pack.py:223-256 and the methods: one operation, as the pack afterwards and
the exception, if any.  `…Bad` are assignments of a value of the wrong type;
`setDataBad e` is `pack.data = value` with `NpDict(value)` raising `e`;
`setDataNp` assigns an NpDict, which does not reset the mask. -/
def Pack.step (E : NpEnv) (p : Pack) : Op → Pack × Option Exc
  | .setMask m => (p.setMask m, none)
  | .setMaskBad => (p, some .typeError)
  | .setMindur m => (p.setMindur m, none)
  | .setMindurBad => (p, some .typeError)
  | .setNof v => p.setNof v
  | .setData d => (Pack.maskReset { p with data := d }, none)
  | .setDataBad e => (p, some e)
  | .setDataNp d => ({ p with data := d }, none)
  | .setNames n => ({ p with names := n }, none)
  | .setFn s => (p.setFn s, none)
  | .setFnBad => (p, some .typeError)
  | .setPrefix s => ({ p with pre := s }, none)
  | .setPrefixBad => (p, some .typeError)
  | .dataItem k a => ({ p with data := dset p.data k a }, none)
  | .dataDel k =>
    if (dget p.data k).isSome then ({ p with data := p.data.filter (·.1 ≠ k) }, none)
    else (p, some .keyError)
  | .nameItem k v => ({ p with names := dset p.names k v }, none)
  | .maskReset => (p.maskReset, none)
  | .duration q m => (p.duration q m, none)
  | .startstop a b apply =>
    match p.startstop a b apply with
    | (p', .ok _) => (p', none)
    | (p', .error e) => (p', some e)
  | .appendPack other => p.appendPack E other

/-- A history: operations one after the other; exceptions are caught by the
client, who carries on with the pack. -/
def Pack.run (E : NpEnv) (p : Pack) (ops : List Op) : Pack :=
  ops.foldl (fun p op => (p.step E op).1) p

end CP
