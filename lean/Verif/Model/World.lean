import Verif.Model.Pack
/-!
# Several packs and the objects they share, channelpack/pack.py

`Verif.Model.Pack` treats a pack as a value.  Here arrays and dicts are objects
with an identity, held by reference, and packs can refer to the same ones.

Not modelled: arrays that are views of other arrays (`pack(ch, part=0)` is one),
in-place edits of arrays by the client (see `Model/Views.lean`), assignment of `filenames` (each pack
has a list of its own, pack.py:216, and `extend` copies, pack.py:305), so
`filenames` is kept in the pack itself.
-/

namespace CP

/-- The objects in memory: arrays, data dicts (NpDict: keys and references to
arrays) and names dicts (IntKeyDict).  `n…` is the number of objects so far. -/
structure Heap where
  arrs : Nat → Arr
  nArrs : Nat
  dicts : Nat → List (Int × Nat)
  nDicts : Nat
  tabs : Nat → List (Int × Val)
  nTabs : Nat

/-- A ChannelPack object (pack.py:213-221): `data`, `names` and `mask` are
references. -/
structure PObj where
  pre : List Char
  data : Nat
  names : Nat
  fn : List Char
  filenames : List (List Char)
  nof : Option String
  mindur : Option Int
  mask : Nat
  cached : List (Nat × Nat)

/-- Change of one object. -/
def updAt {α : Type} (f : Nat → α) (l : Nat) (a : α) : Nat → α := fun l' => if l' = l then a else f l'

/-- A new array. -/
def Heap.newArr (h : Heap) (a : Arr) : Heap × Nat :=
  ({ h with arrs := updAt h.arrs h.nArrs a, nArrs := h.nArrs + 1 }, h.nArrs)

/-- A new NpDict. -/
def Heap.newDict (h : Heap) (d : List (Int × Nat)) : Heap × Nat :=
  ({ h with dicts := updAt h.dicts h.nDicts d, nDicts := h.nDicts + 1 }, h.nDicts)

/-- A new IntKeyDict. -/
def Heap.newTab (h : Heap) (t : List (Int × Val)) : Heap × Nat :=
  ({ h with tabs := updAt h.tabs h.nTabs t, nTabs := h.nTabs + 1 }, h.nTabs)

/-- `bool(v)` of an array element. -/
def truthy : Val → Bool
  | .int i => i ≠ 0
  | .flt q => q ≠ 0
  | .str s => s ≠ []
  | .bytes b => b ≠ []
  | .bool b => b
  | .none => false
  | _ => true

/-- What `array[...] = False` stores in an array (pack.py:350, 352): 0 of the
dtype.  Masks are of dtype bool or float, see `Mask`. -/
def falseOf : Kind → Val
  | .i => .int 0
  | .u => .int 0
  | .f => .flt 0
  | .c => .flt 0
  | _ => .bool false

/-- An array seen as a mask; dtypes other than bool and float are not modelled as masks (an
integer one would make `pack(ch, nof='filter')` pick elements by number). -/
def Arr.toMask (a : Arr) : Mask := ⟨a.kind = .b, a.els.map truthy⟩

/-- `a[s:t] = False` -/
def falsifyArr (a : Arr) (st : Nat × Nat) : Arr :=
  ⟨a.kind, a.els.mapIdx fun i v => if st.1 ≤ i ∧ i < st.2 then falseOf a.kind else v⟩

/-- pack.py:347-352, the loop body of `duration` for one slice; writes into the
array of the mask. -/
def durationArr (req : Int) (mindur : Bool) (a : Arr) (sc : Nat × Nat) : Arr :=
  let part : Int := (sc.2 : Int) - sc.1
  if part < req ∧ mindur = true then falsifyArr a sc
  else if part > req ∧ mindur = false then falsifyArr a sc
  else a

/-- pack.py:324-358 `duration` -/
def PObj.duration (h : Heap) (o : PObj) (prod : Rat) (mindur : Bool) : Heap × PObj :=
  let a := o.cached.foldl (durationArr (truncRat prod) mindur) (h.arrs o.mask)
  ({ h with arrs := updAt h.arrs o.mask a }, { o with cached := slicelist a.toMask.bits })

/-- pack.py:233-234, 240-241 -/
def PObj.applyMindur (h : Heap) (o : PObj) : Heap × PObj :=
  match o.mindur with
  | none => (h, o)
  | some m => o.duration h m true

/-- pack.py:230-234: assignment of an array to `mask`, which keeps the array. -/
def PObj.setMask (h : Heap) (o : PObj) (l : Nat) : Heap × PObj :=
  { o with mask := l, cached := slicelist (h.arrs l).toMask.bits }.applyMindur h

/-- pack.py:309-322 `mask_reset`: the comparison gives a new array. -/
def PObj.maskReset (h : Heap) (o : PObj) : Heap × PObj :=
  match sortInts (dkeys (h.dicts o.data)) with
  | [] => o.setMask (h.newArr ⟨.f, []⟩).1 (h.newArr ⟨.f, []⟩).2
  | k :: _ =>
    match dget (h.dicts o.data) k with
    | some l =>
      let a : Arr := ⟨.b, (h.arrs l).els.map fun v => .bool (selfEq v)⟩
      o.setMask (h.newArr a).1 (h.newArr a).2
    | none => (h, o)   -- unreachable: k is a key

/-- An array handed over by the client: a new one, or one that exists already,
which may belong to a pack. -/
inductive Src where
  | new (a : Arr)
  | old (l : Nat)

/-- `np.array(value, copy=False)` (pack.py:75, 87) keeps an array. -/
def Src.take (h : Heap) : Src → Heap × Nat
  | .new a => h.newArr a
  | .old l => (h, l)

/-- pack.py:85-89, the values of a dict one after the other. -/
def takeAll (h : Heap) : List (Int × Src) → Heap × List (Int × Nat)
  | [] => (h, [])
  | (k, s) :: rest =>
    match s.take h with
    | (h, l) =>
      match takeAll h rest with
      | (h, d) => (h, (k, l) :: d)

/-- pack.py:69-72, 79-119: `NpDict(value)` of a dict with the items `d`. -/
def newNpDict (h : Heap) (d : List (Int × Src)) : Heap × Nat :=
  match takeAll h d with
  | (h, d) => h.newDict (dictOf d)

/-- pack.py:199-221 `__init__` -/
def PObj.init (h : Heap) (data : List (Int × Src)) (names : List (Int × Val)) : Heap × PObj :=
  match newNpDict h data with
  | (h, d) =>
    match h.newTab (dictOf names) with
    | (h, t) =>
      PObj.maskReset h { pre := ['c', 'h'], data := d, names := t, fn := [],
                         filenames := [[]], nof := none, mindur := none, mask := 0, cached := [] }

/-- pack.py:296-297: `d` and `od` are the dicts of self and other, read at every
turn; they can be the same.  `np.append` gives a new array. -/
def appendLoopH (E : NpEnv) (d od : Nat) : Heap → List Int → Heap × Option Exc
  | h, [] => (h, none)
  | h, k :: ks =>
    match dget (h.dicts d) k, dget (h.dicts od) k with
    | some a, some b =>
      match npAppend E (h.arrs a) (h.arrs b) with
      | .error e => (h, some e)
      | .ok c =>
        appendLoopH E d od
          { (h.newArr c).1 with dicts := updAt h.dicts d (dset (h.dicts d) k (h.newArr c).2) } ks
    | _, _ => (h, some .keyError)

/-- pack.py:291-297: an empty `data` is replaced by the very dict of the other. -/
def appendDataH (E : NpEnv) (h : Heap) (o q : PObj) : Heap × PObj × Option Exc :=
  if h.dicts o.data = [] then (h, { o with data := q.data }, none)
  else if h.dicts q.data = [] then (h, o, none)
  else if sameKeys (dkeys (h.dicts o.data)) (dkeys (h.dicts q.data)) then
    match appendLoopH E o.data q.data h (dkeys (h.dicts q.data)) with
    | (h, e) => (h, o, e)
  else (h, o, some .valueError)

/-- pack.py:299-303: so are empty `names`. -/
def appendNamesH (h : Heap) (o q : PObj) : PObj × Option Exc :=
  if h.tabs o.names = [] then ({ o with names := q.names }, none)
  else if h.tabs q.names = [] then (o, none)
  else if sameKeys (dkeys (h.tabs o.names)) (dkeys (h.tabs q.names)) then (o, none)
  else (o, some .valueError)

/-- pack.py:265-307 `append_pack` -/
def PObj.append (E : NpEnv) (h : Heap) (o q : PObj) : Heap × PObj × Option Exc :=
  match appendDataH E h o q with
  | (h, o, some e) => (h, o, some e)
  | (h, o, none) =>
    match appendNamesH h o q with
    | (o, some e) => (h, o, some e)
    | (o, none) =>
      match PObj.maskReset h { o with filenames := o.filenames ++ q.filenames } with
      | (h, o) => (h, o, none)

/-- pack.py:360-395 `startstop`: `self.mask &= result` changes the array in place
and assigns it to `mask` again. -/
def PObj.startstop (h : Heap) (o : PObj) (startb stopb : List Bool) (apply : Bool) :
    Heap × PObj × Option Exc :=
  if apply then
    match npIand (h.arrs o.mask).toMask (startstopBool startb stopb) with
    | .ok m =>
      match o.setMask { h with arrs := updAt h.arrs o.mask ⟨.b, m.bits.map .bool⟩ } o.mask with
      | (h, o) => (h, o, none)
    | .error e => (h, o, some e)
  else (h, o, none)

/-- What client code does with a pack, see `Op`.  `append q`, `shareData q` and
`shareNames q` name another pack (or the same): `pack.append_pack(q)`,
`pack.data = q.data` and `pack.names = q.names`. -/
inductive Act where
  | setMask (s : Src)
  | setMaskBad
  | setMindur (m : Option Int)
  | setMindurBad
  | setNof (v : Option String)
  | setData (d : List (Int × Src))
  | setDataBad (e : Exc)
  | setDataNp (d : List (Int × Src))
  | setNames (n : List (Int × Val))
  | setFn (s : List Char)
  | setFnBad
  | setPrefix (s : List Char)
  | setPrefixBad
  | dataItem (k : Int) (s : Src)
  | dataDel (k : Int)
  | nameItem (k : Int) (v : Val)
  | maskReset
  | duration (prod : Rat) (mindur : Bool)
  | startstop (startb stopb : List Bool) (apply : Bool)
  | append (j : Nat)
  | shareData (j : Nat)
  | shareNames (j : Nat)

/-- pack.py:223-256 and the methods, see `Pack.step`; `ps` are the packs. -/
def PObj.act (E : NpEnv) (ps : Nat → PObj) (h : Heap) (o : PObj) : Act → Heap × PObj × Option Exc
  | .setMask s => match s.take h with
    | (h, l) => match o.setMask h l with
      | (h, o) => (h, o, none)
  | .setMaskBad => (h, o, some .typeError)
  | .setMindur m => match { o with mindur := m }.applyMindur h with
    | (h, o) => (h, o, none)
  | .setMindurBad => (h, o, some .typeError)
  | .setNof v => if v ∈ nofvalids then (h, { o with nof := v }, none) else (h, o, some .valueError)
  | .setData d => match newNpDict h d with
    | (h, l) => match PObj.maskReset h { o with data := l } with
      | (h, o) => (h, o, none)
  | .setDataBad e => (h, o, some e)
  | .setDataNp d => match newNpDict h d with
    | (h, l) => (h, { o with data := l }, none)
  | .setNames n => match h.newTab (dictOf n) with
    | (h, l) => (h, { o with names := l }, none)
  | .setFn s => (h, { o with
      filenames := match o.filenames with
        | [] => [s]
        | _ :: rest => s :: rest
      fn := s }, none)
  | .setFnBad => (h, o, some .typeError)
  | .setPrefix s => (h, { o with pre := s }, none)
  | .setPrefixBad => (h, o, some .typeError)
  | .dataItem k s => match s.take h with
    | (h, l) => ({ h with dicts := updAt h.dicts o.data (dset (h.dicts o.data) k l) }, o, none)
  | .dataDel k =>
    if (dget (h.dicts o.data) k).isSome then
      ({ h with dicts := updAt h.dicts o.data ((h.dicts o.data).filter (·.1 ≠ k)) }, o, none)
    else (h, o, some .keyError)
  | .nameItem k v => ({ h with tabs := updAt h.tabs o.names (dset (h.tabs o.names) k v) }, o, none)
  | .maskReset => match o.maskReset h with
    | (h, o) => (h, o, none)
  | .duration q m => match o.duration h q m with
    | (h, o) => (h, o, none)
  | .startstop a b apply => o.startstop h a b apply
  | .append j => o.append E h (ps j)
  | .shareData j => (h, { o with data := (ps j).data }, none)
  | .shareNames j => (h, { o with names := (ps j).names }, none)

/-- A program state: the objects and the packs in the order of their creation. -/
structure World where
  heap : Heap
  packs : Nat → PObj
  n : Nat

/-- One step of client code: a new pack, or an action on pack `i`. -/
inductive WOp where
  | make (data : List (Int × Src)) (names : List (Int × Val))
  | act (i : Nat) (a : Act)

/-- pack.py:199-221 or an action. -/
def World.step (E : NpEnv) (w : World) : WOp → World × Option Exc
  | .make data names =>
    match PObj.init w.heap data names with
    | (h, o) => (⟨h, updAt w.packs w.n o, w.n + 1⟩, none)
  | .act i a =>
    match (w.packs i).act E w.packs w.heap a with
    | (h, o, e) => (⟨h, updAt w.packs i o, w.n⟩, e)

end CP
