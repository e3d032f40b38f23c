import Verif.Model.World
/-!
# Arrays in the hands of the client, channelpack/pack.py

`pack(ch)` hands out the array of the channel, a view of it or a copy of it, and
`pack.mask` is the array of the mask.  Here client code keeps what it gets, slices it and
writes to it, along with what it does in `Verif.Model.World`.

Not modelled: slices with steps or of other dimensions, negative slice bounds (which are
other ways to say the same), arrays that are views when handed to a pack (a pack gets whole
array objects).
-/

namespace CP

/-- A numpy array in hand: elements `off` to `off + len` of an array object. -/
structure Win where
  arr : Nat
  off : Nat
  len : Nat
  deriving DecidableEq

/-- What the array holds now. -/
def Win.read (h : Heap) (r : Win) : Arr :=
  ⟨(h.arrs r.arr).kind, ((h.arrs r.arr).els.drop r.off).take r.len⟩

/-- `r[a:b]` is a view of the same elements. -/
def Win.sub (r : Win) (a b : Nat) : Win := ⟨r.arr, r.off + a, min (r.len - a) (b - a)⟩

/-- The pack as `_datakey` (pack.py:518-560) sees it: what its objects hold now. -/
def PObj.now (h : Heap) (o : PObj) : Pack :=
  { pre := o.pre, data := (h.dicts o.data).map fun p => (p.1, h.arrs p.2), names := h.tabs o.names,
    fn := o.fn, filenames := o.filenames, nof := o.nof, mindur := o.mindur,
    mask := (h.arrs o.mask).toMask, cached := o.cached }

/-- A new array for a result that is computed: `np.where` (datautils.py:29, 31) and boolean
indexing (pack.py:455, 461) give new arrays. -/
def fresh (h : Heap) : Except Exc Arr → Heap × Except Exc Win
  | .error e => (h, .error e)
  | .ok a => ((h.newArr a).1, .ok ⟨(h.newArr a).2, 0, a.els.length⟩)

/-- pack.py:419-465 `__call__`.  A slice of an array (line 449) is a view of it. -/
def PObj.call (h : Heap) (o : PObj) (ch : Ch) (part : Option Int) (nof : Option String) :
    Heap × Except Exc Win :=
  match (o.now h).datakey ch with
  | .error e => (h, .error e)
  | .ok key =>
    match dget (h.dicts o.data) key with
    | none => (h, .error .keyError)
    | some l =>
      let whole : Win := ⟨l, 0, (h.arrs l).els.length⟩
      let mask := (h.arrs o.mask).toMask
      match part with
      | some i =>
        match pyIndex o.cached i with
        | .ok sl => (h, .ok (whole.sub sl.1 sl.2))
        | .error _ => (h, .error .indexError)
      | none =>
        if nof = some "nan" then fresh h (masked (h.arrs l) mask)
        else if nof = some "filter" then fresh h (boolIndex (h.arrs l) mask)
        else if nof = some "ignore" then (h, .ok whole)
        else if o.nof = some "nan" then fresh h (masked (h.arrs l) mask)
        else if o.nof = some "filter" then fresh h (boolIndex (h.arrs l) mask)
        else if o.nof ≠ none ∧ o.nof ≠ some "" then (h, .error .valueError)
        else (h, .ok whole)

/-- What numpy stores in an array of a kind when a value is assigned to an element. -/
abbrev Store := Kind → Val → Except Exc Val

/-- `r[i] = v` -/
def Win.write (S : Store) (h : Heap) (r : Win) (i : Int) (v : Val) : Heap × Option Exc :=
  let n := (r.read h).els.length
  let j := if i < 0 then i + n else i
  if j < 0 ∨ n ≤ j then (h, some .indexError)
  else match S (h.arrs r.arr).kind v with
    | .error e => (h, some e)
    | .ok x =>
      let a : Arr := ⟨(h.arrs r.arr).kind, (h.arrs r.arr).els.set (r.off + j.toNat) x⟩
      ({ h with arrs := updAt h.arrs r.arr a }, none)

/-- A program state: packs and the arrays in hand, in the order they were got. -/
structure Hands where
  world : World
  held : List Win

/-- A step of client code: with packs; `r = pack(ch, part, nof)`; `r = pack.mask`;
`r = held[a:b]`; `held[i] = v`. -/
inductive HOp where
  | world (op : WOp)
  | call (i : Nat) (ch : Ch) (part : Option Int) (nof : Option String)
  | maskOf (i : Nat)
  | sub (k : Nat) (a b : Nat)
  | write (k : Nat) (i : Int) (v : Val)

/-- One step and its exception, if any; an array not in hand is a NameError. -/
def Hands.step (E : NpEnv) (S : Store) (s : Hands) : HOp → Hands × Option Exc
  | .world op => (⟨(s.world.step E op).1, s.held⟩, (s.world.step E op).2)
  | .call i ch part nof =>
    match (s.world.packs i).call s.world.heap ch part nof with
    | (h, .ok r) => (⟨{ s.world with heap := h }, s.held ++ [r]⟩, none)
    | (h, .error e) => (⟨{ s.world with heap := h }, s.held⟩, some e)
  | .maskOf i =>
    let l := (s.world.packs i).mask
    (⟨s.world, s.held ++ [⟨l, 0, (s.world.heap.arrs l).els.length⟩]⟩, none)
  | .sub k a b =>
    match s.held[k]? with
    | none => (s, some .nameError)
    | some r => (⟨s.world, s.held ++ [r.sub a b]⟩, none)
  | .write k i v =>
    match s.held[k]? with
    | none => (s, some .nameError)
    | some r =>
      match r.write S s.world.heap i v with
      | (h, e) => (⟨{ s.world with heap := h }, s.held⟩, e)

end CP
