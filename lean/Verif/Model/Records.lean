import Verif.Model.Views
/-!
# Generators of records, channelpack/pack.py

`pack.records(...)` gives a generator: nothing of its body runs before the first `next`, and
between two of them client code can do what it likes.  Here generators are objects of the program,
along with packs (`Verif.Model.World`) and arrays in hand (`Verif.Model.Views`).

Not modelled: `send`, `throw` and `close` of generators; a generator is not run from within itself.
-/

namespace CP

/-- A generator from pack.py:467-516: made, with pack `i` as self; running, with the field names, the
arrays that are zipped and the index of the next record; or at its end. -/
inductive Gen where
  | made (i : Nat) (part : Option Int) (nof : Option String) (fallback : Bool)
  | running (names : List (List Char)) (cols : List Win) (pos : Nat)
  | done

/-- What a step does: `next(generator)` a record, with its field names and its values, StopIteration, or
another exception; other steps are fine or raise an exception. -/
inductive Out where
  | fine
  | record (names : List (List Char)) (row : List Val)
  | stop
  | raised (e : Exc)
  deriving DecidableEq

/-- pack.py:514-515: the calls, one after the other. -/
def callCols (h : Heap) (o : PObj) (part : Option Int) (nof : Option String) :
    List (List Char) → Heap × Except Exc (List Win)
  | [] => (h, .ok [])
  | n :: ns =>
    match o.call h (.str n) part nof with
    | (h, .error e) => (h, .error e)
    | (h, .ok r) =>
      match callCols h o part nof ns with
      | (h, .error e) => (h, .error e)
      | (h, .ok rs) => (h, .ok (r :: rs))

/-- Element `pos` of each array, if all have one. -/
def rowAt (h : Heap) (pos : Nat) : List Win → Option (List Val)
  | [] => some []
  | r :: rs =>
    match (r.read h).els[pos]? with
    | none => none
    | some v =>
      match rowAt h pos rs with
      | none => none
      | some vs => some (v :: vs)

/-- pack.py:514-516: one turn of the loop over `zip`; without arrays there is none. -/
def turn (h : Heap) (names : List (List Char)) (cols : List Win) (pos : Nat) : Gen × Out :=
  match cols, rowAt h pos cols with
  | [], _ => (.done, .stop)
  | _ :: _, none => (.done, .stop)
  | _ :: _, some row => (.running names cols (pos + 1), .record names row)

/-- `next(generator)`, pack.py:504-516. -/
def Gen.next (ident : List Char → Bool) (ps : Nat → PObj) (h : Heap) : Gen → Heap × Gen × Out
  | .done => (h, .done, .stop)
  | .running names cols pos => (h, turn h names cols pos)
  | .made i part nof fallback =>
    match ((ps i).now h).recordNames fallback with
    | none => (h, .done, .raised .valueError)
    | some ns =>
      if validFields ident ns then
        match callCols h (ps i) part nof ns with
        | (h, .error e) => (h, .done, .raised e)
        | (h, .ok cols) => (h, turn h ns cols 0)
      else (h, .done, .raised .valueError)

/-- A program state with generators, in the order they were made. -/
structure GHands where
  hands : Hands
  gens : List Gen

/-- A step of client code: without generators; `g = pack.records(...)`; `next(g)`. -/
inductive GOp where
  | hands (op : HOp)
  | records (i : Nat) (part : Option Int) (nof : Option String) (fallback : Bool)
  | next (g : Nat)

/-- One step; a generator that is not there is a NameError. -/
def GHands.step (E : NpEnv) (S : Store) (ident : List Char → Bool) (s : GHands) : GOp → GHands × Out
  | .hands op =>
    (⟨(s.hands.step E S op).1, s.gens⟩, match (s.hands.step E S op).2 with
      | none => .fine
      | some e => .raised e)
  | .records i part nof fallback => (⟨s.hands, s.gens ++ [.made i part nof fallback]⟩, .fine)
  | .next g =>
    match s.gens[g]? with
    | none => (s, .raised .nameError)
    | some gen =>
      match gen.next ident s.hands.world.packs s.hands.world.heap with
      | (h, gen, out) => (⟨⟨{ s.hands.world with heap := h }, s.hands.held⟩, s.gens.set g gen⟩, out)

end CP
