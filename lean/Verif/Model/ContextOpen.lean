import Verif.Model.PyText
/-!
# Model of channelpack/readtext.py: contextopen

The streams of a program by number.  Reading and closing are what matters here; what a
stream holds is its content.
-/

namespace CP

/-- An open stream.  `bad` are the positions a read fails at (bytes that can not be
decoded); `tells` is false for a stream that can not `tell` (a pipe, or a text file within
an iteration). -/
structure Stream where
  content : List Char := []
  pos : Nat := 0
  closed : Bool := false
  bytes : Bool := false
  tells : Bool := true
  bad : Nat → Bool := fun _ => false

/-- The streams of the program; those from `next` on are not opened yet. -/
structure Streams where
  at_ : Nat → Stream
  next : Nat

def Streams.set (w : Streams) (i : Nat) (s : Stream) : Streams :=
  { w with at_ := fun j => if j = i then s else w.at_ j }

/-- `io.open(fname, *args, **kwargs)`: a new stream, or an exception.  `disk` says which. -/
def Streams.open_ (w : Streams) (disk : List Char → Except Exc Stream) (fname : List Char) :
    Except Exc (Streams × Nat) :=
  match disk fname with
  | .error e => .error e
  | .ok s => .ok ({ at_ := fun j => if j = w.next then s else w.at_ j, next := w.next + 1 }, w.next)

/-- `fo.tell()` -/
def Stream.tell (s : Stream) : Except Exc Nat :=
  if s.closed then .error .valueError
  else if s.tells then .ok s.pos
  else .error .osError

/-- `type(fo.read(1)) is bytes`, and the stream after it, also when the read fails. -/
def Stream.sneak (s : Stream) : Except Exc Bool × Stream :=
  if s.closed then (.error .valueError, s)
  else if s.bad s.pos then (.error .unicodeError, s)
  else (.ok s.bytes, { s with pos := if s.pos < s.content.length then s.pos + 1 else s.pos })

/-- `fo.seek(n)` of an open stream that can tell. -/
def Stream.seek (s : Stream) (n : Nat) : Stream := { s with pos := n }

/-- The `fname` argument: a path, or a stream. -/
inductive Source where
  | path (fname : List Char)
  | stream (i : Nat)

/-- The attributes of a `contextopen` instance but the name. -/
structure Context where
  fo : Nat
  closeit : Bool
  bytehint : Bool

/-- readtext.py:222-224, the end of `contextopen.__init__`: read one position and go back. -/
def contextSneak (w : Streams) (i : Nat) (closeit : Bool) : Streams × Except Exc Context :=
  match (w.at_ i).tell with
  | .error e => (w, .error e)
  | .ok tell =>
    match (w.at_ i).sneak with
    | (.error e, s) => (w.set i s, .error e)
    | (.ok b, s) => (w.set i (s.seek tell), .ok { fo := i, closeit := closeit, bytehint := b })

/-- readtext.py:208-224 `contextopen.__init__`: the streams after it, and the instance or
the exception. -/
def contextInit (disk : List Char → Except Exc Stream) (w : Streams) (src : Source) :
    Streams × Except Exc Context :=
  match src with
  | .path p => match w.open_ disk p with
    | .error e => (w, .error e)
    | .ok (w, i) => contextSneak w i true
  | .stream i => contextSneak w i false

/-- readtext.py:229-232 `contextopen.__exit__`; False: an exception goes on. -/
def contextExit (w : Streams) (c : Context) : Streams :=
  if c.closeit then w.set c.fo { w.at_ c.fo with closed := true } else w

/-- `with contextopen(fname) as context: body`; the body is given the context and does what
it wants to the streams. -/
def withContext {α : Type} (disk : List Char → Except Exc Stream) (src : Source)
    (body : Context → Streams → Streams × Except Exc α) (w : Streams) : Streams × Except Exc α :=
  match contextInit disk w src with
  | (w, .error e) => (w, .error e)
  | (w, .ok c) =>
    match body c w with
    | (w, r) => (contextExit w c, r)

end CP
