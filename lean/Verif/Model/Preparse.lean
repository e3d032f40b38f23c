import Verif.Model.Regex
/-!
# Model of channelpack/readtext.py: preparse
-/

namespace CP

/-- `[-+]` and `[eE]` -/
def isSign (c : Char) : Bool := c = '-' || c = '+'
def isExp (c : Char) : Bool := c = 'e' || c = 'E'

/-- readtext.py:18-19 `DNUMRX` (with the point '.') and `CNUMRX` (with ','); `dig` is `\d`. -/
def numRx (dig : Char → Bool) (point : Char) : Rx :=
  .seq (.opt (.cls isSign))
    (.seq
      (.alt (.seq (.plus dig) (.opt (.seq (.cls (· = point)) (.star dig))))
        (.seq (.cls (· = point)) (.plus dig)))
      (.opt (.seq (.cls isExp) (.seq (.opt (.cls isSign)) (.plus dig)))))

/-- readtext.py:84-85 with 22-26: the numbers with `(\D+)` between.  The characters of a
number that are special in a pattern are '+' and '.', which `_escape` escapes. -/
def sepRx (dig : Char → Bool) : List (List Char) → Rx
  | [] => .eps
  | [n] => .lit n
  | n :: m :: ns => .seq (.lit n) (.seq (.group (.plus fun c => !dig c)) (sepRx dig (m :: ns)))

/-- The numbers and the separators of a line. -/
structure LineRes where
  nums : List (List Char)
  seps : List (List Char)

/-- readtext.py:78-105, for one line and one kind of number. -/
def lineRes (dig : Char → Bool) (point : Char) (line : List Char) : LineRes :=
  let nums := (numRx dig point).findall line
  let seps := ((sepRx dig nums).search line).getD []
  { nums := nums, seps := seps.map fun sep => if strip sep ≠ [] then strip sep else sep }

/-- `numcnt`, `septypcnt` of the Triplet, readtext.py:114-118 (`sepcnt` is not used). -/
def LineRes.numcnt (r : LineRes) : Nat := r.nums.length
def LineRes.septypcnt (r : LineRes) : Nat := r.seps.eraseDups.length

/-- What `preparse` returns; `converters` are the columns that `_floatit` is set for. -/
structure Derived where
  skiprows : Nat
  delimiter : Option (List Char)
  converters : Option (List Nat)
  names : List (Int × List Char)
  usecols : List Nat
  deriving DecidableEq

/-- readtext.py:167-176: the names, from the lines above the data upwards (`lines` in that
order); `ff` is `re.match(firstfieldrx, s)`. -/
def findNames (ff : List Char → Bool) (delimiter : Option (List Char)) (numcnt : Nat) :
    List (List Char) → Except Exc (List (Int × List Char))
  | [] => .ok []
  | line :: rest =>
    match pySplit pySpace delimiter line with
    | .error e => .error e
    | .ok fs =>
      let fields := (fs.filter fun f => strip f ≠ []).map strip
      if fields.length ≠ numcnt then findNames ff delimiter numcnt rest
      else match fields with
        | [] => .error .indexError
        | f :: _ =>
          if ff f then .ok (fields.zipIdx.map fun p => ((p.2 : Int), p.1))
          else findNames ff delimiter numcnt rest

/-- readtext.py:147-154: is the line (with these numbers and separators) not a line of data? -/
def stopsData (exp : Nat) (r : LineRes) : Bool :=
  r.septypcnt ≠ exp || (r.septypcnt = 0 && r.numcnt = 0)

/-- `l[-1]` -/
def pyLast {α : Type} (l : List α) : Except Exc α :=
  match l.getLast? with
  | some x => .ok x
  | none => .error .indexError

/-- readtext.py:39-182 `preparse`; none is the empty dict. -/
def preparse (dig : Char → Bool) (ff : List Char → Bool) (lines : List (List Char)) :
    Except Exc (Option Derived) :=
  -- lines 107-112, without the blank lines at the end
  let kept := (lines.reverse.dropWhile fun l => strip l = []).reverse
  let dresults := kept.map (lineRes dig '.')
  let cresults := kept.map (lineRes dig ',')
  match pyLast dresults, pyLast cresults with
  | .error e, _ => .error e
  | _, .error e => .error e
  | .ok dl, .ok cl =>
    let flagd : Bool := dl.numcnt ≤ cl.numcnt
    let results := if flagd then dresults else cresults
    let last := if flagd then dl else cl
    let exp := if last.numcnt = 1 then 0 else 1
    if last.septypcnt ≠ exp then .ok none
    else
      -- lines 138-145; the last line given, blank or not
      let point := if flagd then '.' else ','
      if exp = 0 ∧ ((numRx dig point).split (lines.getLast?.getD [])).any (fun m => strip m ≠ []) then
        .ok none
      else
        let startline := results.length - (results.reverse.takeWhile fun r => !stopsData exp r).length
        let delimiter? : Except Exc (Option (List Char)) :=
          if exp = 1 then
            -- line 161: `flag == 'd' and dresults[-1][1][-1] or cresults[-1][1][-1]`
            match (if flagd then pyLast dl.seps else .ok []) with
            | .error e => .error e
            | .ok s => if s ≠ [] then .ok (some s) else
              match pyLast cl.seps with
              | .error e => .error e
              | .ok s => .ok (some s)
          else .ok none
        match delimiter? with
        | .error e => .error e
        | .ok delimiter =>
          match findNames ff delimiter last.numcnt (lines.take startline).reverse with
          | .error e => .error e
          | .ok names =>
            .ok (some
              { skiprows := startline, delimiter := delimiter,
                -- line 164; an empty dict is false, there is at least one column
                converters := if flagd = false ∧ last.numcnt ≠ 0 then some (List.range last.numcnt) else none,
                names := names, usecols := List.range last.numcnt })

end CP
