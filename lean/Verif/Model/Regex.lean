import Verif.Model.PyText
/-!
# Model of the part of Python's re that channelpack/readtext.py uses

A pattern matches by backtracking: `run` lists all ways to match at the start of a string, in
the order in which re tries them; re takes the first.
-/

namespace CP

/-- Patterns: characters of a class, sequence, alternatives (the left one is tried first),
`c*` of a class (greedy), and a capturing group. -/
inductive Rx where
  | eps
  | cls (p : Char → Bool)
  | seq (a b : Rx)
  | alt (a b : Rx)
  | star (p : Char → Bool)
  | group (a : Rx)

/-- `r?` (greedy) -/
def Rx.opt (a : Rx) : Rx := .alt a .eps

/-- `c+` of a class (greedy) -/
def Rx.plus (p : Char → Bool) : Rx := .seq (.cls p) (.star p)

/-- A literal string. -/
def Rx.lit : List Char → Rx
  | [] => .eps
  | c :: cs => .seq (.cls (· = c)) (.lit cs)

/-- The ways to match `c*`: as many as possible first. -/
def runStar (p : Char → Bool) : List Char → List (List Char)
  | [] => [[]]
  | c :: cs => if p c then runStar p cs ++ [c :: cs] else [c :: cs]

/-- The ways to match at the start of a string: the groups captured, and what is left of the
string. -/
def Rx.run : Rx → List Char → List (List (List Char) × List Char)
  | .eps, s => [([], s)]
  | .cls p, s => match s with
    | [] => []
    | c :: cs => if p c then [([], cs)] else []
  | .seq a b, s => (a.run s).flatMap fun r => (b.run r.2).map fun q => (r.1 ++ q.1, q.2)
  | .alt a b, s => a.run s ++ b.run s
  | .star p, s => (runStar p s).map fun rest => ([], rest)
  | .group a, s => (a.run s).map fun r => (s.take (s.length - r.2.length) :: r.1, r.2)

/-- The first way to match at the start of a string. -/
def Rx.first (rx : Rx) (s : List Char) : Option (List (List Char) × List Char) := (rx.run s).head?

/-- `re.search(rx, s).groups()`, None without a match. -/
def Rx.search (rx : Rx) : List Char → Option (List (List Char))
  | [] => (rx.first []).map Prod.fst
  | c :: cs =>
    match rx.first (c :: cs) with
    | some r => some r.1
    | none => Rx.search rx cs

/-- The matches of `re.finditer`, with the text before each one, and the text after the last
one; `before` is the text since the last match, `n` bounds the number of steps.  A match of
nothing does not occur with the patterns here; it ends the loop. -/
def Rx.scan (rx : Rx) : Nat → List Char → List Char → List (List Char × List Char) × List Char
  | 0, before, s => ([], before ++ s)
  | n + 1, before, s =>
    match rx.first s with
    | some (_, rest) =>
      if rest.length < s.length then
        let r := rx.scan n [] rest
        ((before, s.take (s.length - rest.length)) :: r.1, r.2)
      else ([], before ++ s)
    | none => match s with
      | [] => ([], before)
      | c :: cs => rx.scan n (before ++ [c]) cs

/-- `re.findall(rx, s)` for a pattern without groups. -/
def Rx.findall (rx : Rx) (s : List Char) : List (List Char) :=
  (rx.scan (s.length + 1) [] s).1.map Prod.snd

/-- `re.split(rx, s)` for a pattern without groups. -/
def Rx.split (rx : Rx) (s : List Char) : List (List Char) :=
  let r := rx.scan (s.length + 1) [] s
  r.1.map Prod.fst ++ [r.2]

end CP
