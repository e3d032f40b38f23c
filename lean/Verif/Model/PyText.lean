import Verif.Model.PyStr
/-!
# More Python string methods, for str and for bytes

A bytes object is a list of characters 0..255 here, so that one definition serves both;
they differ in what is whitespace.
-/

namespace CP

/-- `string.whitespace` -/
def asciiWhite : List Char := [' ', '\t', '\n', '\r', '\x0b', '\x0c']

/-- `s.strip(chars)`, with the characters to strip as a predicate. -/
def stripBy (p : Char → Bool) (s : List Char) : List Char :=
  ((s.dropWhile p).reverse.dropWhile p).reverse

/-- Splitting at `d`; `skip` characters belong to a delimiter already found. -/
def splitStrFrom (d : List Char) : Nat → List Char → List (List Char)
  | _, [] => [[]]
  | skip + 1, _ :: xs => splitStrFrom d skip xs
  | 0, x :: xs =>
    if d.isPrefixOf (x :: xs) then [] :: splitStrFrom d (d.length - 1) xs
    else match splitStrFrom d 0 xs with
      | [] => [[x]]
      | p :: ps => (x :: p) :: ps

/-- `s.split(d)` for a string `d`, not empty. -/
def splitStr (d s : List Char) : List (List Char) := splitStrFrom d 0 s

/-- `d.join(l)` -/
def joinStr (d : List Char) : List (List Char) → List Char
  | [] => []
  | [p] => p
  | p :: q :: ps => p ++ d ++ joinStr d (q :: ps)

/-- `s.replace(old, new)` for `old` not empty. -/
def replaceStr (old new s : List Char) : List Char := joinStr new (splitStr old s)

/-- `s.split()`: the parts between whitespace. -/
def splitWs (ws : Char → Bool) : List Char → List (List Char)
  | [] => []
  | x :: xs =>
    if ws x then splitWs ws xs
    else if (xs.head?.map ws).getD true then [x] :: splitWs ws xs
    else match splitWs ws xs with
      | [] => [[x]]
      | p :: ps => (x :: p) :: ps

/-- `s.split(delimiter)` -/
def pySplit (ws : Char → Bool) (delimiter : Option (List Char)) (s : List Char) :
    Except Exc (List (List Char)) :=
  match delimiter with
  | none => .ok (splitWs ws s)
  | some [] => .error .valueError
  | some d => .ok (splitStr d s)

/-- The lines of a text, each with its newline if it has one. -/
def fileLines : List Char → List (List Char)
  | [] => []
  | x :: xs =>
    if x = '\n' then [x] :: fileLines xs
    else match fileLines xs with
      | [] => [[x]]
      | l :: ls => (x :: l) :: ls

end CP
