import Verif.Model.Py
/-!
# Python string methods used by the model, on lists of characters
-/

namespace CP

/-- `c.isspace()` for a character of a str (also what `strip()` and `split()` without
arguments remove). -/
def pySpace (c : Char) : Bool :=
  let n := c.toNat
  (9 ≤ n && n ≤ 13) || (28 ≤ n && n ≤ 32) || n == 0x85 || n == 0xa0 || n == 0x1680 ||
  (0x2000 ≤ n && n ≤ 0x200a) || n == 0x2028 || n == 0x2029 || n == 0x202f || n == 0x205f ||
  n == 0x3000

/-- `s.lstrip()` -/
def lstrip (s : List Char) : List Char := s.dropWhile pySpace

/-- `s.rstrip()` -/
def rstrip (s : List Char) : List Char := (s.reverse.dropWhile pySpace).reverse

/-- `s.strip()` -/
def strip (s : List Char) : List Char := rstrip (lstrip s)

/-- `s.split(c)` for a one-character separator. -/
def splitChar (c : Char) : List Char → List (List Char)
  | [] => [[]]
  | x :: xs =>
    if x = c then [] :: splitChar c xs
    else match splitChar c xs with
      | [] => [[x]]
      | p :: ps => (x :: p) :: ps

end CP
