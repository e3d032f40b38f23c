import Verif.Model.Text
/-!
# Universal newlines

`contextopen` opens a file given by its name with `io.open(fname, encoding=...)`
(readtext.py:212), which is text mode with `newline=None`.
-/

namespace CP

/-- What text mode of `io.open` makes of line ends (documentation of `io`: lines in the
input can end in '\n', '\r', or '\r\n', and these are translated into '\n'). -/
def universal : List Char → List Char
  | [] => []
  | '\r' :: '\n' :: s => '\n' :: universal s
  | '\r' :: s => '\n' :: universal s
  | c :: s => c :: universal s

/-- The stream of a file with this (decoded) content: readtext.py:208-214. -/
def openText (content : List Char) : TFile := ⟨universal content, 0⟩

end CP
