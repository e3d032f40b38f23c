import Verif.Model.Py
/-!
# Model of `is_date_format_string`, channelpack/xlrd/formatting.py

Output to the log is left out.
-/

namespace CP

/-- formatting.py:430-434 `date_char_dict` -/
def dateChars : List Char := ['y', 'm', 'd', 'h', 's', 'Y', 'M', 'D', 'H', 'S']

/-- formatting.py:436-438 `skip_char_dict` -/
def skipChars : List Char := ['$', '-', '+', '/', '(', ')', ':', ' ']

/-- formatting.py:440-444 `num_char_dict` -/
def numChars : List Char := ['0', '#', '?']

/-- formatting.py:446-453 `non_date_formats` -/
def nonDateFormats : List (List Char) :=
  [['0', '.', '0', '0', 'E', '+', '0', '0'], ['#', '#', '0', '.', '0', 'E', '+', '0'],
   ['G', 'e', 'n', 'e', 'r', 'a', 'l'], ['G', 'E', 'N', 'E', 'R', 'A', 'L'], ['g', 'e', 'n', 'e', 'r', 'a', 'l'], ['@']]

/-- The three states of the loop. -/
inductive FmtState where
  | plain | text | escape
  deriving DecidableEq

/-- formatting.py:472-491: the loop that reduces the format. -/
def reduceFmt : FmtState → List Char → List Char
  | _, [] => []
  | .plain, c :: cs =>
    if c = '"' then reduceFmt .text cs
    else if c ∈ ['\\', '_', '*'] then reduceFmt .escape cs
    else if c ∈ skipChars then reduceFmt .plain cs
    else c :: reduceFmt .plain cs
  | .text, c :: cs => if c = '"' then reduceFmt .plain cs else reduceFmt .text cs
  | .escape, _ :: cs => reduceFmt .plain cs

/-- formatting.py:455 and 494: `re.sub(r'\[[^]]*\]', '', s)`; `inside` says that a match is
going on. -/
def stripBrackets : (inside : Bool) → List Char → List Char
  | _, [] => []
  | true, c :: cs => if c = ']' then stripBrackets false cs else stripBrackets true cs
  | false, c :: cs => if c = '[' ∧ ']' ∈ cs then stripBrackets true cs else c :: stripBrackets false cs

/-- formatting.py:500-507: the loop that counts. -/
def countFmt : Nat → Nat → List Char → Nat × Nat
  | dates, nums, [] => (dates, nums)
  | dates, nums, c :: cs =>
    if c ∈ dateChars then countFmt (dates + 5) nums cs
    else if c ∈ numChars then countFmt dates (nums + 5) cs
    else countFmt dates nums cs

/-- formatting.py:462-523 `is_date_format_string` -/
def isDateFormat (fmt : List Char) : Bool :=
  let s := stripBrackets false (reduceFmt .plain fmt)
  if s ∈ nonDateFormats then false
  else
    let (dates, nums) := countFmt 0 0 s
    if dates ≠ 0 ∧ nums = 0 then true
    else if nums ≠ 0 ∧ dates = 0 then false
    else decide (dates > nums)

end CP
