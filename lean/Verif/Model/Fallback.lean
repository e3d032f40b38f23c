import Verif.Model.Pack
import Verif.Model.Regex
/-!
# Model of fallback names in channelpack/pack.py, with the digits of all scripts
-/

namespace CP

/-- pack.py:552-553 `re.match(self.FALLBACK_PREFIX + r'(\d+)', ch)` and its group, for a prefix that is an identifier
(pack.py:183-184), so without special characters.  `dec` is the table of decimal digits. -/
def fallbackDigits (dec : Char → Option Nat) (pre ch : List Char) : Option (List Char) :=
  (Rx.seq (.lit pre) (.group (.plus fun c => (dec c).isSome))).first ch |>.bind fun m => m.1.head?

/-- `int(s)` of a string of decimal digits, with the longest length it takes
(4300 by default, `sys.set_int_max_str_digits`; none in pythons before 3.11). -/
def intOfDigits (dec : Char → Option Nat) (limit : Option Nat) (s : List Char) : Except Exc Nat :=
  if limit.any (· < s.length) then .error .valueError
  else .ok (s.foldl (fun acc c => 10 * acc + (dec c).getD 0) 0)

/-- pack.py:518-560 `_datakey` for an int or str argument. -/
def Pack.datakeyPy (dec : Char → Option Nat) (limit : Option Nat) (p : Pack) : Ch → Except Exc Int
  | .int k => if (dget p.data k).isSome then .ok k else .error .keyError
  | .str s =>
    match lookupName p.data s p.names with
    | some r => r
    | none =>
      match fallbackDigits dec p.pre s with
      | some ds =>
        match intOfDigits dec limit ds with
        | .ok k => if (dget p.data (k : Int)).isSome then .ok k else .error .keyError
        | .error e => .error e
      | none => .error .keyError

end CP
