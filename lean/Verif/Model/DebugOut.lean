import Verif.Model.Text
/-!
# What `textpack` prints with `debug`, channelpack/readtext.py
-/

namespace CP

/-- readtext.py:383-399, with 348-353 for `skiprows`: the number printed as `last successful parse
1-based line number:`, none if none is printed.  `linum` is the number of the last tuple, from 0;
`skiprows` is the one of `textpack`, less one with names in the file.  Nothing is printed when
`next(linetupler)` raises (lines 363-370), and no number when the first line of data does, as
`linum` is not there then.  The lines printed for the functions (394-395) are not modelled. -/
def debugLine (fl : FloatS) (h : Hint) (f : TFile) (args : TextArgs) : Option Int :=
  let a := args.normal
  if a.debug = false then none
  else
    match linetuples fl h a.delimiter a.usecols a.converters a.stripstrings a.hasnames
      (f.skip a.skiprows.toNat) with
    | .error _ => none
    | .ok l =>
      match l.exc with
      | none => none
      | some _ => if l.rows = [] then none else some ((l.rows.length : Int) - 1 + a.skiprows + 1)

end CP
