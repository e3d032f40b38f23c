import Verif.Model.Xlsx
/-!
# Model of the defined names, core properties and comments of an xlsx file

channelpack gets at nothing of these; what matters is which exception they raise.
-/

namespace CP

/-- xlsx.py:147-152 `cnv_xsd_unsignedInt`: the exception raised, if any. -/
def unsignedExc (E : XlEnv) (s : Option (List Char)) : Option Exc :=
  match truthyText s with
  | none => none
  | some t =>
    match E.int t with
    | .error e => some e
    | .ok n => if 0 ≤ n then none else some .assertionError

/-- xlsx.py:154-161 `cnv_xsd_boolean`: the exception raised, if any. -/
def booleanExc (s : Option (List Char)) : Option Exc :=
  match xsdBoolean s with
  | .error e => some e
  | .ok _ => none

/-- The first exception of some. -/
def firstExc : List (Option Exc) → Option Exc
  | [] => none
  | some e :: _ => some e
  | none :: rest => firstExc rest

/-- xlsx.py:133-142, 163-192, 312-330 `do_defined_name`.  The attributes without a name for the object are skipped; the
name is a text in any case. -/
def definedName (E : XlEnv) (e : Elem) : Option Exc :=
  firstExc [unsignedExc E (e.get (bare ['l', 'o', 'c', 'a', 'l', 'S', 'h', 'e', 'e', 't', 'I', 'd'])),
    booleanExc (e.get (bare ['h', 'i', 'd', 'd', 'e', 'n'])),
    booleanExc (e.get (bare ['f', 'u', 'n', 'c', 't', 'i', 'o', 'n'])),
    booleanExc (e.get (bare ['v', 'b', 'P', 'r', 'o', 'c', 'e', 'd', 'u', 'r', 'e'])),
    booleanExc (e.get (bare ['x', 'l', 'm'])),
    unsignedExc E (e.get (bare ['f', 'u', 'n', 'c', 't', 'i', 'o', 'n', 'G', 'r', 'o', 'u', 'p', 'I', 'd']))]

/-- xlsx.py:332-335 `do_defined_names`; `make_name_access_maps` (xlsx.py:194-219) sorts tuples of two integers and
an object, the second ones of which differ, and raises nothing. -/
def definedNames (E : XlEnv) (e : Elem) : Option Exc := firstExc (e.children.map (definedName E))

/-- xlsx.py:270-288 `process_coreprops`: texts of elements are put into a dict. -/
def coreProps (_ : Elem) : Option Exc := none

/-- xlsx.py:546-555: one comment.  (To put the texts together raises nothing.) -/
def commentExc (E : XlEnv) (authors : List (Option (List Char))) (e : Elem) : Option Exc :=
  match E.intOpt (e.get (bare ['a', 'u', 't', 'h', 'o', 'r', 'I', 'd'])) with
  | .error err => some err
  | .ok i =>
    match pyIndex authors i with
    | .error err => some err
    | .ok _ =>
      match e.get (bare ['r', 'e', 'f']) with
      | none => some .attributeError
      | some ref =>
        match cellNameToRowxColx E ref false with
        | .error err => some err
        | .ok _ => none

/-- xlsx.py:533-555 `process_comments_stream` -/
def sheetComments (E : XlEnv) (root : Elem) : Option Exc :=
  match root.children with
  | [] => some .indexError
  | authors :: rest =>
    if authors.tag ≠ ssml ['a', 'u', 't', 'h', 'o', 'r', 's'] then some .assertionError
    else match rest with
      | [] => some .indexError
      | list :: _ =>
        if list.tag ≠ ssml ['c', 'o', 'm', 'm', 'e', 'n', 't', 'L', 'i', 's', 't'] then some .assertionError
        else firstExc ((list.children.filter fun e => e.tag = ssml ['c', 'o', 'm', 'm', 'e', 'n', 't']).map
          (commentExc E (authors.children.map Elem.text)))

/-- The reader with these functions. -/
def XlEnv.concrete (E : XlEnv) : XlEnv := { E with notes := sheetComments E, names := definedNames E, props := coreProps }

end CP
