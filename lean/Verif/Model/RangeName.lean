import Verif.Model.ReadXl
/-!
# Model of the names of references

channelpack/xlrd/formula.py:2050-2188.  Flags are given by their truth value; `%d` is `str` of an int.
-/

namespace CP

/-- xlrd/formula.py:2100-2107 `colname` of an int: an item of the alphabet may have a negative index. -/
def colnameI (colx : Int) : Except Exc (List Char) :=
  if colx < 0 then (pyIndex ((List.range 26).map fun i => Char.ofNat (65 + i)) colx).map fun c => [c]
  else formulaColname colx.toNat

/-- xlrd/formula.py:2050-2062 `rownamerel` -/
def rowNameRel (rowx : Int) (rowxrel : Bool) (browx : Option Int) (r1c1 : Bool) : List Char :=
  let r1c1 := if browx = none then true else r1c1
  if rowxrel = false then
    if r1c1 then 'R' :: decInt (rowx + 1) else '$' :: decInt (rowx + 1)
  else if r1c1 then
    if rowx ≠ 0 then ['R', '['] ++ decInt rowx ++ [']'] else ['R']
  else decInt ((browx.getD 0 + rowx) % 65536 + 1)

/-- xlrd/formula.py:2064-2076 `colnamerel` -/
def colNameRel (colx : Int) (colxrel : Bool) (bcolx : Option Int) (r1c1 : Bool) : Except Exc (List Char) :=
  let r1c1 := if bcolx = none then true else r1c1
  if colxrel = false then
    if r1c1 then .ok ('C' :: decInt (colx + 1)) else (colnameI colx).map ('$' :: ·)
  else if r1c1 then
    if colx ≠ 0 then .ok (['C', '['] ++ decInt colx ++ [']']) else .ok ['C']
  else colnameI ((bcolx.getD 0 + colx) % 256)

/-- xlrd/formula.py:2082-2086 `cellnameabs` -/
def cellNameAbs (rowx colx : Int) (r1c1 : Bool) : Except Exc (List Char) :=
  if r1c1 then .ok ('R' :: decInt (rowx + 1) ++ 'C' :: decInt (colx + 1))
  else (colnameI colx).map fun s => '$' :: s ++ '$' :: decInt (rowx + 1)

/-- xlrd/formula.py:2088-2098 `cellnamerel` -/
def cellNameRel (rowx colx : Int) (rowxrel colxrel : Bool) (browx bcolx : Option Int) (r1c1 : Bool) : Except Exc (List Char) :=
  if rowxrel = false ∧ colxrel = false then cellNameAbs rowx colx r1c1
  else
    let r1c1 := if (rowxrel = true ∧ browx = none) ∨ (colxrel = true ∧ bcolx = none) then true else r1c1
    match colNameRel colx colxrel bcolx r1c1 with
    | .error e => .error e
    | .ok c =>
      let r := rowNameRel rowx rowxrel browx r1c1
      .ok (if r1c1 then r ++ c else c ++ r)

/-- xlrd/formula.py:2109-2115 `rangename2d` without `r1c1` (with it, the result is None). -/
def rangeName2d (rlo rhi clo chi : Int) : Except Exc (List Char) :=
  if rhi = rlo + 1 ∧ chi = clo + 1 then cellNameAbs rlo clo false
  else
    match cellNameAbs rlo clo false with
    | .error e => .error e
    | .ok a => (cellNameAbs (rhi - 1) (chi - 1) false).map fun b => a ++ ':' :: b

/-- xlrd/formula.py:2117-2127 `rangename2drel`; the flags are those of the rows, first and last, and of the columns. -/
def rangeName2dRel (rlo rhi clo chi : Int) (rlorel rhirel clorel chirel : Bool) (browx bcolx : Option Int) (r1c1 : Bool) : Except Exc (List Char) :=
  let r1c1 := if (rlorel = true ∨ rhirel = true) ∧ browx = none then true else r1c1
  let r1c1 := if (clorel = true ∨ chirel = true) ∧ bcolx = none then true else r1c1
  match cellNameRel rlo clo rlorel clorel browx bcolx r1c1 with
  | .error e => .error e
  | .ok a => (cellNameRel (rhi - 1) (chi - 1) rhirel chirel browx bcolx r1c1).map fun b => a ++ ':' :: b

/-- xlrd/formula.py:2159-2173 `quotedsheetname` -/
def quotedSheetName (shnames : List (List Char)) (shx : Int) : Except Exc (List Char) :=
  let shname : Except Exc (List Char) :=
    if 0 ≤ shx then pyIndex shnames shx
    else if shx = -1 then .ok "?internal; any sheet?".toList
    else if shx = -2 then .ok "internal; deleted sheet".toList
    else if shx = -3 then .ok "internal; macro sheet".toList
    else if shx = -4 then .ok "<<external>>".toList
    else .ok ("?error ".toList ++ decInt shx ++ "?".toList)
  match shname with
  | .error e => .error e
  | .ok shname =>
    if '\'' ∈ shname then .ok ('\'' :: shname.flatMap (fun c => if c = '\'' then ['\'', '\''] else [c]) ++ ['\''])
    else if ' ' ∈ shname then .ok ('\'' :: shname ++ ['\''])
    else .ok shname

/-- xlrd/formula.py:2175-2180 `sheetrange`, given the names of the sheets. -/
def sheetRange (shnames : List (List Char)) (slo shi : Int) : Except Exc (List Char) :=
  match quotedSheetName shnames slo with
  | .error e => .error e
  | .ok a => if slo ≠ shi - 1 then (quotedSheetName shnames (shi - 1)).map fun b => a ++ ':' :: b else .ok a

/-- xlrd/formula.py:2182-2188 `sheetrangerel` -/
def sheetRangeRel (shnames : List (List Char)) (slo shi : Int) (slorel shirel : Bool) : Except Exc (List Char) :=
  if slorel = false ∧ shirel = false then sheetRange shnames slo shi
  else if slo = 0 ∧ 0 = shi - 1 ∧ slorel = true ∧ shirel = true then .ok []
  else .error .assertionError

/-- xlrd/formula.py:2130-2140 `rangename3d`, given the coordinates. -/
def rangeName3d (shnames : List (List Char)) (slo shi rlo rhi clo chi : Int) : Except Exc (List Char) :=
  match sheetRange shnames slo shi with
  | .error e => .error e
  | .ok a => (rangeName2d rlo rhi clo chi).map fun b => a ++ '!' :: b

/-- The coordinates and flags of a reference with relative parts, formula.py:2151-2152. -/
structure RelRef where
  slo : Int
  shi : Int
  rlo : Int
  rhi : Int
  clo : Int
  chi : Int
  slorel : Bool
  shirel : Bool
  rlorel : Bool
  rhirel : Bool
  clorel : Bool
  chirel : Bool

/-- xlrd/formula.py:2142-2157 `rangename3drel` -/
def rangeName3dRel (shnames : List (List Char)) (ref : RelRef) (browx bcolx : Option Int) (r1c1 : Bool) : Except Exc (List Char) :=
  match sheetRangeRel shnames ref.slo ref.shi ref.slorel ref.shirel with
  | .error e => .error e
  | .ok shdesc =>
    match rangeName2dRel ref.rlo ref.rhi ref.clo ref.chi ref.rlorel ref.rhirel ref.clorel ref.chirel browx bcolx r1c1 with
    | .error e => .error e
    | .ok rngdesc => if shdesc = [] then .ok rngdesc else .ok (shdesc ++ '!' :: rngdesc)

end CP
