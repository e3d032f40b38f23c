import Verif.Model.XlsBook
/-!
# Model of the names and external references of an .xls book

channelpack/xlrd/book.py:882-944, 970-1103, 1111-1156, channelpack/xlrd/formula.py:100-127, 397-528,
712-1357: NAME, EXTERNSHEET, EXTERNNAME and SUPBOOK records, `names_epilogue` and
`evaluate_name_formula`, for BIFF 5, 7 and 8.  channelpack gets at nothing of this; what matters is whether
it raises.  So texts of operands, ranks and names are left out (making them raises nothing, apart from
what is said below), and so is output to the log (which is taken to raise nothing).
-/

namespace CP

/-! ## Numbers and operands -/

/-- A box of cells (`Ref3D`): the coordinates and the flags. -/
structure Ref3 where
  coords : List Int
  rel : List Nat
  deriving DecidableEq

/-- The value of an operand: None, a number, a text, boxes. -/
inductive OVal (ν : Type)
  | none
  | num (x : ν)
  | text (t : List Char)
  | refs (l : List Ref3)

/-- What is on the stack: operands; and the number 4, see `doRange`. -/
inductive Opnd (ν : Type)
  | opnd (kind : Int) (value : OVal ν)
  | four

/-- What has a text. -/
def Opnd.isOpnd {ν : Type} : Opnd ν → Bool
  | .opnd _ _ => true
  | .four => false

/-- The kinds of operands, xlrd/formula.py:74-81. -/
abbrev oBool : Int := 3
abbrev oErr : Int := 4
abbrev oMsng : Int := 5
abbrev oNum : Int := 2
abbrev oRef : Int := -1
abbrev oRel : Int := -2
abbrev oStrg : Int := 1
abbrev oUnk : Int := 0

/-- The numbers of python (float, int, complex) as far as formulas use them: those of doubles, of
integers and `float(n)`, the operators (by their tokens), `float` and `num2strg`, comparison of texts, the operators on
other values, `x in (0, 1)` (and which), `int(x)`, `1 <= x < n`. -/
structure NumEnv (ν : Type) where
  double : Bytes → ν
  nat : Nat → ν
  flo : Nat → ν
  arith : Nat → ν → ν → Except Exc ν
  cmp : Nat → ν → ν → Except Exc Bool
  unary : Nat → ν → Except Exc ν
  parse : List Char → Except Exc ν
  str : OVal ν → List Char
  cmpText : Nat → List Char → List Char → Bool
  weird : Nat → OVal ν → OVal ν → Except Exc (OVal ν)
  small : ν → Option Bool
  int : ν → Except Exc Int
  within : ν → Nat → Except Exc Bool

variable {ν : Type}

/-- An operand of unknown kind. -/
def unkItem : Opnd ν := .opnd oUnk .none

/-- xlrd/formula.py:721-724: the conversion of an operand of the kind oNUM or oSTRG. -/
def binConv (N : NumEnv ν) (op : Nat) (kind : Int) (v : OVal ν) : Except Exc (OVal ν) :=
  if op ≤ 7 then
    if kind = oStrg then
      match v with
      | .text t => (N.parse t).map .num
      | .num x => .ok (.num x)
      | _ => .error .typeError
    else .ok v
  else if op = 8 then (if kind = oNum then .ok (.text (N.str v)) else .ok v)
  else .ok v

/-- The operators of `binop_rules`, xlrd/formula.py:725-738. -/
def binFunc (N : NumEnv ν) (op : Nat) (a b : OVal ν) : Except Exc (OVal ν) :=
  match a, b with
  | .num x, .num y =>
    if op ≤ 7 then (N.arith op x y).map .num
    else if op = 8 then N.weird op a b
    else (N.cmp op x y).map fun c => .num (N.nat (if c then 1 else 0))
  | .text x, .text y =>
    if op ≤ 7 then N.weird op a b
    else if op = 8 then .ok (.text (x ++ y))
    else .ok (.num (N.nat (if N.cmpText op x y then 1 else 0)))
  | a, b => N.weird op a b

def OVal.isNone : OVal ν → Bool
  | .none => true
  | _ => false

/-- xlrd/formula.py:776-804 `do_binop`, for the operands taken from the stack. -/
def doBinop (N : NumEnv ν) (op : Nat) (a b : Opnd ν) : Except Exc (Opnd ν) :=
  let kind : Int := if op ≤ 7 then oNum else if op = 8 then oStrg else oBool
  match a, b with
  | .opnd ka va, .opnd kb vb =>
    if ¬ (kb = oNum ∨ kb = oStrg) ∨ ¬ (ka = oNum ∨ ka = oStrg) then .ok (.opnd kind .none)
    else if vb.isNone ∨ va.isNone then .ok (.opnd kind .none)
    else match binConv N op kb vb with
      | .error e => .error e
      | .ok vb =>
        match binConv N op ka va with
        | .error e => .error e
        | .ok va => (binFunc N op va vb).map (.opnd kind)
  | _, _ => .error .attributeError

/-- xlrd/formula.py:806-820 `do_unaryop` -/
def doUnary (N : NumEnv ν) (op : Nat) : Opnd ν → Except Exc (Opnd ν)
  | .opnd _ .none => .ok (.opnd oNum .none)
  | .opnd _ (.num x) => (N.unary op x).map fun y => .opnd oNum (.num y)
  | .opnd _ v => if op = 0x12 then .ok (.opnd oNum v) else .error .typeError
  | .four => .error .attributeError

/-- xlrd/formula.py:402-406 `do_box_funcs` with `tRangeFuncs` (`lo := min`, `hi := max`) or `tIsectFuncs`. -/
def boxFuncs (lo hi : Int → Int → Int) : List Int → List Int → List Int
  | a :: a' :: as, b :: b' :: bs => lo a b :: hi a' b' :: boxFuncs lo hi as bs
  | _, _ => []

/-- `Ref3D(coords)` with no flags. -/
def absRef (coords : List Int) : Ref3 := ⟨coords, [0, 0, 0, 0, 0, 0]⟩

/-- xlrd/formula.py:885-904, 957-976: the value of an intersection or a range of operands of the same kind. -/
def boxValue (lo hi : Int → Int → Int) (kind : Int) (va vb : OVal ν) : Except Exc (OVal ν) :=
  match va, vb with
  | .refs [x], .refs [y] =>
    let coords := boxFuncs lo hi x.coords y.coords
    if kind = oRef then .ok (.refs [absRef coords])
    else if x.rel = y.rel then .ok (.refs [⟨coords, x.rel⟩]) else .ok .none
  | .none, _ => .ok .none
  | _, .none => .ok .none
  | .refs _, .refs _ => .error .assertionError
  | _, _ => .error .typeError

/-- xlrd/formula.py:857-906 tIsect.  (Operands of the kinds oREF and oREL have boxes for values, or None.) -/
def doIsect (a b : Opnd ν) : Except Exc (Opnd ν) :=
  match a, b with
  | .opnd ka va, .opnd kb vb =>
    if kb = oErr ∨ ka = oErr then .ok (.opnd oErr .none)
    else if kb = oUnk ∨ ka = oUnk then .ok (.opnd oRef .none)
    else if kb = oRef ∧ ka = oRef then (boxValue max min oRef va vb).map (.opnd oRef)
    else if kb = oRel ∧ ka = oRel then (boxValue max min oRel va vb).map (.opnd oRel)
    else .ok (.opnd oRef .none)
  | _, _ => .error .attributeError

/-- xlrd/formula.py:907-937 tList -/
def doList (a b : Opnd ν) : Except Exc (Opnd ν) :=
  match a, b with
  | .opnd ka va, .opnd kb vb =>
    if kb = oErr ∨ ka = oErr then .ok (.opnd oErr .none)
    else if (kb = oRef ∨ kb = oRel) ∧ (ka = oRef ∨ ka = oRel) then
      let kind : Int := if ka = oRel ∨ kb = oRel then oRel else oRef
      match va, vb with
      | .none, _ => .ok (.opnd kind .none)
      | _, .none => .ok (.opnd kind .none)
      | .refs x, .refs y => if 1 ≤ x.length ∧ y.length = 1 then .ok (.opnd kind (.refs (x ++ y))) else .error .assertionError
      | _, _ => .error .typeError
    else .ok (.opnd oRef .none)
  | _, _ => .error .attributeError

/-- xlrd/formula.py:938-978 tRange: with an error the number oERR itself gets on the stack (`res = oERR`). -/
def doRange (a b : Opnd ν) : Except Exc (Opnd ν) :=
  match a, b with
  | .opnd ka va, .opnd kb vb =>
    if kb = oErr ∨ ka = oErr then .ok .four
    else if kb = oRef ∧ ka = oRef then (boxValue min max oRef va vb).map (.opnd oRef)
    else if kb = oRel ∧ ka = oRel then (boxValue min max oRel va vb).map (.opnd oRel)
    else .ok (.opnd oRef .none)
  | _, _ => .error .attributeError

/-- An operator on the two operands on top of the stack (top first). -/
def onTwo (f : Opnd ν → Opnd ν → Except Exc (Opnd ν)) : List (Opnd ν) → Except Exc (List (Opnd ν))
  | b :: a :: rest => (f a b).map (· :: rest)
  | _ => .error .assertionError

def onOne (f : Opnd ν → Except Exc (Opnd ν)) : List (Opnd ν) → Except Exc (List (Opnd ν))
  | a :: rest => (f a).map (· :: rest)
  | _ => .error .assertionError

/-! ## Tables -/

/-- xlrd/formula.py:103 `sztab3`, BIFF 5 and 7 -/
def sztab3 : List Int :=
  [-2, 5, 5, 1, 1, 1, 1, 1, 1, 1, 1, 1, 1, 1, 1, 1, 1, 1, 1, 1, 1, 1, 1, -1, -2, -1, -2, -2, 2, 2, 3, 9, 9, 3, 4, 15, 4, 7, 7, 7, 7,
   3, 4, 7, 4, 7, 3, 3, -2, -2, -2, -2, -2, -2, -2, -2, -2, 25, 18, 21, 18, 21, -2, -2]

/-- xlrd/formula.py:104 `sztab4`, BIFF 8 -/
def sztab4 : List Int :=
  [-2, 5, 5, 1, 1, 1, 1, 1, 1, 1, 1, 1, 1, 1, 1, 1, 1, 1, 1, 1, 1, 1, 1, -1, -1, -1, -2, -2, 2, 2, 3, 9, 9, 3, 4, 5, 5, 9, 7, 7, 7,
   3, 5, 9, 5, 9, 3, 3, -2, -2, -2, -2, -2, -2, -2, -2, -2, 7, 7, 11, 7, 11, -2, -2]

/-- xlrd/formula.py:121-384 `func_defs`: number, least and largest number of arguments. -/
def funcDefs : List (Nat × Nat × Nat) :=
  [(0, 0, 30), (1, 2, 3), (2, 1, 1), (3, 1, 1), (4, 0, 30), (5, 1, 30), (6, 1, 30), (7, 1, 30), (8, 0, 1), (9, 0, 1),
   (10, 0, 0), (11, 2, 30), (12, 1, 30), (13, 1, 2), (14, 2, 3), (15, 1, 1), (16, 1, 1), (17, 1, 1), (18, 1, 1),
   (19, 0, 0), (20, 1, 1), (21, 1, 1), (22, 1, 1), (23, 1, 1), (24, 1, 1), (25, 1, 1), (26, 1, 1), (27, 2, 2),
   (28, 2, 3), (29, 2, 4), (30, 2, 2), (31, 3, 3), (32, 1, 1), (33, 1, 1), (34, 0, 0), (35, 0, 0), (36, 1, 30),
   (37, 1, 30), (38, 1, 1), (39, 2, 2), (40, 3, 3), (41, 3, 3), (42, 3, 3), (43, 3, 3), (44, 3, 3), (45, 3, 3),
   (46, 1, 30), (47, 3, 3), (48, 2, 2), (49, 1, 4), (50, 1, 4), (51, 1, 4), (52, 1, 4), (56, 3, 5), (57, 3, 5),
   (58, 3, 5), (59, 3, 5), (60, 3, 6), (61, 3, 3), (62, 1, 2), (63, 0, 0), (64, 2, 3), (65, 3, 3), (66, 3, 3),
   (67, 1, 1), (68, 1, 1), (69, 1, 1), (70, 1, 2), (71, 1, 1), (72, 1, 1), (73, 1, 1), (74, 0, 0), (75, 1, 1),
   (76, 1, 1), (77, 1, 1), (78, 3, 5), (82, 2, 3), (83, 1, 1), (86, 1, 1), (92, 4, 4), (97, 2, 2), (98, 1, 1),
   (99, 1, 1), (100, 2, 30), (101, 3, 4), (102, 3, 4), (105, 1, 1), (109, 1, 2), (111, 1, 1), (112, 1, 1),
   (113, 1, 1), (114, 1, 1), (115, 1, 2), (116, 1, 2), (117, 2, 2), (118, 1, 1), (119, 4, 4), (120, 3, 4),
   (121, 1, 1), (124, 2, 3), (125, 1, 2), (126, 1, 1), (127, 1, 1), (128, 1, 1), (129, 1, 1), (130, 1, 1),
   (131, 1, 1), (140, 1, 1), (141, 1, 1), (142, 3, 3), (143, 4, 4), (144, 4, 5), (148, 1, 2), (162, 1, 1),
   (163, 1, 1), (164, 1, 1), (165, 2, 2), (167, 4, 6), (168, 4, 6), (169, 0, 30), (183, 0, 30), (184, 1, 1),
   (189, 3, 3), (190, 1, 1), (193, 1, 30), (194, 1, 30), (195, 3, 3), (196, 3, 3), (197, 1, 2), (198, 1, 1),
   (199, 3, 3), (204, 1, 2), (205, 2, 3), (206, 2, 3), (207, 4, 4), (208, 1, 2), (209, 1, 2), (210, 3, 3),
   (211, 1, 1), (212, 2, 2), (213, 2, 2), (214, 1, 1), (215, 1, 1), (216, 2, 3), (219, 2, 5), (220, 2, 3),
   (221, 0, 0), (222, 5, 7), (227, 1, 30), (228, 1, 30), (229, 1, 1), (230, 1, 1), (231, 1, 1), (232, 1, 1),
   (233, 1, 1), (234, 1, 1), (235, 3, 3), (244, 1, 1), (247, 4, 5), (252, 2, 2), (261, 1, 1), (269, 1, 30),
   (270, 3, 5), (271, 1, 1), (272, 3, 5), (273, 4, 4), (274, 2, 2), (275, 2, 2), (276, 2, 2), (277, 3, 3),
   (278, 3, 3), (279, 1, 1), (280, 3, 3), (281, 3, 3), (282, 3, 3), (283, 1, 1), (284, 1, 1), (285, 2, 2),
   (286, 4, 4), (287, 3, 3), (288, 2, 2), (289, 4, 4), (290, 3, 3), (291, 3, 3), (292, 3, 3), (293, 4, 4),
   (294, 1, 1), (295, 3, 3), (296, 1, 1), (297, 3, 3), (298, 1, 1), (299, 2, 2), (300, 3, 3), (301, 3, 3),
   (302, 4, 4), (303, 2, 2), (304, 2, 2), (305, 2, 2), (306, 2, 2), (307, 2, 2), (308, 2, 2), (309, 3, 3),
   (310, 2, 2), (311, 2, 2), (312, 2, 2), (313, 2, 2), (314, 2, 2), (315, 2, 2), (316, 4, 4), (317, 3, 4),
   (318, 1, 30), (319, 1, 30), (320, 1, 30), (321, 0, 30), (322, 1, 30), (323, 1, 30), (324, 2, 3), (325, 2, 2),
   (326, 2, 2), (327, 2, 2), (328, 2, 2), (329, 2, 3), (330, 1, 30), (331, 2, 2), (332, 2, 2), (336, 0, 30),
   (337, 2, 2), (342, 1, 1), (343, 1, 1), (344, 2, 30), (345, 2, 3), (346, 2, 2), (347, 1, 1), (350, 4, 4),
   (351, 3, 3), (352, 1, 1), (353, 2, 2), (354, 1, 2), (358, 2, 2), (359, 1, 2), (360, 1, 1), (361, 1, 30),
   (362, 1, 30), (363, 1, 30), (364, 1, 30), (365, 1, 30), (366, 1, 30), (367, 1, 30), (368, 1, 1), (369, 1, 1),
   (370, 1, 1), (371, 1, 1), (372, 1, 1), (373, 1, 1), (374, 1, 1), (375, 1, 1), (376, 1, 1), (377, 1, 1),
   (378, 1, 1), (379, 2, 5)]

/-- biffh.py:92-100 `error_text_from_code` -/
def errorTexts : List Nat := [0x00, 0x07, 0x0F, 0x17, 0x1D, 0x24, 0x2A]

/-! ## What is kept of the records -/

/-- `_supbook_types` -/
inductive SupType
  | internal
  | addin
  | ddeole
  | external
  deriving DecidableEq

/-- A name: the flags `macro` and `binary`, `extn_sheet_num`, `excel_sheet_index`, `raw_formula`,
`basic_formula_len`. -/
structure NameObj where
  macroFlag : Bool
  binary : Bool
  ext : Nat
  sheet : Nat
  raw : Bytes
  len : Nat

/-- `_extnsht_count`, `_extnsht_name_from_num`, `_externsheet_type_b57`, `_externsheet_info`, `_supbook_types`,
`_supbook_locals_inx`, `_supbook_addins_inx`, `name_obj_list`. -/
structure NameSt where
  count : Nat
  sheetNames : List (Nat × List Char)
  types57 : List Nat
  info : List (Nat × Nat × Nat)
  sups : List SupType
  locals : Option Nat
  addins : Option Nat
  names : List NameObj

/-- xlrd/book.py:596-608 -/
def NameSt.init : NameSt := ⟨0, [], [], [], [], none, none, []⟩

/-- xlrd/book.py:1139-1155: the names of the sheets of an external book; a struct.error ends the loop.  (A
position below zero, as a negative size of phonetic data makes it, is not modelled: an exception
stands for it.) -/
def supSheets (data : Bytes) : Nat → Int → Except Exc Unit
  | 0, _ => .ok ()
  | n + 1, pos =>
    if pos < 0 then .error .generic
    else match unpackUnicodeUpd data pos.toNat 2 none with
      | .error .structError => .ok ()
      | .error e => .error e
      | .ok (_, pos) => supSheets data n pos

/-- xlrd/book.py:1111-1156 `handle_supbook` -/
def handleSupbook (s : NameSt) (data : Bytes) : Except Exc NameSt :=
  match unpackNat 2 (data.take 2) with
  | .error e => .error e
  | .ok n =>
    if pySlice data 2 4 = [1, 4] then .ok { s with sups := s.sups ++ [.internal], locals := some s.sups.length }
    else if data.take 4 = [1, 0, 1, 0x3A] then .ok { s with sups := s.sups ++ [.addin], addins := some s.sups.length }
    else match unpackUnicodeUpd data 2 2 none with
      | .error e => .error e
      | .ok (_, pos) =>
        if n = 0 then .ok { s with sups := s.sups ++ [.ddeole] }
        else (supSheets data n pos).map fun _ => { s with sups := s.sups ++ [.external] }

/-- xlrd/book.py:882-894 `handle_externname` -/
def handleExternname (bv : Nat) (s : NameSt) (data : Bytes) : Except Exc NameSt :=
  if bv < 80 then .ok s
  else if (data.take 6).length = 6 then
    match unpackUnicodeUpd data 6 1 none with
    | .error e => .error e
    | .ok _ => if s.sups = [] then .error .indexError else .ok s
  else .error .structError

/-- xlrd/book.py:902-915: the CONTINUE records with the rest of an EXTERNSHEET record, of which `need` bytes are
missing: their data. -/
def externConts : Nat → List Rec → Except Exc (List Bytes)
  | need, [] => if need = 0 then .ok [] else .error .structError
  | need, r :: rest =>
    if need = 0 then .ok []
    else if r.code = xlContinue then (externConts (need - r.data.length) rest).map (r.data :: ·)
    else .error .xlrdError

/-- xlrd/book.py:916-920: the references -/
def externInfo (data : Bytes) : Nat → Nat → List (Nat × Nat × Nat)
  | 0, _ => []
  | n + 1, pos => (field2 data pos, field2 data (pos + 2), field2 data (pos + 4)) :: externInfo data n (pos + 6)

/-- xlrd/book.py:896-944 `handle_externsheet` after `derive_encoding`: and how many records it takes. -/
def handleExternsheet (bv : Nat) (text : Bytes → Except Exc (List Char)) (s : NameSt) (data : Bytes) (after : List Rec) :
    Except Exc (NameSt × Nat) :=
  let s := { s with count := s.count + 1 }
  if 80 ≤ bv then
    match unpackNat 2 (data.take 2) with
    | .error e => .error e
    | .ok n =>
      match externConts (n * 6 + 2 - data.length) after with
      | .error e => .error e
      | .ok conts => .ok ({ s with info := s.info ++ externInfo (data ++ conts.flatten) n 2 }, conts.length)
  else match data.take 2 with
    | [nc, ty] =>
      let t := if 1 ≤ ty.toNat ∧ ty.toNat ≤ 4 then ty.toNat else 0
      if ty = 3 then
        match text (pySlice data 2 (nc.toNat + 2)) with
        | .error e => .error e
        | .ok name => .ok ({ s with sheetNames := dset s.sheetNames s.count name, types57 := s.types57 ++ [t] }, 0)
      else .ok ({ s with types57 := s.types57 ++ [t] }, 0)
    | _ => .error .structError

/-- xlrd/book.py:970-1023 `handle_name` after `derive_encoding` -/
def handleName (bv : Nat) (text : Bytes → Except Exc (List Char)) (s : NameSt) (data : Bytes) : Except Exc NameSt :=
  if (data.take 14).length = 14 then
    let flags := field2 data 0
    let nameLen := leNat (pySlice data 3 4)
    let pos : Except Exc Int :=
      if bv < 80 then (unpackStringUpd text data 14 1 (some nameLen)).map fun p => (p.2 : Int)
      else (unpackUnicodeUpd data 14 2 (some nameLen)).map fun p => p.2
    match pos with
    | .error e => .error e
    | .ok pos => .ok { s with names := s.names ++ [{
        macroFlag := flags / 8 % 2 = 1
        binary := flags / 0x1000 % 2 = 1
        ext := field2 data 6
        sheet := field2 data 8
        raw := pySliceI data pos data.length
        len := field2 data 4 }] }
  else .error .structError

/-- xlrd/book.py:1251-1266: EXTERNNAME, EXTERNSHEET, SUPBOOK and NAME records, with `text` for the encoding. -/
def handleNames (bv : Nat) (text : Bytes → Except Exc (List Char)) (s : NameSt) (r : Rec) (after : List Rec) : Except Exc (NameSt × Nat) :=
  if r.code = 0x23 then (handleExternname bv s r.data).map fun s => (s, 0)
  else if r.code = 0x17 then handleExternsheet bv text s r.data after
  else if r.code = 0x1AE then (handleSupbook s r.data).map fun s => (s, 0)
  else (handleName bv text s r.data).map fun s => (s, 0)

/-! ## Formulas -/

/-- What formulas are evaluated with: the version, the text for bytes in the encoding, the state after all the
records, `_all_sheets_map`, the number of work sheets, and the scopes of the names. -/
structure FmlaBook (ν : Type) where
  v8 : Bool
  text : Bytes → Except Exc (List Char)
  N : NumEnv ν
  st : NameSt
  map : List Int
  nsheets : Nat
  scopes : List Int

/-- What is kept of evaluated names: `stack` (top first) and `any_err`; None if not `evaluated`. -/
abbrev Evals (ν : Type) := List (Option (List (Opnd ν) × Bool))

/-- `stack`, `any_err`, and the names evaluated so far. -/
structure FmlaSt (ν : Type) where
  stack : List (Opnd ν)
  anyErr : Bool
  evals : Evals ν

/-- xlrd/formula.py:408-441: the coordinates and flags of a cell, with `reldelta` 1. -/
def adjustCell (v8 : Bool) (rowval colval : Nat) : Int × Int × Nat × Nat :=
  if v8 then
    let rowRel := colval / 2 ^ 15 % 2
    let colRel := colval / 2 ^ 14 % 2
    let colx : Nat := colval % 256
    (if rowRel = 1 ∧ 32768 ≤ rowval then (rowval : Int) - 65536 else rowval,
      if colRel = 1 ∧ 128 ≤ colx then (colx : Int) - 256 else colx, rowRel, colRel)
  else
    let rowRel := rowval / 2 ^ 15 % 2
    let colRel := rowval / 2 ^ 14 % 2
    let rowx : Nat := rowval % 2 ^ 14
    (if rowRel = 1 ∧ 8192 ≤ rowx then (rowx : Int) - 16384 else rowx,
      if colRel = 1 ∧ 128 ≤ colval then (colval : Int) - 256 else colval, rowRel, colRel)

/-- xlrd/formula.py:443-452 `get_cell_addr` -/
def cellAddr (v8 : Bool) (data : Bytes) (pos : Nat) : Except Exc (Int × Int × Nat × Nat) :=
  let b := pySlice data pos (pos + (if v8 then 4 else 3))
  if b.length = (if v8 then 4 else 3) then .ok (adjustCell v8 (leNat (b.take 2)) (leNat (b.drop 2))) else .error .structError

/-- xlrd/formula.py:454-470 `get_cell_range_addr` -/
def cellRangeAddr (v8 : Bool) (data : Bytes) (pos : Nat) : Except Exc ((Int × Int × Nat × Nat) × (Int × Int × Nat × Nat)) :=
  let w := if v8 then 2 else 1
  let b := pySlice data pos (pos + 4 + 2 * w)
  if b.length = 4 + 2 * w then
    .ok (adjustCell v8 (leNat (b.take 2)) (leNat (pySlice b 4 (4 + w))), adjustCell v8 (leNat (pySlice b 2 4)) (leNat (b.drop (4 + w))))
  else .error .structError

/-- xlrd/formula.py:497-507, 517-527: sheets of the book, by their numbers among all sheets. -/
def localRange (map : List Int) (first last bad : Int) : Int × Int :=
  if ¬ (0 ≤ first ∧ first ≤ last ∧ last < map.length) then (bad, bad)
  else
    let x1 := map.getD first.toNat (-1)
    let x2 := map.getD last.toNat (-1)
    if ¬ (0 ≤ x1 ∧ x1 ≤ x2) then (-3, -3) else (x1, x2)

/-- xlrd/formula.py:472-507 `get_externsheet_local_range` -/
def externRange (B : FmlaBook ν) (refx : Nat) : Except Exc (Int × Int) :=
  match B.st.info[refx]? with
  | none => .ok (-101, -101)
  | some (rec, first, last) =>
    if B.st.addins = some rec then (if first = 0xFFFE ∧ last = 0xFFFE then .ok (-5, -5) else .error .assertionError)
    else if B.st.locals ≠ some rec then .ok (-4, -4)
    else if first = 0xFFFE ∧ last = 0xFFFE then .ok (-1, -1)
    else if first = 0xFFFF ∧ last = 0xFFFF then .ok (-2, -2)
    else .ok (localRange B.map first last (-102))

/-- A signed little endian integer of two bytes. -/
def leInt2 (b : Bytes) : Int := if leNat b < 32768 then leNat b else (leNat b : Int) - 65536

/-- xlrd/formula.py:509-527 `get_externsheet_local_range_b57` -/
def externRange57 (B : FmlaBook ν) (raw first last : Int) : Int × Int :=
  if 0 < raw then (-4, -4)
  else if first = -1 ∧ last = -1 then (-2, -2)
  else localRange B.map first last (-103)

/-- xlrd/formula.py:1202-1212, 1234-1246: the sheets of a 3D reference, from the bytes after the token. -/
def refSheets (B : FmlaBook ν) (data : Bytes) (pos : Nat) : Except Exc (Int × Int) :=
  if B.v8 then
    match unpackNat 2 (pySlice data (pos + 1) (pos + 3)) with
    | .error e => .error e
    | .ok refx => externRange B refx
  else
    let b := pySlice data (pos + 1) (pos + 15)
    if b.length = 14 then .ok (externRange57 B (leInt2 (b.take 2)) (leInt2 (pySlice b 10 12)) (leInt2 (b.drop 12)))
    else .error .structError

/-- The operand of a 3D reference.  (The texts made of it are of sheets that are there.) -/
def refItem (optype : Nat) (sh : Int × Int) (c1 c2 : Int × Int × Nat × Nat) : Opnd ν :=
  let coords := [sh.1, sh.2 + 1, c1.1, c2.1 + 1, c1.2.1, c2.2.1 + 1]
  let isRel := c1.2.2.1 ≠ 0 ∨ c1.2.2.2 ≠ 0 ∨ c2.2.2.1 ≠ 0 ∨ c2.2.2.2 ≠ 0
  let ref : Ref3 := if isRel then ⟨coords, [0, 0, c1.2.2.1, c2.2.2.1, c1.2.2.2, c2.2.2.2]⟩ else absRef coords
  .opnd (if isRel then oRel else oRef) (if optype = 1 then .refs [ref] else .none)

/-- The operand of a reference to cells of the current sheet. -/
def relItem (optype : Nat) (c1 c2 : Int × Int × Nat × Nat) : Opnd ν :=
  if optype = 1 then
    .opnd oRel (.refs [⟨[0, 1, c1.1, c2.1 + 1, c1.2.1, c2.2.1 + 1], [1, 1, c1.2.2.1, c2.2.2.1, c1.2.2.2, c2.2.2.2]⟩])
  else unkItem

/-- xlrd/formula.py:1045-1066 tFunc, given the number of the function -/
def doFunc (funcx : Nat) (stack : List (Opnd ν)) : Except Exc (List (Opnd ν)) :=
  match dget funcDefs funcx with
  | none => .ok (unkItem :: stack)
  | some (nargs, _) =>
    if nargs ≤ stack.length then
      if (stack.take nargs).all Opnd.isOpnd then .ok (unkItem :: stack.drop nargs)
      else .error .attributeError
    else .error .assertionError

/-- xlrd/formula.py:1106-1109, 1117-1120: the kind and value of a chosen argument -/
def chosenItem : Opnd ν → (zero : OVal ν) → Except Exc (Opnd ν)
  | .opnd k v, zero => if k = oMsng then .ok (.opnd oNum zero) else .ok (.opnd k v)
  | .four, _ => .error .attributeError

/-- xlrd/formula.py:1091-1111 IF, for the whole stack (the first argument first) -/
def doIf (N : NumEnv ν) (nargs : Nat) (stack : List (Opnd ν)) : Except Exc (Opnd ν) :=
  match pyIndex stack (-nargs : Int) with
  | .error e => .error e
  | .ok .four => .error .attributeError
  | .ok (.opnd k v) =>
    if ¬ (k = oNum ∨ k = oBool) then .ok unkItem
    else match v with
      | .num x =>
        match N.small x with
        | none => .ok unkItem
        | some b =>
          if nargs = 2 ∧ b = false then .ok (.opnd oBool (.num (N.nat 0)))
          else match N.int x with
            | .error e => .error e
            | .ok i =>
              match pyIndex stack (-nargs + 2 - i) with
              | .error e => .error e
              | .ok c => chosenItem c (.num (N.nat 0))
      | _ => .ok unkItem

/-- xlrd/formula.py:1112-1120 CHOOSE: None (a number that is not known) cannot be compared. -/
def doChoose (N : NumEnv ν) (nargs : Nat) (stack : List (Opnd ν)) : Except Exc (Opnd ν) :=
  match pyIndex stack (-nargs : Int) with
  | .error e => .error e
  | .ok .four => .error .attributeError
  | .ok (.opnd k v) =>
    if k ≠ oNum then .ok unkItem
    else match v with
      | .num x =>
        match N.within x nargs with
        | .error e => .error e
        | .ok false => .ok unkItem
        | .ok true =>
          match N.int x with
          | .error e => .error e
          | .ok i =>
            match pyIndex stack (-nargs + i) with
            | .error e => .error e
            | .ok c => chosenItem c (.num (N.nat 0))
      | _ => .error .typeError

/-- xlrd/formula.py:1067-1122 tFuncVar, given the function and the number of arguments; without arguments
`stack[-nargs:]` is the whole stack. -/
def doFuncVar (N : NumEnv ν) (funcx nargs : Nat) (stack : List (Opnd ν)) : Except Exc (List (Opnd ν)) :=
  match dget funcDefs funcx with
  | none => .ok (unkItem :: stack)
  | some (lo, hi) =>
    if lo ≤ nargs ∧ nargs ≤ hi then
      if nargs ≤ stack.length then
        let k := if nargs = 0 then stack.length else nargs
        if (stack.take k).all Opnd.isOpnd then
          let res : Except Exc (Opnd ν) :=
            if funcx = 1 then doIf N nargs stack.reverse
            else if funcx = 100 then doChoose N nargs stack.reverse
            else .ok unkItem
          res.map (· :: stack.drop k)
        else .error .attributeError
      else .error .assertionError
    else .error .assertionError

/-- xlrd/formula.py:1128-1130, 1307-1309: the name number `tgt`, the `j`th, is evaluated by `deep`, unless it is already. -/
def evaluated (deep : Nat → Int → Evals ν → Except Exc (Evals ν)) (j : Nat) (tgt : Int) (evals : Evals ν) : Except Exc (Evals ν) :=
  match evals.getD j none with
  | some _ => .ok evals
  | none => deep j tgt evals

/-- xlrd/formula.py:1131-1143, 1310-1322: the operand a name stands for. -/
def nameItem (obj : NameObj) (stack : List (Opnd ν)) (err : Bool) : Except Exc (Opnd ν) :=
  if obj.macroFlag ∨ obj.binary ∨ err then .ok unkItem
  else match stack with
    | [.four] => .error .attributeError
    | [x] => .ok x
    | _ => .error .assertionError

/-- xlrd/formula.py:1123-1152, 1301-1330: the name number `tgt`: it is evaluated by `deep`, unless it is already. -/
def useName (B : FmlaBook ν) (deep : Nat → Int → Evals ν → Except Exc (Evals ν)) (tgt : Int) (s : FmlaSt ν) :
    Except Exc (FmlaSt ν) :=
  let j := (if tgt < 0 then tgt + B.st.names.length else tgt).toNat
  match pyIndex B.st.names tgt with
  | .error e => .error e
  | .ok obj =>
    match evaluated deep j tgt s.evals with
    | .error e => .error e
    | .ok evals =>
      let r := (evals.getD j none).getD ([], false)
      match nameItem obj r.1 r.2 with
      | .error e => .error e
      | .ok x =>
        let scope := B.scopes.getD j (-1)
        if scope ≠ -1 ∧ ¬ (-(B.nsheets : Int) ≤ scope ∧ scope < B.nsheets) then .error .indexError
        else .ok ⟨x :: s.stack, s.anyErr || (obj.macroFlag || obj.binary || r.2), evals⟩

/-- xlrd/formula.py:1268-1302: whether the name of a tNameX token is one of the book, and its number; and
whether it is the name itself. -/
def nameXTarget (B : FmlaBook ν) (namex : Int) (data : Bytes) (pos : Nat) : Except Exc (Bool × Int × Bool) :=
  if B.v8 then
    if (pySlice data (pos + 1) (pos + 5)).length = 4 then
      let tgt : Int := (field2 data (pos + 3) : Int) - 1
      if tgt = namex then .ok (false, tgt, true)
      else match externRange B (field2 data (pos + 1)) with
        | .error e => .error e
        | .ok (x, _) => .ok (decide (-1 ≤ x), tgt, false)
    else .error .structError
  else
    if (pySlice data (pos + 1) (pos + 13)).length = 12 then
      let orig := leInt2 (pySlice data (pos + 1) (pos + 3))
      let tgt : Int := (field2 data (pos + 11) : Int) - 1
      if tgt = namex then .ok (false, tgt, true)
      else if 0 ≤ orig then .ok (false, tgt, false)
      else match B.st.types57[(-orig - 1).toNat]? with
        | none => .error .indexError
        | some t => .ok (decide (t = 4), tgt, false)
    else .error .structError

/-- xlrd/formula.py:852-1042: a token without a class, and its size.  FormulaError is `.generic`. -/
def plainToken (B : FmlaBook ν) (data : Bytes) (pos opcode : Nat) (sz : Int) (stack : List (Opnd ν)) : Except Exc (List (Opnd ν) × Nat) :=
  let sized (x : Except Exc (List (Opnd ν))) : Except Exc (List (Opnd ν) × Nat) :=
    match x with
    | .error e => .error e
    | .ok st => if sz ≤ 0 then .error .generic else .ok (st, sz.toNat)
  if opcode ≤ 2 then .error .generic
  else if opcode ≤ 0xE then sized (onTwo (doBinop B.N opcode) stack)
  else if opcode = 0xF then sized (onTwo doIsect stack)
  else if opcode = 0x10 then sized (onTwo doList stack)
  else if opcode = 0x11 then sized (onTwo doRange stack)
  else if opcode ≤ 0x14 then sized (onOne (doUnary B.N opcode) stack)
  else if opcode = 0x15 then sized (.ok stack)
  else if opcode = 0x16 then sized (.ok (.opnd oMsng .none :: stack))
  else if opcode = 0x17 then
    match (if B.v8 then unpackUnicodeUpd data (pos + 1) 1 none
      else (unpackStringUpd B.text data (pos + 1) 1 none).map fun p => (p.1, (p.2 : Int))) with
    | .error e => .error e
    | .ok (t, new) => if new - pos ≤ 0 then .error .generic else .ok (.opnd oStrg (.text t) :: stack, (new - pos).toNat)
  else if opcode = 0x18 then .error .generic
  else if opcode = 0x19 then
    match pySlice data (pos + 1) (pos + 4) with
    | [sub, n0, n1] =>
      if sub = 4 then .ok (stack, leNat [n0, n1] * 2 + 6)
      else if sub = 0x10 then
        match stack with
        | [] => .error .assertionError
        | .four :: _ => .error .attributeError
        | _ :: rest => .ok (.opnd oNum .none :: rest, 4)
      else .ok (stack, 4)
    | _ => .error .structError
  else if opcode ≤ 0x1B then .error .generic
  else if opcode = 0x1C then
    match pySlice data (pos + 1) (pos + 2) with
    | [x] => if x.toNat ∈ errorTexts then sized (.ok (.opnd oErr (.num (B.N.nat x.toNat)) :: stack)) else .error .keyError
    | _ => .error .structError
  else if opcode = 0x1D then
    match pySlice data (pos + 1) (pos + 2) with
    | [x] => if x.toNat ≤ 1 then sized (.ok (.opnd oBool (.num (B.N.nat x.toNat)) :: stack)) else .error .indexError
    | _ => .error .structError
  else if opcode = 0x1E then
    match unpackNat 2 (pySlice data (pos + 1) (pos + 3)) with
    | .error e => .error e
    | .ok n => sized (.ok (.opnd oNum (.num (B.N.flo n)) :: stack))
  else
    let b := pySlice data (pos + 1) (pos + 9)
    if b.length = 8 then sized (.ok (.opnd oNum (.num (B.N.double b)) :: stack)) else .error .structError

/-- xlrd/formula.py:1043-1338: a token with a class.  (`sz` is not negative for these.) -/
def classToken (B : FmlaBook ν) (deep : Nat → Int → Evals ν → Except Exc (Evals ν)) (namex : Int) (data : Bytes)
    (pos opcode optype : Nat) (s : FmlaSt ν) : Except Exc (FmlaSt ν) :=
  let onStack (x : Except Exc (List (Opnd ν))) : Except Exc (FmlaSt ν) := x.map fun st => { s with stack := st }
  if opcode = 0 then onStack (.ok (unkItem :: s.stack))
  else if opcode = 1 then
    match unpackNat 2 (pySlice data (pos + 1) (pos + 3)) with
    | .error e => .error e
    | .ok f => onStack (doFunc f s.stack)
  else if opcode = 2 then
    let b := pySlice data (pos + 1) (pos + 4)
    if b.length = 3 then onStack (doFuncVar B.N (leNat (b.drop 1) % 32768) (leNat (b.take 1) % 128) s.stack)
    else .error .structError
  else if opcode = 3 then
    match unpackNat 2 (pySlice data (pos + 1) (pos + 3)) with
    | .error e => .error e
    | .ok n => useName B deep ((n : Int) - 1) s
  else if opcode = 4 then
    match cellAddr B.v8 data (pos + 1) with
    | .error e => .error e
    | .ok c => onStack (.ok (relItem optype c c :: s.stack))
  else if opcode = 5 then
    match cellRangeAddr B.v8 data (pos + 1) with
    | .error e => .error e
    | .ok (c1, c2) => onStack (.ok (relItem optype c1 c2 :: s.stack))
  else if opcode = 6 then .error .generic
  else if opcode = 9 then
    match unpackNat 2 (pySlice data (pos + 1) (pos + 3)) with
    | .error e => .error e
    | .ok _ => .ok s
  else if opcode = 0xC ∨ opcode = 0xD then .error .generic
  else if opcode = 0x1A then
    match cellAddr B.v8 data (pos + (if B.v8 then 3 else 15)) with
    | .error e => .error e
    | .ok c =>
      match refSheets B data pos with
      | .error e => .error e
      | .ok sh => .ok { s with stack := refItem optype sh c c :: s.stack, anyErr := s.anyErr || decide (sh.1 < -1) }
  else if opcode = 0x1B then
    match cellRangeAddr B.v8 data (pos + (if B.v8 then 3 else 15)) with
    | .error e => .error e
    | .ok (c1, c2) =>
      match refSheets B data pos with
      | .error e => .error e
      | .ok sh => .ok { s with stack := refItem optype sh c1 c2 :: s.stack, anyErr := s.anyErr || decide (sh.1 < -1) }
  else if opcode = 0x19 then
    match nameXTarget B namex data pos with
    | .error e => .error e
    | .ok (true, tgt, _) => useName B deep tgt s
    | .ok (false, _, self) => .ok { s with stack := unkItem :: s.stack, anyErr := s.anyErr || self }
  else if opcode ∈ [7, 8, 0xA, 0xB, 0x1C, 0x1D] then .ok { s with stack := .opnd oErr .none :: s.stack, anyErr := true }
  else .ok { s with anyErr := true }

/-- xlrd/formula.py:831-851: one token, and its size. -/
def fmlaToken (B : FmlaBook ν) (deep : Nat → Int → Evals ν → Except Exc (Evals ν)) (namex : Int) (data : Bytes) (pos : Nat)
    (s : FmlaSt ν) : Except Exc (FmlaSt ν × Nat) :=
  match data[pos]? with
  | none => .error .indexError
  | some op =>
    let opcode := op.toNat % 32
    let optype := op.toNat / 32 % 4
    let sz := (if B.v8 then sztab4 else sztab3).getD (if optype = 0 then opcode else opcode + 32) (-2)
    if sz = -2 then .error .generic
    else if optype = 0 then
      (plainToken B data pos opcode sz s.stack).map fun p => ({ s with stack := p.1 }, p.2)
    else (classToken B deep namex data pos opcode optype s).map fun s => (s, sz.toNat)

/-- xlrd/formula.py:828-1340: the loop over the tokens; `n` bounds the rounds, the position grows in each. -/
def fmlaLoop (B : FmlaBook ν) (deep : Nat → Int → Evals ν → Except Exc (Evals ν)) (namex : Int) (data : Bytes) (len : Nat) :
    Nat → Nat → FmlaSt ν → Except Exc (FmlaSt ν)
  | 0, _, s => .ok s
  | n + 1, pos, s =>
    if pos < len then
      match fmlaToken B deep namex data pos s with
      | .error e => .error e
      | .ok (s, sz) => fmlaLoop B deep namex data len n (pos + sz) s
    else .ok s

/-- xlrd/formula.py:752-1357 `evaluate_name_formula` of the name number `j`, which it was called by the number `namex`
for; the first number is 11 less the level.  The names are stored as they are evaluated. -/
def evalName (B : FmlaBook ν) : Nat → Nat → Int → Evals ν → Except Exc (Evals ν)
  | 0, _, _, _ => .error .xlrdError
  | n + 1, j, namex, evals =>
    match B.st.names[j]? with
    | none => .error .indexError
    | some obj =>
      if obj.len = 0 then .ok (evals.set j (some ([unkItem], false)))
      else match fmlaLoop B (evalName B n) namex obj.raw obj.len obj.len 0 ⟨[], false, evals⟩ with
        | .error e => .error e
        | .ok s => .ok (s.evals.set j (some (s.stack, s.anyErr)))

/-! ## At the end -/

/-- `_all_sheets_map` for the sheets with these types, `k` the number of work sheets so far.
xlrd/book.py:789-804 -/
def sheetMap : Nat → List (List Char × Nat) → List Int
  | _, [] => []
  | k, (_, t) :: rest => if t = 0 then (k : Int) :: sheetMap (k + 1) rest else -1 :: sheetMap k rest

/-- xlrd/book.py:1046-1063: the scope of a name -/
def nameScope (v8 : Bool) (s : NameSt) (all : List (List Char × Nat)) (o : NameObj) : Except Exc Int :=
  if v8 then
    if o.sheet = 0 then .ok (-1)
    else match (sheetMap 0 all)[o.sheet - 1]? with
      | some k => .ok (if k = -1 then -2 else k)
      | none => .ok (-3)
  else if o.ext = 0 then .ok (-1)
  else match dget s.sheetNames o.ext with
    | none => .error .keyError
    | some name =>
      let sheets := (all.filter fun p => p.2 = 0).map Prod.fst
      match (sheets.zipIdx.filter fun p => p.1 = name).getLast? with
      | some (_, k) => .ok k
      | none => .ok (-2)

/-- xlrd/book.py:1040-1064: the scopes of the names -/
def nameScopes (v8 : Bool) (s : NameSt) (all : List (List Char × Nat)) : List NameObj → Except Exc (List Int)
  | [] => .ok []
  | o :: rest =>
    match nameScope v8 s all o with
    | .error e => .error e
    | .ok k => (nameScopes v8 s all rest).map (k :: ·)

/-- xlrd/book.py:1065-1070: the names are evaluated, from the number `j` on. -/
def evalNames (B : FmlaBook ν) : Nat → List NameObj → Evals ν → Except Exc (Evals ν)
  | _, [], evals => .ok evals
  | j, o :: rest, evals =>
    if o.macroFlag ∨ o.binary then evalNames B (j + 1) rest evals
    else match evals.getD j none with
      | some _ => evalNames B (j + 1) rest evals
      | none =>
        match evalName B 11 j j evals with
        | .error e => .error e
        | .ok evals => evalNames B (j + 1) rest evals

/-- xlrd/book.py:1030-1104 `names_epilogue`: what it leaves in the names. -/
def namesEvaluated (N : NumEnv ν) (bv : Nat) (text : Bytes → Except Exc (List Char)) (s : NameSt) (all : List (List Char × Nat)) :
    Except Exc (Evals ν) :=
  match nameScopes (80 ≤ bv) s all s.names with
  | .error e => .error e
  | .ok scopes =>
    let B : FmlaBook ν := ⟨80 ≤ bv, text, N, s, sheetMap 0 all, (all.filter fun p => p.2 = 0).length, scopes⟩
    evalNames B 0 s.names (s.names.map fun _ => none)

/-- xlrd/book.py:1030-1104 `names_epilogue`, as far as channelpack is concerned: whether it raises. -/
def namesEpilogue (N : NumEnv ν) (bv : Nat) (text : Bytes → Except Exc (List Char)) (s : NameSt) (all : List (List Char × Nat)) :
    Except Exc Unit := (namesEvaluated N bv text s all).map fun _ => ()

end CP
