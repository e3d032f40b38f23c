"""Run the model on the test files of the project and compare with what its tests expect.

A test of the model, not a proof.  No code of the project is run: the files under
/repo/testdata and /repo/tests/xlrd/data are read as data, the values expected are copied
from /repo/tests/test_readtext.py, test_dbf.py, test_readxl.py, test_pack.py,
test_datautils.py and tests/xlrd/test_xlrd_hoard.py.  The names of the cases are those of the tests.
Usage, after `lake build` in lean: python3 tools/conform.py [directory]
"""
import datetime
import math
import os
import resource
import subprocess
import sys
import xml.etree.ElementTree as ET
import zipfile

root = os.path.dirname(os.path.dirname(os.path.abspath(__file__)))
work = sys.argv[1] if len(sys.argv) > 1 else '/tmp/conform'
os.makedirs(work, exist_ok=True)
TD, XD = '/repo/testdata/', '/repo/tests/xlrd/data/'
EPOCH = datetime.datetime(1899, 12, 30)

DRIVER = r'''
import Verif.Model.FullFile
import Verif.Model.PyFloat
import Verif.Model.Lazy
import Verif.Model.Preparse
import Verif.Model.Dbf
import Verif.Model.XlDate
import Verif.Model.NpAppend
import Verif.Model.PackName
import Verif.Model.IntKeyDict
import Verif.Model.ReadXl
open CP

def codes (s : List Char) : String := "[" ++ ",".intercalate (s.map fun c => toString c.toNat) ++ "]"
def showV : Val → String
  | .int i => s!"('i',{i})"
  | .flt q => s!"('f',{q.num},{q.den})"
  | .nan => "('nan',)"
  | .inf b => if b then "('inf',-1)" else "('inf',1)"
  | .str s => s!"('s',{codes s})"
  | .bytes b => "('b',[" ++ ",".intercalate (b.map fun x => toString x.toNat) ++ "])"
  | .bool b => if b then "('t',)" else "('F',)"
  | .none => "None"
  | .date y m d => s!"('date',{y},{m},{d})"
  | .datetime d ms => s!"('datetime',{d},{ms})"
  | .other n => s!"('o',{n})"
def showL {α : Type} (f : α → String) (l : List α) : String := "[" ++ ",".intercalate (l.map f) ++ "]"
def showE (e : Exc) : String := s!"('ERR','{(repr e).pretty}')"
def showPack (r : Except Exc (List (Int × List Val) × List (Int × Val))) : String :=
  match r with
  | .error e => showE e
  | .ok (d, n) => "({" ++ ",".intercalate (d.map fun p => s!"{p.1}:{showL showV p.2}") ++ "},{" ++
      ",".intercalate (n.map fun p => s!"{p.1}:{showV p.2}") ++ "})"

def asciiDec' (c : Char) : Option Nat := if c.isDigit then some (c.toNat - 48) else none
def isDig (c : Char) : Bool := c.isDigit

def bytesChars (b : ByteArray) : List Char := b.toList.map fun x => Char.ofNat x.toNat

partial def intBody (p : Bool) (acc : Nat) : List Char → Option Nat
  | [] => if p then some acc else none
  | c :: cs => if c.isDigit then intBody true (10 * acc + (c.toNat - 48)) cs
    else if c = '_' && p then intBody false acc cs else none
def myInt (s : List Char) : Except Exc Int :=
  let t := strip s
  let (neg, u) := match t with | '-' :: u => (true, u) | '+' :: u => (false, u) | u => (false, u)
  match intBody false 0 u with
  | none => .error .valueError
  | some n => .ok (if neg then -(n : Int) else n)

def splitOn (c : Char) (s : List Char) : List (List Char) := (String.ofList s |>.splitOn (String.singleton c)).map String.toList
/-- normpath(join('xl/worksheets', target)) -/
def myPath (t : List Char) : List Char :=
  let full := if t.head? = some '/' then t else "xl/worksheets/".toList ++ t
  let abs := full.head? = some '/'
  let parts := (splitOn '/' full).foldl (fun (acc : List (List Char)) p =>
    if p = [] ∨ p = ['.'] then acc
    else if p = ['.', '.'] then (match acc with | [] => if abs then [] else [p] | a :: r => if a = ['.', '.'] then p :: acc else r)
    else p :: acc) []
  let s := ("/".intercalate (parts.reverse.map String.ofList)).toList
  if abs then '/' :: s else if s = [] then ['.'] else s

def xl : XlEnv where
  up := fun c => [c.toUpper]
  low := fun s => s.map Char.toLower
  int := myInt
  float := xlFloat asciiDec'
  path := myPath
  notes := fun _ => none
  names := fun _ => none
  props := fun _ => none

def cp1252 : List Nat := [0x20ac,0x81,0x201a,0x192,0x201e,0x2026,0x2020,0x2021,0x2c6,0x2030,0x160,0x2039,0x152,0x8d,0x17d,0x8f,
  0x90,0x2018,0x2019,0x201c,0x201d,0x2022,0x2013,0x2014,0x2dc,0x2122,0x161,0x203a,0x153,0x9d,0x17e,0x178]
def codec (name : List Char) (b : Bytes) : Except Exc (List Char) :=
  let n := String.ofList name
  if n = "iso-8859-1" then .ok (b.map fun x => Char.ofNat x.toNat)
  else if n = "cp1252" then .ok (b.map fun x => if 128 ≤ x.toNat ∧ x.toNat < 160 then Char.ofNat (cp1252.getD (x.toNat - 128) 63) else Char.ofNat x.toNat)
  else if n = "ascii" then (if b.all (· < 128) then .ok (b.map fun x => Char.ofNat x.toNat) else .error .unicodeError)
  else .error .nameError

def ops : PyOps where
  rnd := f64Val
  pow := fun x y => match x, y with
    | .flt a, .flt b => if b.den = 1 ∧ 0 ≤ b.num then .ok (f64Val (a ^ b.num.toNat)) else .error .generic
    | _, _ => .error .generic
  parse := fun s => match pyFloat asciiDec' s with | some v => .ok v | none => .error .valueError
  str := fun _ => []
  cmpText := fun _ _ _ => false
  odd := fun _ _ _ => .error .typeError

def nsOf (s : String) : XmlNs :=
  if s = "0" then .none else if s = "1" then .ssml else if s = "2" then .odrel else if s = "3" then .pkgrel else if s = "4" then .xml
  else .other s.toNat!
def decodeCodes (s : String) : List Char := ((s.splitOn ",").filter (· ≠ "")).map fun t => Char.ofNat t.toNat!

structure Open where
  tag : QName
  att : List (QName × List Char)
  txt : Option (List Char)
  kids : List Elem
def parseZip (lines : List String) : Zip := Id.run do
  let mut zip : Zip := []
  let mut name : List Char := []
  let mut stack : List Open := []
  let dummy : Elem := .mk (bare []) [] none []
  for l in lines do
    let f := l.splitOn " "
    match f with
    | ["P", n] => name := decodeCodes n
    | ["N"] => zip := (name, dummy) :: zip
    | ["E", ns, n] => stack := ⟨⟨nsOf ns, decodeCodes n⟩, [], none, []⟩ :: stack
    | ["A", ns, n, v] => match stack with
      | o :: r => stack := { o with att := o.att ++ [(⟨nsOf ns, decodeCodes n⟩, decodeCodes v)] } :: r
      | [] => pure ()
    | ["T", v] => match stack with
      | o :: r => stack := { o with txt := some (decodeCodes v) } :: r
      | [] => pure ()
    | ["X"] => match stack with
      | [o] => zip := (name, .mk o.tag o.att o.txt o.kids.reverse) :: zip; stack := []
      | o :: p :: r => stack := { p with kids := .mk o.tag o.att o.txt o.kids.reverse :: p.kids } :: r
      | [] => pure ()
    | _ => pure ()
  return zip.reverse

def env (zip : Zip) : PyEnv where
  xlsx := xl
  rnd := f64
  codec := codec
  num := ops
  zip := fun _ => .ok zip
  depth := 990

def optS (s : String) : Option (List Char) := if s = "-" then none else some s.toList
def fuel : Nat := 10000000

/-- "text", "bytes" or the 256 characters of an encoding -/
def hintOf (s : String) : Hint :=
  if s = "text" then .text else if s = "bytes" then .bytes
  else .codec fun l => .ok (l.map fun c => (decodeCodes s).getD c.toNat ' ')
def codecOf (s : String) : Option Codec :=
  match hintOf s with
  | .text => none
  | .bytes => some ⟨.ok, .ok⟩
  | .codec d => some ⟨d, .ok⟩

def colsOf (s : String) : Option (List Int) := if s = "-" then none else some ((s.splitOn ",").map String.toInt!)
def delimOf (s : String) : Option (List Char) := if s = "-" then none else some (decodeCodes s)

def myFf (s : List Char) : Bool := match s with | [] => false | c :: _ => c.isAlphanum || c == '_' || c.toNat ≥ 192

/-! test_pack.py, test_datautils.py, the small functions of test_readxl.py and the README -/
def str (s : String) : Val := .str s.toList
def npE : NpEnv := numpyEnv fun _ => []
def mk (d : List (Int × List Val)) (n : List (Int × Val)) : Pack := match packOfLists (fun _ => []) d n with
  | .ok p => p
  | .error _ => Pack.init [] []
def letters : List Val := ["A", "B", "C", "D", "E"].map str
def numbers : List Val := [.int 0, .int 1, .int 2, .int 3, .int 4]
def p0 : Pack := mk [(0, letters), (1, numbers)] [(0, str "letter"), (1, str "number")]
def pn : Pack := mk [] []
def p1 : Pack := mk [(0, [1, 2, 3, 4, 5, 4, 3, 2, 1].map .int)] []
def els (r : Except Exc Arr) : Option (List Val) := match r with
  | .ok a => some a.els
  | .error _ => none
def errOf {α : Type} (r : Except Exc α) : Option Exc := match r with
  | .ok _ => none
  | .error e => some e
def S (s : String) : Ch := .str s.toList
def bits (s : String) : List Bool := s.toList.map (· == 'T')
def msk (s : String) : Mask := ⟨true, bits s⟩
def chk (p : Pack) (ch : Ch) (v : List Val) : Bool := els (p.call ch none none) == some v
def nmE : NameEnv where
  ws := pySpace
  nonStr := fun _ => .error .attributeError
  findall := fun _ v => match v with
    | .str s =>
      -- id_rx, pack.py: '[^\W\d_]\w*'
      let t := s.dropWhile fun c => !c.isAlpha
      .ok (if t = [] then [] else [.str (t.takeWhile fun c => c.isAlphanum || c == '_')])
    | _ => .error .typeError
def conv : Conv := fun
  | .arr a => some a
  | _ => none
def oneTwo : Obj := .arr ⟨.i, [.int 1, .int 2]⟩
def heights : List Int := [1, 2, 3, 4, 5, 4, 3, 2, 1, 2, 3, 4, 5, 4, 3, 2, 1]
def ssT (a b c : String) : Bool := startstopBool (bits a) (bits b) == bits c
def appended (p q : Pack) : Pack × Option Exc := p.appendPack npE q
def named (p : Pack) (n : List (Int × Val)) : Pack := { p with names := n }
def isIdent (s : List Char) : Bool := s.all (fun c => c.isAlphanum || c == '_') && !(s.head?.any Char.isDigit)
def recs (p : Pack) (fb : Bool) := p.records isIdent none none fb
def readme : Pack := mk [(0, numbers), (1, letters)] [(0, str "seq"), (1, str "abc")] |>.setMask (msk "TTFTF")

def packTests : List (String × Bool) := [
  ("test_with_lists_as_args", (heights.zip (startstopBool (heights.map (· == 5)) (heights.map (· == 1)))).filterMap
    (fun p => if p.2 then some p.1 else none) == [5, 4, 3, 2, 5, 4, 3, 2]),
  ("test_with_empty_sequences", startstopBool [] [] == []),
  ("test_start_no_stop", ssT "FTFF" "FFFF" "FTTT"),
  ("test_stop_no_start", ssT "FFFF" "FTFF" "FFFF"),
  ("test_start_stop_same", ssT "FFTF" "FFTF" "FFFF"),
  ("test_one_start_one_stop", ssT "FTFF" "FFFT" "FTTF"),
  ("test_start_all_true_one_stop", ssT "TTTT" "FTFF" "TFTT"),
  ("IntKeyDict.test_create_nok", (intKeyUpdate [] .none [.int 1, .int 2]).2 == some .typeError),
  ("IntKeyDict.test_create_nok_pargs", (intKeyUpdate [] .notIterable []).2 == some .typeError),
  ("IntKeyDict.test_create_nok_pargs", (intKeyUpdate [] .many []).2 == some .typeError),
  ("IntKeyDict.test_create_nok_pargs", (intKeyUpdate [] (.list [.seq [.obj 1, .obj 2, .obj 3]]) []).2 == some .valueError),
  ("IntKeyDict.test_create_nok_pairs", (intKeyUpdate [] (.list [.atom, .atom]) []).2 == some .typeError),
  ("IntKeyDict.test_create_nok_pairs", (intKeyUpdate [] (.list [.seq [.int 1, .int 2, .int 3]]) []).2 == some .valueError),
  ("IntKeyDict.test_setitem_nok", (intKeySetitem [] (.obj 1) (.int 1)).2 == some .typeError),
  ("IntKeyDict.test_setdefault_ok", (intKeySetdefault [] (.int 1) (.obj 1)) == ([(.int 1, .obj 1)], none)),
  ("IntKeyDict.test_setdefault_nok", (intKeySetdefault [] (.obj 1) (.int 1)).2 == some .typeError),
  ("NpDict.test_create_nok_key", (npUpdate conv [] .none [oneTwo, oneTwo]).2 == some .typeError),
  ("NpDict.test_create_nok_value", (npUpdate conv [] (.dict [(.int 1, .obj 1)]) []).2 == some .valueError),
  ("NpDict.test_create_nok_pargs", (npUpdate conv [] .notIterable []).2 == some .typeError),
  ("NpDict.test_create_nok_pargs", (npUpdate conv [] .many []).2 == some .typeError),
  ("NpDict.test_create_nok_pargs", (npUpdate conv [] (.list [.seq [.obj 1, .obj 2, .obj 3]]) []).2 == some .valueError),
  ("NpDict.test_create_nok_pairs", (npUpdate conv [] (.list [.atom, .atom]) []).2 == some .typeError),
  ("NpDict.test_create_nok_pairs", (npUpdate conv [] (.list [.seq [.int 1, .int 2, .int 3]]) []).2 == some .valueError),
  ("NpDict.test_update_nok_value_pairs", (npUpdate conv [] (.list [.seq [.int 1, .obj 1]]) []).2 == some .valueError),
  ("NpDict.test_setitem_nok_key_and_nok_value", npSetitem conv [] (.obj 1) (.int 1) == ([], some .valueError)),
  ("NpDict.test_setitem_nok_key_and_ok_value", npSetitem conv [] (.obj 1) oneTwo == ([], some .typeError)),
  ("NpDict.test_setitem_ok_key_and_nok_value", npSetitem conv [] (.int 1) (.int 1) == ([], some .valueError)),
  ("NpDict.test_setdefault_nok_key", (npSetdefault conv [] (.obj 1) oneTwo).2 == some .typeError),
  ("NpDict.test_setdefault_nok_value", (npSetdefault conv [] (.int 1) (.obj 1)).2 == some .valueError),
  ("test_startstop_parts", (p0.startstop (bits "TTTTT") (bits "FFTFF") true).1.parts.length == 2),
  ("test_startstop_values", els ((p1.startstop (bits "FFFFTFFFF") (bits "TFFFFFFFT") true).1.call (.int 0) none (some "filter")) ==
    some ([5, 4, 3, 2].map .int)),
  ("test_startstop_pack_apply_true", els (((p1.setMask (msk "TTTFFFTTT")).startstop (bits "FFFFTFFFF") (bits "TFFFFFFFT") true).1.call
    (.int 0) none (some "filter")) == some ([3, 2].map .int)),
  ("test_startstop_pack_apply_false", els ((p1.startstop (bits "FFFFTFFFF") (bits "TFFFFFFFT") false).1.call (.int 0) none (some "filter")) ==
    some ([1, 2, 3, 4, 5, 4, 3, 2, 1].map .int)),
  ("test_calls_by_int_expected_value", chk p0 (.int 0) letters && chk p0 (.int 1) numbers),
  ("test_calls_by_names_expected_value", chk p0 (S "letter") letters && chk p0 (S "number") numbers),
  ("test_calls_by_fallbacknames_expected_value", chk p0 (S "ch0") letters && chk p0 (S "ch1") numbers),
  ("test_calls_fallbackprefix_mod_expected_value",
    chk { p0 with pre := "column".toList } (S "column0") letters && chk { p0 with pre := "column".toList } (S "column1") numbers),
  ("test_fallback_type_check", (p0.step npE .setPrefixBad).2 == some .typeError),
  ("test_names_key_error", errOf (p0.call (S "nosuch0") none none) == some .keyError),
  ("test_assign_names_expected_value", chk (named p0 [(0, str "codes"), (1, str "grades")]) (S "codes") letters),
  ("test_assign_nof", (p0.setNof (some "nan")).1.nof == some "nan" && (p0.setNof (some "filter")).1.nof == some "filter"),
  ("test_nof_value_checking", (p0.setNof (some "invalid")).2 == some .valueError),
  ("test_mask_value_checking", (p0.step npE .setMaskBad).2 == some .typeError),
  ("test_mask_reset", (p0.setMask (msk "TTFTT")).maskReset.mask == msk "TTTTT"),
  ("test_append_pack", ((appended p0 p0).1.data.map fun d => d.2.els.length) == [10, 10]),
  ("test_append_pack_both_has_fn", (appended (p0.setFn ['1']) (p0.setFn ['2'])).1.fn == ['1'] &&
    (appended (p0.setFn ['1']) (p0.setFn ['2'])).1.filenames == [['1'], ['2']]),
  ("test_append_pack_none_has_fn", (appended p0 p0).1.filenames == [[], []]),
  ("test_append_pack_1_has_fn", (appended (p0.setFn ['1']) p0).1.filenames == [['1'], []]),
  ("test_append_pack_2_has_fn", (appended p0 (p0.setFn ['2'])).1.filenames == [[], ['2']] && (appended p0 (p0.setFn ['2'])).1.fn == []),
  ("test_append_pack_not_aligned", (appended p0 (mk [(1, letters), (2, numbers)] [])).2 == some .valueError),
  ("test_append_pack_other_has_names", (appended pn p0).1.names == p0.names && (appended pn p0).2 == none),
  ("test_append_pack_1_has_names", (appended p0 pn).1.names == p0.names && (appended p0 pn).2 == none),
  ("test_duration", els (((p0.setMask (msk "FFFTT")).duration 3).call (S "number") none (some "filter")) == some [] &&
    els ((p0.setMask (msk "FFFTT")).call (S "number") none (some "filter")) == some [.int 3, .int 4]),
  ("test_duration_mindur_false", els (((p0.setMask (msk "TTFTF")).duration 1 false).call (S "letter") none (some "filter")) == some [str "D"]),
  ("test_records", (match recs p0 false with | .ok r => r.2 == List.zipWith (fun a b => [a, b]) letters numbers | .error _ => false)),
  ("test_records_partial_names", (match recs (named p0 [(0, str "section")]) false with | .ok r => r.2 == letters.map ([·]) | .error _ => false)),
  ("test_records_fallback_true", (match recs p0 true with | .ok r => r.1 == ["ch0".toList, "ch1".toList] && r.2.length == 5 | .error _ => false)),
  ("test_records_empty_pack", (match recs pn false with | .ok r => r.2 == [] | .error _ => false)),
  ("test_records_empty_names_fallback_false", (match recs (named p0 []) false with | .ok r => r.2 == [] | .error _ => false)),
  ("test_records_bad_names_fallback_false", errOf (recs (named p0 [(0, str "0-invalid"), (1, str "1-invalid")]) false) == some .valueError),
  ("test__datakey", errOf (p0.datakey (.int 2)) == some .keyError && errOf (p0.datakey (S "no such name")) == some .keyError &&
    p0.datakey (S "number") matches .ok 1),
  ("test_name", p0.name (.int 1) false matches .ok (.str ['n', 'u', 'm', 'b', 'e', 'r'])),
  ("test_name_fallback", p0.name (.int 0) true matches .ok (.str ['c', 'h', '0'])),
  ("test_name_fallback_wrong_type", errOf (p0.nameFull nmE (.int 0) (.bool false) (.other true)) == some .typeError),
  ("test_name_regex", (named p0 [(0, str "0 section-info (east)")]).nameFull nmE (.int 0) (.str ['x']) (.other false) matches
    .ok (.str ['s', 'e', 'c', 't', 'i', 'o', 'n'])),
  ("test_name_keyerror", errOf (p0.name (.int 2) false) == some .keyError),
  ("test_name_keyerror_string", errOf (p0.name (S "nosuch") false) == some .keyError && errOf (p0.name (S "") false) == some .keyError),
  ("test_name_firstwordonly_true", (named p0 [(0, str " 1-di ch ")]).nameFull nmE (.int 0) (.bool true) (.other false) matches
    .ok (.str ['1', '-', 'd', 'i'])),
  ("test_name_firstwordonly_string_rx_no_match", errOf ((named p0 [(0, str "3")]).nameFull nmE (.int 0) (.str ['x']) (.other false)) ==
    some .valueError),
  ("test_name_firstwordonly_wrong_type", errOf (p0.nameFull nmE (.int 0) (.other true) (.other false)) == some .typeError),
  ("test_parts_single_elements", p0.parts == [0] && (p0.setMask (msk "TFTFF")).parts == [0, 1] &&
    els ((p0.setMask (msk "TFTFF")).call (S "letter") (some 1) none) == some [str "C"] &&
    errOf ((p0.setMask (msk "TFTFF")).call (S "letter") (some 2) none) == some .indexError),
  ("test_parts_range_elements", els ((p0.setMask (msk "TTFTT")).call (S "number") (some 0) none) == some [.int 0, .int 1] &&
    els ((p0.setMask (msk "TTFTT")).call (S "number") (some 1) none) == some [.int 3, .int 4]),
  ("test_parts_empty_pack", pn.parts == []),
  ("test_set_nof_nan", els ({ p0.setMask (msk "TFTFF") with nof := some "nan" }.call (S "number") none none) ==
    some [.flt 0, .nan, .flt 2, .nan, .nan] &&
    els ({ p0.setMask (msk "TFTFF") with nof := some "nan" }.call (S "letter") none none) == some [str "A", .none, str "C", .none, .none]),
  ("test_call_nof_ignore", els ({ p0.setMask (msk "TFTFF") with nof := some "nan" }.call (S "number") none (some "ignore")) == some numbers),
  ("test__slicelist", p0.cached == [(0, 5)] && (p0.setMask (msk "TFTFF")).cached == [(0, 1), (2, 3)]),
  ("test__slicelist_empty_pack", pn.cached == []),
  ("test_keyerror", [(p0, Ch.int 5), (p0, S "nosuch"), (pn, .int 0), (pn, S "letter"), (p0, S "letter0"), (p0, .int (-1))].all fun q =>
    errOf (q.1.call q.2 none none) == some .keyError),
  ("test_mindur_verybig", (p0.setMindur (some 6)).mask == msk "FFFFF"),
  ("test_mindur_0", (p0.setMindur (some 0)).mask == msk "TTTTT"),
  ("test_mindur_3_enough", ((p0.setMask (msk "FFTTT")).setMindur (some 3)).parts == [0]),
  ("test_mindur_3_not_enough", ((p0.setMask (msk "FFFTT")).setMindur (some 3)).parts == []),
  ("test_mindur_and_duration_max", (((p0.setMask (msk "TTTTF")).setMindur (some 3)).duration 3 false).mask == msk "FFFFF"),
  ("test_mindur_and_duration_min", (((p0.setMask (msk "TTFFF")).setMindur (some 2)).duration 3).parts == []),
  ("test_mindur_resetting", (((p0.setMask (msk "TTFFF")).setMindur (some 3)).setMindur (some 2)).mask == msk "FFFFF"),
  ("test_mindur_set_then_mask_set", ((p0.setMindur (some 3)).setMask (msk "TTFFF")).parts == []),
  ("test_mindur_set_then_mask_set2", els (((p0.setMindur (some 2)).setMask (msk "TTFFT")).call (S "letter") none (some "filter")) ==
    some [str "A", str "B"]),
  ("README part", els (readme.call (S "seq") (some 0) none) == some [.int 0, .int 1] && els (readme.call (S "seq") (some 1) none) == some [.int 3]),
  ("README filter", els (readme.call (S "abc") none (some "filter")) == some [str "A", str "B", str "D"]),
  ("README nan", els (readme.call (S "abc") none (some "nan")) == some [str "A", str "B", .none, str "D", .none] &&
    els (readme.call (S "seq") none (some "nan")) == some [.flt 0, .flt 1, .nan, .flt 3, .nan])]

def showD (d : Derived) : String :=
  let dl := match d.delimiter with
    | none => "None"
    | some s => codes s
  let cv := if d.converters.isSome then "1" else "0"
  let ns := ",".intercalate (d.names.map fun p => toString p.1 ++ ":" ++ codes p.2)
  "{'names':{" ++ ns ++ "},'delimiter':" ++ dl ++ ",'skiprows':" ++ toString d.skiprows ++ ",'usecols':" ++ toString d.usecols ++ ",'converters':" ++ cv ++ "}"

def run (args : List String) : IO Unit := do
  match args with
  | ["book", file, zip] =>
    let b := (← IO.FS.readBinFile file).toList
    let z ← if zip = "-" then pure [] else do let s ← IO.FS.readFile zip; pure (parseZip (s.splitOn "\n"))
    match openWorkbook (env z).reader fuel b with
    | none => IO.println "('FUEL',)"
    | some (.error e) => IO.println (showE e)
    | some (.ok (m, sheets)) =>
      IO.println s!"({m},{showL (fun (b : BookSheet) => s!"({codes b.name},{b.grid.nrows},{b.grid.ncols},{showL (showL toString) b.grid.types},{showL (showL showV) b.grid.values},{showL (fun (m : Nat × Nat × Nat × Nat) => s!"{m}") b.grid.merged})") sheets})"
  | ["ragged", file] =>
    let b := (← IO.FS.readBinFile file).toList
    match openXls (env []).books xl.low 990 fuel true b with
    | some (.ok (_, sheets)) => IO.println (showL (fun (b : BookSheet) => showL (fun r => toString r.length) b.grid.types) sheets)
    | some (.error e) => IO.println (showE e)
    | none => IO.println "('FUEL',)"
  | ["pack", file, zip, sheet, header, start, stop, cols] =>
    let b := (← IO.FS.readBinFile file).toList
    let z ← if zip = "-" then pure [] else do let s ← IO.FS.readFile zip; pure (parseZip (s.splitOn "\n"))
    let sh : SheetArg := if sheet.startsWith "#" then .index (sheet.drop 1).toString.toInt! else .name sheet.toList
    let h : Header := if header = "yes" then .yes else if header = "no" then .no else .addr header.toList
    let u : Option Usecols := if cols = "-" then none else some (.str cols.toList)
    match packFile (env z).reader ieeeMul fuel b sh h (optS start) (optS stop) u with
    | none => IO.println "('FUEL',)"
    | some r => IO.println (showPack r)
  | "dbf" :: file :: names =>
    let b := (← IO.FS.readBinFile file).toList
    match dbfpack floatBytes ⟨b, 0⟩ (names.map String.toList) with
    | .error e => IO.println (showE e)
    | .ok (d, n) => IO.println (showPack (.ok (d, n.map fun p => (p.1, Val.str p.2))))
  | ["preparse", file, n] =>
    let s ← IO.FS.readFile file
    let ls := (fileLines s.toList).take n.toNat!
    match preparse isDig myFf ls with
    | .error e => IO.println (showE e)
    | .ok none => IO.println "{}"
    | .ok (some d) => IO.println (s!"{showD d}")
  | ["text", file, hint, delim, skip, has, strip, cols] =>
    let f : TFile ← if hint = "text" then do let s ← IO.FS.readFile file; pure ⟨s.toList, 0⟩ else do let b ← IO.FS.readBinFile file; pure ⟨bytesChars b, 0⟩
    let h := hintOf hint
    let a : TextArgs := { delimiter := delimOf delim, skiprows := skip.toInt!, hasnames := (has == "1"), stripstrings := (strip == "1"), usecols := colsOf cols }
    IO.println (showPack (textpack (h.float asciiDec') h f a))
  | ["lazy", file, hint, delim, skip, has, strip, cols] =>
    let f : TFile ← if hint = "text" then do let s ← IO.FS.readFile file; pure ⟨s.toList, 0⟩ else do let b ← IO.FS.readBinFile file; pure ⟨bytesChars b, 0⟩
    let c := codecOf hint
    let kd : Option (Option (List Char)) := if delim = "-" then none else some (delimOf delim)
    let ks : Option Int := if skip = "-" then none else some skip.toInt!
    let kh : Option Bool := if has = "-" then none else some (has == "1")
    let kt : Option Bool := if strip = "-" then none else some (strip == "1")
    let ku : Option (Option (List Int)) := if cols = "-" then none else some (colsOf cols)
    let kw : LazyKw := { delimiter := kd, skiprows := ks, hasnames := kh, stripstrings := kt, usecols := ku, encoding := hint.contains ',' }
    IO.println (showPack (lazyTextpack ((lazyHint c kw).float asciiDec') isDig myFf c f 25 kw))
  | ["packs"] => IO.println (showL (fun (t : String × Bool) => "('" ++ t.1 ++ "'," ++ (if t.2 then "True)" else "False)")) packTests)
  | ["xldate", n, d, mode] =>
    match xldateAsDatetime ieeeMul (mkRat n.toInt! d.toNat!) mode.toInt! with
    | .error e => IO.println (showE e)
    | .ok (a, b) => IO.println s!"({a},{b})"
  | ["xltuple", n, d, mode] =>
    match xldateAsTuple ieeeMul (mkRat n.toInt! d.toNat!) mode.toInt! with
    | .error e => IO.println (showE e)
    | .ok t => IO.println s!"({t.year},{t.month},{t.day},{t.hour},{t.minute},{t.second})"
  | _ => IO.println "usage"

def main (args : List String) : IO Unit := do
  for f in args do
    let s ← IO.FS.readFile f
    for l in s.splitOn "\n" do
      if l ≠ "" then run (l.splitOn "\t")
'''

NS = {'': 0,
      'http://schemas.openxmlformats.org/spreadsheetml/2006/main': 1,
      'http://schemas.openxmlformats.org/officeDocument/2006/relationships': 2,
      'http://schemas.openxmlformats.org/package/2006/relationships': 3,
      'http://www.w3.org/XML/1998/namespace': 4}


def codes(s):
    return ','.join(str(ord(c)) for c in s)


def qname(tag):
    ns, name = tag[1:].split('}', 1) if tag.startswith('{') else ('', tag)
    return '%d %s' % (NS.setdefault(ns, len(NS)), codes(name))


def xlsx(path):
    """The parts of the zip file, the elements of its xml."""
    out = []

    def walk(e):
        out.append('E ' + qname(e.tag))
        for k, v in e.attrib.items():
            out.append('A %s %s' % (qname(k), codes(v)))
        if e.text is not None:
            out.append('T ' + codes(e.text))
        for child in e:
            walk(child)
        out.append('X')

    with zipfile.ZipFile(path) as z:
        for name in z.namelist():
            out.append('P ' + codes(name))
            try:
                walk(ET.fromstring(z.read(name)))
            except ET.ParseError:
                out.append('N')
    target = os.path.join(work, os.path.basename(path) + '.elems')
    with open(target, 'w') as fo:
        fo.write('\n'.join(out))
    return target


def dec(v):
    """A value printed by the driver."""
    if v is None:
        return None
    k = v[0]
    if k == 'i':
        return v[1]
    if k == 'f':
        return v[1] / v[2]
    if k == 'nan':
        return math.nan
    if k == 'inf':
        return v[1] * math.inf
    if k == 's':
        return ''.join(map(chr, v[1]))
    if k == 'b':
        return bytes(v[1])
    if k == 't':
        return True
    if k == 'F':
        return False
    if k == 'date':
        return datetime.date(*v[1:])
    if k == 'datetime':
        return EPOCH + datetime.timedelta(days=v[1], milliseconds=v[2])
    return v


def text(s):
    return ''.join(map(chr, s))


class Pack:
    def __init__(self, r):
        self.err = r[1] if r and r[0] == 'ERR' else None
        if self.err is None:
            self.data = {k: [dec(v) for v in col] for k, col in r[0].items()}
            self.names = {k: dec(v) for k, v in r[1].items()}

    def __call__(self, key):
        if isinstance(key, str):
            key = [k for k, v in self.names.items() if v == key][0]
        return self.data[key]


class Sheet:
    def __init__(self, r):
        self.name, self.nrows, self.ncols, self.types, self.merged = text(r[0]), r[1], r[2], r[3], [(a, b, c, d) for a, (b, (c, d)) in r[5]]
        self.values = [[dec(v) for v in row] for row in r[4]]

    def cell(self, i, j):
        return self.types[i][j], self.values[i][j]


class Book:
    def __init__(self, r):
        self.err = r[1] if r[0] == 'ERR' else None
        if self.err is None:
            self.mode, self.sheets = r[0], [Sheet(s) for s in r[1]]

    def __getitem__(self, key):
        return self.sheets[key] if isinstance(key, int) else [s for s in self.sheets if s.name == key][0]


cases = []


def case(name, args, shape, *checks):
    cases.append((name, [str(a) for a in args], shape, checks))


def book(name, path, *checks):
    case(name, ['book', path, xlsx(path) if path.endswith('.xlsx') else '-'], Book, *checks)


def pack(name, path, sheet, header, start, stop, *checks):
    case(name, ['pack', path, xlsx(path) if path.endswith('.xlsx') else '-', sheet, header, start, stop, '-'],
         Pack, *checks)


def textfile(name, s):
    """A file of text, as read with universal newlines."""
    target = os.path.join(work, name)
    with open(target, 'wb') as fo:
        fo.write(s if isinstance(s, bytes) else s.encode('utf-8'))
    return target


def plain(fname, encoding='ascii', keep=1000):
    """The lines of a test file; of a long file the first and the last ones (the model is interpreted)."""
    with open(TD + fname, encoding=encoding) as fo:
        lines = fo.readlines()
    if len(lines) > 2 * keep:
        lines = lines[:keep] + lines[-keep:]
    return textfile(fname, ''.join(lines))


CP866 = ','.join(str(ord(bytes([i]).decode('cp866'))) for i in range(256))
LATIN = ','.join(map(str, range(256)))


def rt(op, name, path, hint, delim, skip, has, strip, cols, *checks):
    d = '-' if delim is None else codes(delim)
    case(name, [op, path, hint, d, skip, has, strip, cols], Pack, *checks)


# test_pack.py, test_datautils.py and README.rst: `packTests` in the driver, each
# named by the test it is written after (some with data of our own)
case('packs', ['packs'], lambda r: (len(r), [print('MISMATCH', n) for n, ok in r if not ok]), lambda r: r == (90, []))

# test_xldate.py, test_xldate_to_datetime.py
def xld(s, x, mode):
    a, b = float(x).as_integer_ratio()
    want = datetime.datetime.fromisoformat(s)
    case('xldate_as_datetime %r' % x, ['xldate', a, b, mode], lambda r: r,
         lambda r: EPOCH + datetime.timedelta(days=r[0], milliseconds=r[1]) == want)


for s, x in (('1899-12-31T00:00:00.000', 0), ('1900-02-28T02:11:11.986', 59.09111094906),
             ('1900-03-01T05:46:44.068', 61.24078782403), ('1982-08-25T00:15:20.213', 30188.010650613425),
             ('2065-04-19T00:16:48.290', 60376.011670023145), ('3222-06-11T03:08:08.251', 483014.13065105322),
             ('4379-08-03T06:14:48.580', 905652.26028449077), ('5949-12-30T12:59:54.263', 1479232.5416002662),
             ('9999-12-31T23:59:59.000', 2958465.999988426),
             ('1900-01-01', 1), ('1900-02-28', 59), ('1900-03-01', 61), ('1902-09-27', 1001), ('1999-12-31', 36525),
             ('2000-01-01', 36526), ('4000-12-31', 767376), ('4321-01-01', 884254), ('9999-01-01', 2958101),
             ('9999-12-31', 2958465),
             ('1899-12-31T00:15:20.213', 1.0650613425925924E-2), ('1899-12-31T02:24:37.095', 0.10042934027777778),
             ('1899-12-31T04:56:35.792', 0.2059698148148148), ('1899-12-31T07:31:20.407', 0.31343063657407405),
             ('1899-12-31T09:37:23.945', 0.40097158564814817), ('1899-12-31T12:09:48.602', 0.50681252314814818),
             ('1899-12-31T14:37:57.451', 0.60969271990740748), ('1899-12-31T17:04:02.415', 0.71113906250000003),
             ('1899-12-31T19:14:24.673', 0.80167445601851861), ('1899-12-31T21:39:05.944', 0.90215212962962965),
             ('1899-12-31T23:17:12.632', 0.97028509259259266), ('1899-12-31T23:59:59.999', 0.99999998842592586)):
    xld(s, x, 0)
for s, x in (('1904-01-01', 0), ('1904-01-31', 30), ('1904-08-31', 243), ('1999-02-28', 34757),
             ('1999-12-31', 35063), ('2000-01-01', 35064), ('2400-12-31', 181526), ('4000-01-01', 765549),
             ('9999-01-01', 2956639), ('9999-12-31', 2957003)):
    xld(s, x, 1)
for x, want in ((2741., (1907, 7, 3, 0, 0, 0)), (38406., (2005, 2, 23, 0, 0, 0)), (32266., (1988, 5, 3, 0, 0, 0)),
                (.273611, (0, 0, 0, 6, 34, 0)), (.538889, (0, 0, 0, 12, 56, 0)), (.741123, (0, 0, 0, 17, 47, 13))):
    case('xldate_as_tuple %r' % x, ['xltuple', *x.as_integer_ratio(), 0], lambda r: r, lambda r, w=want: r == w)

# test_dbf.py
sidsnames = ['AREA', 'PERIMETER', 'CNTY_', 'CNTY_ID', 'NAME', 'FIPS', 'FIPSNO', 'CRESS_ID', 'BIR74', 'SID74',
             'NWBIR74', 'BIR79', 'SID79', 'NWBIR79']
case('test_sids', ['dbf', TD + 'sids.dbf'], Pack,
     lambda p: len(p(0)) == 100, lambda p: p.names == dict(enumerate(sidsnames)),
     lambda p: (p('AREA')[0], p('NWBIR79')[0], p('AREA')[-1], p('NWBIR79')[-1]) == (0.114, 19.0, 0.212, 841.0),
     lambda p: p('CNTY_')[-1] == 2241 and isinstance(p('CNTY_')[-1], int))
case('test_sids_names', ['dbf', TD + 'sids.dbf', 'AREA', 'BIR79', 'NWBIR79'], Pack,
     lambda p: p.names == {0: 'AREA', 11: 'BIR79', 13: 'NWBIR79'} and set(p.data) == {0, 11, 13},
     lambda p: (p('AREA')[0], p('NWBIR79')[0], p('AREA')[-1], p('NWBIR79')[-1]) == (0.114, 19.0, 0.212, 841.0),
     lambda p: (p('BIR79')[0], p('BIR79')[-1]) == (1364.0, 2655.0))
dbase = {0: 'CHARACTER', 1: 'NUMERICAL', 2: 'DATE', 3: 'LOGICAL', 4: 'FLOAT', 5: 'MEMO'}
case('test_dbase_8b', ['dbf', TD + 'dbase_8b.dbf'], Pack,
     lambda p: p('LOGICAL') == ['T', 'T'] + 8 * ['?'], lambda p: p.names == dbase,
     lambda p: p('DATE')[0] == datetime.date(1970, 1, 1), lambda p: p('DATE')[-1] is None)
case('test_dbase_8b_names', ['dbf', TD + 'dbase_8b.dbf', 'DATE', 'LOGICAL', 'FLOAT'], Pack,
     lambda p: p.names == {2: 'DATE', 3: 'LOGICAL', 4: 'FLOAT'},
     lambda p: math.isnan(p('FLOAT')[-2]), lambda p: p('FLOAT')[-1] == 0.1)
mesdat2names = ['TWOLET', 'LINENO', 'WINDATE', 'TIME', 'NUM', 'ID', 'RPT', 'SPEED', 'T1', 'P1', 'DEC', 'LOOP',
                'YESNO', 'SPEED1', 'SPEED0', 'SPEED3', 'SPEED4', 'SPEED5', 'SLOW0', 'SLOW1', 'BTIME', 'BDIST',
                'PDEM_1', 'PACT', 'PMN', 'PMAX', 'TURN', 'TURND_1', 'TURNSUM', 'T12', 'T2', 'T3']
case('test_mesdat2', ['dbf', TD + 'mesdat2.dbf'], Pack,
     lambda p: p.names == dict(enumerate(mesdat2names)) and len(p(0)) == 4191,
     lambda p: (p('TWOLET')[0], p('T3')[0], p('TWOLET')[-1], p('T3')[-1]) == ('AV', 135.0, 'AV', 150.0))

# test_readxl.py
D3, D4, RE = TD + 'sampledat3.xls', TD + 'sampledat4.xls', TD + 'reveng1.xlsx'
pack('TestSheetColumns.test_dat3', D3, '#0', 'no', 'a1', 'c6',
     lambda p: (p(0)[0], p(0)[-1], p(1)[0], p(1)[-1]) == ('txtdata', 'D', 'nums', 120.0),
     lambda p: (p(2)[0], p(2)[-1]) == ('floats', 0.8660254037844387))
pack('TestSheetColumns.test_dat4', D4, '#0', 'no', 'a1', 'd6',
     lambda p: (p(0)[0], p(0)[-1], p(1)[0], p(1)[-1]) == ('txtdata', 'D', 'nums', 120.0),
     lambda p: (p(2)[0], p(2)[-1]) == ('floats', 0.8660254037844387),
     lambda p: (p(3)[0], p(3)[-1]) == ('dates', datetime.datetime(2008, 1, 16)))
pack('TestSheetPack.test_dat3', D3, '#0', 'yes', '-', '-',
     lambda p: p.names == {0: 'txtdata', 1: 'nums', 2: 'floats'}, lambda p: len(p.data) == 3,
     lambda p: all(len(c) == 5 for c in p.data.values()), lambda p: max(p('nums')) == 120 and min(p('floats')) == 0)
pack('TestSheetPack.test_dat4', D4, '#0', 'yes', '-', '-',
     lambda p: [p.names[i] for i in range(6)] == ['txtdata', 'nums', 'floats', 'dates', '', ''],
     lambda p: all(len(c) == 8 for c in p.data.values()), lambda p: len(p.data) == 7,
     lambda p: max(x for x in p('nums') if x == x) == 120 and min(x for x in p('floats') if x == x) == 0,
     lambda p: p(4)[-1] == 'letters')
pack('test_reveng', RE, '#0', 'yes', '-', '-',
     lambda p: p.names == {0: 'description', 1: 'entered', 2: 'calculated', 3: ''},
     lambda p: all(len(c) == 55 for c in p.data.values()), lambda p: len(p.data) == 4,
     lambda p: (p('description')[6], p('entered')[6], p('calculated')[6]) == ('one', 1, 1))
pack('test_reveng_boolpart', RE, '#0', 'b1', 'b15', 'c16',
     lambda p: p.names == {1: 'entered', 2: 'calculated'},
     lambda p: p.data == {1: [True, False], 2: [True, False]},
     lambda p: all(isinstance(v, bool) for c in p.data.values() for v in c))
pack('test_reveng_datepart', RE, '#0', 'b1', 'b28', 'c32',
     lambda p: p.names == {1: 'entered', 2: 'calculated'}, lambda p: all(len(c) == 5 for c in p.data.values()),
     lambda p: all(a + datetime.timedelta(days=1) == b for a, b in zip(p('entered'), p('calculated'))))

# test_xlrd_hoard.py
sheetnames = ['PROFILEDEF', 'AXISDEF', 'TRAVERSALCHAINAGE', 'AXISDATUMLEVELS', 'PROFILELEVELS']
book('TestWorkbook, TestCell, TestSheet', XD + 'profiles.xls',
     lambda b: [s.name for s in b.sheets] == sheetnames, lambda b: (b[0].nrows, b[0].ncols) == (15, 13),
     lambda b: b['TRAVERSALCHAINAGE'].cell(0, 0) == (0, ''), lambda b: b[0].cell(0, 0) == (1, 'PROFIL'),
     lambda b: b[0].cell(1, 1) == (2, 100), lambda b: abs(b['PROFILELEVELS'].cell(1, 3)[1] - 265.131) < .0005,
     lambda b: b['PROFILELEVELS'].cell(1, 3)[0] == 2, lambda b: b[0].cell(14, 12)[0] != 0)
book('TestCellContent', XD + 'Formate.xls',
     lambda b: [b['Blätt1'].cell(i, 0) for i in range(3)] == [(1, 'Huber'), (1, 'Äcker'), (1, 'Öcker')],
     lambda b: [b['Blätt1'].cell(i, 1) for i in range(3)] == [(3, 2741.), (3, 38406.), (3, 32266.)],
     lambda b: all(b['Blätt1'].cell(i, 1)[0] == 3 and abs(b['Blätt1'].cell(i, 1)[1] - t) < .5e-6
                   for i, t in ((3, .273611), (4, .538889), (5, .741123))),
     lambda b: all(b['Blätt1'].cell(i, 1)[0] == 2 and abs(b['Blätt1'].cell(i, 1)[1] - t) < .5e-2
                   for i, t in ((6, .974), (7, .124), (8, 1000.30), (9, 1.20))),
     lambda b: b['ÖÄÜ'].cell(2, 2) == (1, 'MERGED CELLS'), lambda b: b['Blätt3'].cell(0, 0) == (2, 100))
MOSCOW = 'МОСКВА Москва'
book('TestFormulas', XD + 'formula_test_sjmachin.xls',
     lambda b: [b[0].values[i][1] for i in range(1, 8)] == [MOSCOW, 0.14285714285714285, 'ABCDEF', '', 1, 7, MOSCOW])
book('TestNameFormulas', XD + 'formula_test_names.xls',
     lambda b: [b[0].values[i][1] for i in range(1, 7)] == [-7., 4., 6., 3., 'b', 'C'])
book('TestMissingRecords', XD + 'biff4_no_format_no_window2.xls', lambda b: b[0].cell(0, 0)[0] == 1)
book('test_names_demo', XD + 'namesdemo.xls', lambda b: b.err is None)
book('issue20.xls', XD + 'issue20.xls', lambda b: b.err is None)
book('picture_in_cell.xls', XD + 'picture_in_cell.xls', lambda b: b.err is None)
book('xf_class.xls', XD + 'xf_class.xls', lambda b: b.err is None, lambda b: b['table2'].cell(3, 2)[1] == 'MERGED')
case('TestSheetRagged', ['ragged', XD + 'ragged.xls'], lambda r: r, lambda r: r[0] == [3, 2, 1, 4, 4])
merged = {'Sheet1': [], 'Sheet2': [(0, 1, 0, 2)], 'Sheet3': [(0, 1, 0, 2), (0, 1, 2, 4), (1, 4, 0, 2), (1, 9, 2, 4)],
          'Sheet4': [(0, 1, 0, 2), (2, 20, 0, 1), (1, 6, 2, 5)]}
book('test_merged_cells_xlsx, TestMergedCells', XD + 'merged_cells.xlsx',
     lambda b: all(b[n].merged == m for n, m in merged.items()),
     lambda b: all(len(row) == s.ncols for s in b.sheets for row in s.types))
for f in ('text_bar.xlsx', 'reveng1.xlsx', 'err_cell_empty.xlsx', 'test_lower_case_cellnames.xlsx',
          'sharedstrings_alt_location.xlsx', 'test_comments_excel.xlsx', 'test_comments_gdocs.xlsx',
          'test_comments_excel_sheet2.xlsx'):
    book(f, XD + f, lambda b: b.err is None)
book('test_for_github_issue_75', XD + 'apachepoi_52348.xlsx',
     lambda b: b[0].cell(0, 0) == (0, ''), lambda b: b[0].cell(1, 2) == (1, 'Category'))
book('test_for_github_issue_96', XD + 'apachepoi_49609.xlsx',
     lambda b: b[0].cell(0, 1) == (1, 'Cycle'), lambda b: b[0].cell(1, 1) == (2, 1))
book('test_for_github_issue_101', XD + 'self_evaluation_report_2014-05-19.xlsx',
     lambda b: b[0].cell(0, 0) == (1, 'one'))
book('test_for_github_issue_150', XD + 'issue150.xlsx',
     lambda b: b[0].cell(0, 1) == (1, 'Cycle'), lambda b: b[0].cell(1, 1) == (2, 1))
book('test_not_corrupted', XD + 'corrupted_error.xls', lambda b: b.err is not None)


# test_readtext.py
def pre(name, path, n, want):
    def shape(r):
        if r:
            r['names'] = {k: text(v) for k, v in r['names'].items()}
            r['delimiter'] = r['delimiter'] and text(r['delimiter'])
        return r
    case('TestPreParse.' + name, ['preparse', path, n], shape, lambda r: r == want)


def derived(names, conv, delim, skip):
    names = dict(enumerate(names)) if isinstance(names, (list, tuple)) else names
    return {'names': names, 'converters': conv, 'delimiter': delim, 'skiprows': skip,
            'usecols': list(range(len(names) or 1))}


dat, mes, samp, one = plain('dat_0000.txt'), plain('MesA1.csv'), plain('sampledat1.txt'), plain('onecolumn')
datnames = ['Time [s]', 'Quantity1 - 12345678;  [qunit]', 'Distance - 12345678;  [mm]',
            'Stresslevel& - 12345678;  [kLevel]']
mesnames = ['Time_100Hz', 'P_cyl', 'F_cyl', 'L_cyl', 'Fc1_cal', 'Fc2_cal']
sampnames = ['RPT', 'B_CACT', 'P_CACT', 'VG_STOP', 'AR_BST', 'PLRT_1', 'TOQ_BUM']
pre('test_onecolumnheader', textfile('onecolumnheader', 'A\n1.2\n1.27\n1.22\n'), 25, derived(['A'], 0, None, 1))
pre('test_dat_0000', dat, 20, derived(datnames, 1, '\t', 11))
pre('test_dat_0000_nodata', dat, 11, {})
pre('test_MesA1', mes, 25, derived(mesnames, 0, ';', 23))
pre('test_MesA1_nodata', mes, 23, {})
pre('test_sampledat1', samp, 2, derived(sampnames, 0, '\t', 1))
pre('test_sampledat1_nodata', samp, 1, {})
pre('test_loremipsum', plain('loremipsum'), 25, {})
pre('test_loremipsum_numsend', plain('loremipsum-numsend'), 25,
    derived(['molestie', 'eu,', 'feugiat', 'in,', 'orci.', 'In', 'hac', 'habitasse', 'platea', 'dictumst.'],
            0, ' ', 21))
pre('test_loremipsum_numsend_delok', plain('loremipsum-numsend-delok'), 25,
    derived(['col%d' % i for i in range(10)], 0, ';', 23))
pre('test_loremipsum_numsmid', plain('loremipsum-numsmid'), 25, {})
pre('test_onecolumn', one, 5, derived({}, 0, None, 0))

comma = '''date: 20-05-01 17:39
room: east lab hall, floor 2, room 8
operator: Goran Operatorsson

time, speed, onoff, distance
0, 23, on, 0.3
1, 21, off, 0.28
'''
ru = '''дата: 20-05-01 17:39
комната: восточный лабораторный зал, этаж 2, комната 8
оператор: Горан Операторссон

время, скорость, onoff, расстояние
0, 23, вкл, 0.3
1, 21, выкл, 0.28
'''
f2 = textfile('f2missing', '0 23 0.3\n1  0.28\n2 21.5 0.27\n')
blanks = textfile('blanks', '0 23 0.3\n\n1 22.1 0.28\n2 21.5 0.27\n\n\n')
lazyok = textfile('lazyok', comma.replace(' onoff,', '').replace(' on,', '').replace(' off,', ''))
com, rub = textfile('comma', comma), textfile('ru', ru.encode('cp866'))
cnames = {0: 'time', 1: 'speed', 2: 'onoff', 3: 'distance'}

T = lambda n, *a: rt('text', 'TestTextPack.' + n, *a)
L = lambda n, *a: rt('lazy', 'TestTextPackLazy.' + n, *a)
T('test_dat_0000', dat, 'text', None, 11, 0, 0, '-', lambda p: (p(0)[-1], p(2)[-1]) == (31.175, 11.835044))
T('test_MesA1', mes, 'text', ';', 23, 0, 0, '-',
  lambda p: (p(0)[-1], p(2)[-1], p(6)[0]) == (176.64, 0.07213194, ''))
T('test_MesA1_usecols', mes, 'text', ';', 23, 0, 0, '0,1,2,3,4,5',
  lambda p: (p(0)[-1], p(2)[-1]) == (176.64, 0.07213194), lambda p: set(p.data) == set(range(6)))
T('test_onecolumn', one, 'text', None, 0, 0, 0, '-', lambda p: p.data == {0: [float(i) for i in range(1, 13)]})
T('test_sampledat1', samp, 'text', None, 1, 0, 0, '-', lambda p: (p(0)[0], p(6)[-1]) == (0, 20.285))
T('test_sampledat1_names', samp, 'text', None, 1, 1, 0, '-',
  lambda p: (p('RPT')[0], p('TOQ_BUM')[-1]) == (0, 20.285), lambda p: p.names == dict(enumerate(sampnames)))
T('test_datstringspace_f2missing', f2, 'text', None, 0, 0, 0, '-',
  lambda p: len(p.data) == 2 and (p(1)[1], p(1)[2]) == (0.28, 21.5))
T('test_datstringspace_f2missing_delimspec', f2, 'text', ' ', 0, 0, 0, '-', lambda p: math.isnan(p(1)[1]))
T('test_datstring_space_blanks', blanks, 'text', None, 0, 0, 0, '-',
  lambda p: len(p.data) == 3 and all(len(p(i)) == 3 for i in range(3)), lambda p: p(1)[1] == 22.1)
T('test_datstring_comma_names', com, 'text', ',', 5, 1, 0, '-', lambda p: p.names == cnames,
  lambda p: p.data == {0: [0, 1], 1: [23, 21], 2: [' on', ' off'], 3: [.3, .28]})
T('test_datstring_comma_stripstrings', com, 'text', ',', 5, 1, 1, '-', lambda p: p.names == cnames,
  lambda p: p('onoff') == ['on', 'off'], lambda p: p('distance') == [.3, .28])
T('test_datstring_comma_asbytes', com, 'bytes', ',', 5, 0, 0, '-',
  lambda p: p(2) == [b' on', b' off'] and p(3) == [.3, .28])
T('test_datstring_comma_asbytes_stripstrings', com, 'bytes', ',', 5, 0, 1, '-',
  lambda p: p(2) == [b'on', b'off'] and p(3) == [.3, .28])
T('test_datstring_comma_asbytes_decoded', com, LATIN, ',', 5, 0, 0, '-',
  lambda p: p(2) == [' on', ' off'] and p(3) == [.3, .28])
T('test_datstring_comma_cp866', rub, 'bytes', ',', 5, 0, 0, '-', lambda p: p(3) == [.3, .28])
T('test_datstring_comma_cp866_decode', rub, CP866, ',', 5, 0, 0, '-',
  lambda p: p(2) == [' вкл', ' выкл'] and p(3) == [.3, .28])
T('test_datstring_comma_cp866_decode_names', rub, CP866, ',', 5, 1, 0, '-',
  lambda p: p('onoff') == [' вкл', ' выкл'] and p('расстояние') == [.3, .28])

L('test_dat_0000', dat, 'text', None, '-', '-', '-', '-',
  lambda p: (p(0)[-1], p(2)[-1], len(p.data)) == (31.175, 11.835044, 4), lambda p: p.names == dict(enumerate(datnames)))
L('test_MesA1', mes, 'text', None, '-', '-', '-', '-',
  lambda p: (p(0)[-1], p(2)[-1], len(p.data)) == (176.64, 0.07213194, 6), lambda p: p.names == dict(enumerate(mesnames)))
L('test_MesA1_usecols', mes, 'text', None, '-', '-', '-', '0,2,5',
  lambda p: (p(0)[-1], p(2)[-1], set(p.data)) == (176.64, 0.07213194, {0, 2, 5}),
  lambda p: p.names == {0: 'Time_100Hz', 2: 'F_cyl', 5: 'Fc2_cal'})
L('test_orgtable', plain('orgtable.txt', 'utf-8'), 'text', '|', '-', 1, 1, '1,2,3,4',
  lambda p: len(p.data) == 4 and p('Kod')[-1] == 2584 and p('Kommun')[0] == 'Upplands Väsby',
  lambda p: p('qty')[-1] == 64 and p('meanprice')[-1] == 1668)
L('test_onecolumn', one, 'text', None, '-', '-', '-', '-', lambda p: len(p.data) == 1 and (p(0)[0], p(0)[-1]) == (1, 12))
L('test_sampledat1', samp, 'text', None, '-', '-', '-', '-',
  lambda p: len(p.data) == 7 and (p(0)[0], p(6)[-1]) == (0, 20.285))
L('test_sampledat1_usecols1col', samp, 'text', None, '-', '-', '-', '3',
  lambda p: len(p.data) == 1 and p('VG_STOP')[0] == 60.0)
L('test_datstringspace_f2missing', f2, 'text', None, '-', '-', '-', '-', lambda p: math.isnan(p(1)[1]))
L('test_datstring_space_blanks', blanks, 'text', None, '-', '-', '-', '-',
  lambda p: len(p.data) == 3 and all(len(p(i)) == 2 for i in range(3)),
  lambda p: p(1)[0] == 22.1 and p.names == {0: '0', 1: '23', 2: '0.3'})
L('test_datstring_comma_fail', com, 'text', None, '-', '-', '-', '-', lambda p: 'valueError' in p.err)
L('test_datstring_comma_provideargs', com, 'text', ',', 5, '-', '-', '-',
  lambda p: p(2) == [' on', ' off'] and p(3) == [.3, .28])
L('test_datstring_comma_stripstrings_provideargs', com, 'text', ',', 5, '-', 1, '-',
  lambda p: p(2) == ['on', 'off'] and p(3) == [.3, .28])
L('test_datstring_comma_asbytes_provideargs', com, 'bytes', ',', 5, '-', '-', '-',
  lambda p: p(2) == [b' on', b' off'] and p(3) == [.3, .28])
L('test_datstring_comma_asbytes_stripstrings', com, 'bytes', ',', 5, '-', 1, '-',
  lambda p: p(2) == [b'on', b'off'] and p(3) == [.3, .28])
L('test_datstring_comma_asbytes_decoded', com, LATIN, ',', 5, '-', '-', '-',
  lambda p: p(2) == [' on', ' off'] and p(3) == [.3, .28])
L('test_datstring_comma_cp866_decode', rub, CP866, ',', 5, '-', '-', '-',
  lambda p: p(2) == [' вкл', ' выкл'] and p(3) == [.3, .28])
L('test_datstring_comma_cp866_decode_names', rub, CP866, ',', 5, 1, '-', '-',
  lambda p: p('onoff') == [' вкл', ' выкл'] and p('расстояние') == [.3, .28])
L('README', lazyok, 'text', None, '-', '-', '-', '-',
  lambda p: p.data == {0: [0, 1], 1: [23, 21], 2: [.3, .28]}, lambda p: p.names == {0: 'time', 1: 'speed', 2: 'distance'})

with open(os.path.join(work, 'Driver.lean'), 'w') as fo:
    fo.write(DRIVER)
with open(os.path.join(work, 'commands'), 'w') as fo:
    for name, args, shape, checks in cases:
        fo.write('\t'.join(args) + '\n')


def stack():
    resource.setrlimit(resource.RLIMIT_STACK, (resource.RLIM_INFINITY, resource.RLIM_INFINITY))


run = subprocess.run(['lake', 'env', 'lean', '--run', os.path.join(work, 'Driver.lean'), os.path.join(work, 'commands')],
                     cwd=os.path.join(root, 'lean'), stdout=subprocess.PIPE, preexec_fn=stack)
lines = run.stdout.decode().splitlines()
bad = 0
for k, (name, args, shape, checks) in enumerate(cases):
    if k >= len(lines):
        print('NO RESULT', name)
        bad += 1
        continue
    r = shape(eval(lines[k]))
    for i, check in enumerate(checks):
        try:
            ok = check(r)
        except Exception as e:
            ok = False
            print(repr(e))
        if not ok:
            bad += 1
            print('MISMATCH', name, 'check', i, lines[k][:300])
print('cases', len(cases), 'checks', sum(len(c[3]) for c in cases), 'bad', bad)
sys.exit(bad != 0)
