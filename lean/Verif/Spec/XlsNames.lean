import Verif.Spec.XlsBook
/-!
# Specification: the names and external references of an .xls book

Written from the file format ([MS-XLS], the documentation of OpenOffice.org), not from the code.  `whole` is
for what the reader gets through.
-/

namespace CP.Spec

/-! ### The records -/

/-- A string in a record, with its formatting runs and phonetic data, and nothing more. -/
def ExactString (lenlen : Nat) (b : List UInt8) (t : List Char) : Prop :=
  ∃ o rt sz head text inner, StringHead lenlen (textUnits t).length o rt sz head ∧ UnitBytes (Wide o) (textUnits t) text ∧
    inner.length = 4 * rt + sz ∧ b = head ++ text ++ inner

/-- The kinds of SUPBOOK records: for the book itself, for add-in functions, for other documents. -/
inductive SupKind
  | own
  | addIns
  | other
  deriving DecidableEq

/-- A defined name: whether it is a macro or binary data; its sheet (0 for the whole book), in BIFF 8 by its
number among all sheets, before by the number of an EXTERNSHEET record; its formula. -/
structure NameDef where
  special : Bool
  sheet : Nat
  fmla : List UInt8

/-- What the records say: SUPBOOK; EXTERNNAME; EXTERNSHEET with references in BIFF 8 (number of a SUPBOOK
record, first and last sheet), before with a kind and, for the kind 3 (a sheet of the book), its name; NAME. -/
inductive NameRec
  | supbook (k : SupKind)
  | externName
  | sheets (xtis : List (Nat × Nat × Nat))
  | sheet5 (kind : Nat) (name : List Char)
  | name (o : NameDef)

/-- Strings one after the other. -/
def ExactStrings (b : List UInt8) (ts : List (List Char)) : Prop :=
  ∃ bs : List (List UInt8), Each (fun b t => ExactString 2 b t) bs ts ∧ b = bs.flatten

/-- The references in an EXTERNSHEET record. -/
def xtiBytes (xtis : List (Nat × Nat × Nat)) : List UInt8 := xtis.flatMap fun x => leBytes 2 x.1 ++ leBytes 2 x.2.1 ++ leBytes 2 x.2.2

/-- The text of a name of `n` units or bytes. -/
def NameText (v8 : Bool) (tx : List UInt8 → Option (List Char)) (n : Nat) (b : List UInt8) : Prop :=
  if v8 then ∃ o text t, (o = 0 ∨ o = 1) ∧ n = (textUnits t).length ∧ UnitBytes (Wide o) (textUnits t) text ∧ b = o :: text
  else n = b.length ∧ ∃ t, tx b = some t

/-- A record, with the CONTINUE records that it needs. -/
inductive NameRecIs (v8 : Bool) (tx : List UInt8 → Option (List Char)) : NameRec → XRec → List XRec → Prop
  | own {n more} : v8 = true → n < 65536 → NameRecIs v8 tx (.supbook .own) (0x1AE, leBytes 2 n ++ [1, 4] ++ more) []
  | addIns {more} : v8 = true → NameRecIs v8 tx (.supbook .addIns) (0x1AE, [1, 0, 1, 0x3A] ++ more) []
  | other {url t ts b} : v8 = true → ExactString 2 url t → (textUnits t).length < 256 → ExactStrings b ts → ts.length < 65536 →
      NameRecIs v8 tx (.supbook .other) (0x1AE, leBytes 2 ts.length ++ url ++ b) []
  | externName {head b t more} : v8 = true → head.length = 6 → ExactString 1 b t → NameRecIs v8 tx .externName (0x23, head ++ b ++ more) []
  | externName5 {b} : v8 = false → NameRecIs v8 tx .externName (0x23, b) []
  | sheets {xtis data conts more} : v8 = true → xtis.length < 65536 → (∀ x ∈ xtis, x.1 < 65536 ∧ x.2.1 < 65536 ∧ x.2.2 < 65536) →
      2 ≤ data.length → data ++ conts.flatten = leBytes 2 xtis.length ++ xtiBytes xtis ++ more →
      (∀ a d b, conts = a ++ d :: b → (data ++ a.flatten).length < 2 + 6 * xtis.length) →
      NameRecIs v8 tx (.sheets xtis) (0x17, data) (conts.map fun d => (0x3C, d))
  | sheet5 {n name t more} : v8 = false → n = name.length → n < 256 → tx name = some t →
      NameRecIs v8 tx (.sheet5 3 t) (0x17, [UInt8.ofNat n, 3] ++ name ++ more) []
  | extern5 {n kind more} : v8 = false → kind ≠ 3 → NameRecIs v8 tx (.sheet5 kind.toNat []) (0x17, [n, kind] ++ more) []
  | name {flags key n fl ext sheet texts b raw} : flags < 65536 → n < 256 → ext < 65536 → sheet < 65536 → texts.length = 4 →
      NameText v8 tx n b → fl ≤ raw.length → fl < 65536 →
      NameRecIs v8 tx (.name ⟨flags.testBit 3 || flags.testBit 12, if v8 then sheet else ext, raw.take fl⟩)
        (0x18, leBytes 2 flags ++ [key, UInt8.ofNat n] ++ leBytes 2 fl ++ leBytes 2 ext ++ leBytes 2 sheet ++ texts ++ b ++ raw) []

/-- The SUPBOOK records, the references, the EXTERNSHEET records before BIFF 8, and the names. -/
def supKinds (ds : List NameRec) : List SupKind := ds.filterMap fun
  | .supbook k => some k
  | _ => none

def xtisOf (ds : List NameRec) : List (Nat × Nat × Nat) := ds.flatMap fun
  | .sheets xtis => xtis
  | _ => []

def sheets5 (ds : List NameRec) : List (Nat × List Char) := ds.filterMap fun
  | .sheet5 kind name => some (kind, name)
  | _ => none

def nameDefs (ds : List NameRec) : List NameDef := ds.filterMap fun
  | .name o => some o
  | _ => none

/-! ### The kinds of values in formulas -/

/-- Numbers (`d` says how large: integers from -65536 ^ d to 65536 ^ d, and all floating point numbers), truth values
and texts, where the reader works them out and where it does not; references to one area, to areas, or not
worked out; errors with and without a code; an argument left out; and what the reader knows nothing of. -/
inductive ValKind
  | num (d : Nat)
  | unum | bool | ubool | text | utext | ref | refs | uref | errv | err | miss | unk
  deriving DecidableEq

/-- Values that the reader works with: numbers and texts; errors; references. -/
def ValKind.known : ValKind → Bool
  | .num _ => true
  | .text => true
  | _ => false

def ValKind.error (k : ValKind) : Bool := k = .err ∨ k = .errv

def ValKind.area (k : ValKind) : Bool := k = .ref ∨ k = .refs ∨ k = .uref

/-- Sums, differences and products: integers beyond 65536 ^ 63 (about 10 ^ 303) cannot be told to be numbers
that may be calculated with. -/
def arithKinds : ValKind → ValKind → Option (List ValKind)
  | .num d, .num e => if d + e ≤ 63 then some [.num (d + e)] else none
  | a, b => if a.known ∧ b.known then none else some [.unum]

/-- Comparisons: numbers with numbers, texts with texts; others may only be tested for being equal. -/
def cmpKinds (op : Nat) : ValKind → ValKind → Option (List ValKind)
  | .num _, .num _ => some [.bool]
  | .text, .text => some [.bool]
  | a, b => if a.known ∧ b.known then (if op = 0xB ∨ op = 0xE then some [.bool] else none) else some [.ubool]

/-- Intersections and ranges of references. -/
def boxKinds (a b : ValKind) : Option (List ValKind) :=
  if a.area ∧ b.area then
    if a = .uref ∨ b = .uref then some [.uref] else if a = .ref ∧ b = .ref then some [.ref, .uref] else none
  else some [.uref]

/-- An operator's token and the kinds of its operands: the kinds of values that there may be; nothing if it
may not be worked out. -/
def opKinds (op : Nat) (a b : ValKind) : Option (List ValKind) :=
  if op ≤ 5 then arithKinds a b
  else if op ≤ 7 then (if a.known ∧ b.known then none else some [.unum])
  else if op = 8 then (if a.known ∧ b.known then some [.text] else some [.utext])
  else if op ≤ 0xE then cmpKinds op a b
  else if op = 0xF then (if a.error ∨ b.error then some [.err] else if a = .unk ∨ b = .unk then some [.uref] else boxKinds a b)
  else if op = 0x10 then
    (if a.error ∨ b.error then some [.err]
      else if a.area ∧ b.area then (if a = .uref ∨ b = .uref then some [.uref] else if b = .ref then some [.refs] else none)
      else some [.uref])
  else (if a.error ∨ b.error then none else boxKinds a b)

/-- The kinds of values for an operator on values of some kinds. -/
def OpOk (op : Nat) (as bs ks : List ValKind) : Prop :=
  ∀ a ∈ as, ∀ b ∈ bs, ∃ l, opKinds op a b = some l ∧ ∀ k ∈ l, k ∈ ks

/-- The kind of value for a sign or `%`: texts and references may not be worked out. -/
def signKind : ValKind → Option ValKind
  | .num d => some (.num d)
  | .bool => some (.num 1)
  | .errv => some (.num 1)
  | .text => none
  | .ref => none
  | .refs => none
  | _ => some .unum

def SignOk (as ks : List ValKind) : Prop := ∀ a ∈ as, ∃ k, signKind a = some k ∧ k ∈ ks

/-! ### Formulas -/

/-- What a formula depends on: the version, the text for bytes in the code page, the functions with their
least and largest numbers of arguments; the references and the SUPBOOK records they refer to (BIFF 8),
the kinds of the EXTERNSHEET records (before); how many names there are, and those that it may use, with
the kinds of their values, by their numbers. -/
structure FmlaCtx where
  v8 : Bool
  tx : List UInt8 → Option (List Char)
  funcs : Nat → Option (Nat × Nat)
  xtis : List (Nat × Nat × Nat)
  sups : List SupKind
  externs : List Nat
  count : Nat
  uses : Nat → Option (List ValKind)

/-- A token with a class (reference, value or array). -/
def Token (op : UInt8) (code : Nat) : Prop := op.toNat % 32 = code ∧ 1 ≤ op.toNat / 32 % 4

/-- A reference to add-in functions is to no sheet. -/
def XtiOk (C : FmlaCtx) (i : Nat) : Prop :=
  ∀ s a b, C.xtis[i]? = some (s, a, b) → C.sups[s]? = some .addIns → a = 0xFFFE ∧ b = 0xFFFE

/-- The reference is to the book itself. -/
def XtiOwn (C : FmlaCtx) (i : Nat) : Prop := ∃ s a b, C.xtis[i]? = some (s, a, b) ∧ C.sups[s]? = some .own

/-- The sheets of a reference. -/
def SheetsOf3d (C : FmlaCtx) (b : List UInt8) : Prop :=
  if C.v8 then ∃ i, i < 65536 ∧ XtiOk C i ∧ b = leBytes 2 i else b.length = 14

/-- Tokens that stand for a value. -/
inductive Leaf (whole : Bool) (C : FmlaCtx) : List ValKind → List UInt8 → Prop
  | int {n} : n < 65536 → Leaf whole C [.num 1] (0x1E :: leBytes 2 n)
  | double {b} : b.length = 8 → Leaf whole C [.num 1] (0x1F :: b)
  | bool {x} : x ≤ 1 → Leaf whole C [.bool] [0x1D, x]
  | error {x} : x ∈ [0x00, 0x07, 0x0F, 0x17, 0x1D, 0x24, 0x2A] → Leaf whole C [.errv] [0x1C, x]
  | text {b t} : C.v8 = true → ExactString 1 b t → Leaf whole C [.text] (0x17 :: b)
  | text5 {n b t} : C.v8 = false → n = b.length → n < 256 → C.tx b = some t → Leaf whole C [.text] (0x17 :: UInt8.ofNat n :: b)
  | missing : Leaf whole C [.miss] [0x16]
  | cell {op b} : Token op 4 → b.length = (if C.v8 then 4 else 3) →
      Leaf whole C [if op.toNat / 32 % 4 = 1 then .ref else .unk] (op :: b)
  | area {op b} : Token op 5 → b.length = (if C.v8 then 8 else 6) →
      Leaf whole C [if op.toNat / 32 % 4 = 1 then .ref else .unk] (op :: b)
  | cell3d {op sh b} : Token op 0x1A → SheetsOf3d C sh → b.length = (if C.v8 then 4 else 3) →
      Leaf whole C [if op.toNat / 32 % 4 = 1 then .ref else .uref] (op :: (sh ++ b))
  | area3d {op sh b} : Token op 0x1B → SheetsOf3d C sh → b.length = (if C.v8 then 8 else 6) →
      Leaf whole C [if op.toNat / 32 % 4 = 1 then .ref else .uref] (op :: (sh ++ b))
  /-- References to cells that were deleted. -/
  | cellErr {op b} : Token op 0xA → b.length = (if C.v8 then 4 else 3) → Leaf whole C [.err] (op :: b)
  | areaErr {op b} : Token op 0xB → b.length = (if C.v8 then 8 else 6) → Leaf whole C [.err] (op :: b)
  | cellErr3d {op b} : Token op 0x1C → b.length = (if C.v8 then 6 else 17) → Leaf whole C [.err] (op :: b)
  | areaErr3d {op b} : Token op 0x1D → b.length = (if C.v8 then 10 else 20) → Leaf whole C [.err] (op :: b)
  /-- A name of the book, by its number from 1 on. -/
  | name {op i ks more} : Token op 3 → i < C.count ∧ i + 1 < 65536 → (whole = true → C.uses i = some ks) → more.length = (if C.v8 then 2 else 12) →
      Leaf whole C (.unk :: ks) (op :: (leBytes 2 (i + 1) ++ more))
  /-- A name by way of a reference: of another document, or of the book. -/
  | nameX {op x n more} : Token op 0x19 → C.v8 = true → x < 65536 → XtiOk C x → ¬ XtiOwn C x → n < 65536 → more.length = 2 →
      Leaf whole C [.unk] (op :: (leBytes 2 x ++ leBytes 2 n ++ more))
  | nameOwn {op x i ks more} : Token op 0x19 → C.v8 = true → x < 65536 → XtiOk C x → i < C.count ∧ i + 1 < 65536 → (whole = true → C.uses i = some ks) →
      more.length = 2 → Leaf whole C (.unk :: ks) (op :: (leBytes 2 x ++ leBytes 2 (i + 1) ++ more))
  /-- Before BIFF 8 the reference is to another document if it is positive; otherwise it is to an EXTERNSHEET record,
  where the kind 4 is for the book. -/
  | nameX5 {op x more} : Token op 0x19 → C.v8 = false → x < 32768 → more.length = 22 → Leaf whole C [.unk] (op :: (leBytes 2 x ++ more))
  | nameOther5 {op k kind mid n more} : Token op 0x19 → C.v8 = false → k < 32768 → C.externs[k]? = some kind → kind ≠ 4 → mid.length = 8 →
      n < 65536 → more.length = 12 → Leaf whole C [.unk] (op :: (leBytes 2 (65536 - (k + 1)) ++ mid ++ leBytes 2 n ++ more))
  | nameOwn5 {op k mid i ks more} : Token op 0x19 → C.v8 = false → k < 32768 → C.externs[k]? = some 4 → mid.length = 8 → i < C.count ∧ i + 1 < 65536 →
      (whole = true → C.uses i = some ks) → more.length = 12 →
      Leaf whole C (.unk :: ks) (op :: (leBytes 2 (65536 - (k + 1)) ++ mid ++ leBytes 2 (i + 1) ++ more))

/-- Tokens that stand for nothing: attributes (spaces, jumps; those for CHOOSE with a table), brackets, and the size of
a reference that is to be worked out. -/
inductive Noop : List UInt8 → Prop
  | attr {sub x y} : sub ≠ 4 → sub ≠ 0x10 → Noop [0x19, sub, x, y]
  | choose {n more} : n < 65536 → more.length = 2 * n + 2 → Noop ([0x19, 4] ++ leBytes 2 n ++ more)
  | paren : Noop [0x15]
  | mem {op x y} : Token op 9 → Noop [op, x, y]

/-- A number other than zero. -/
inductive NonZero : List UInt8 → Prop
  | int {n} : n < 65536 → n ≠ 0 → NonZero (0x1E :: leBytes 2 n)
  | double {bits} : bits < 2 ^ 64 → bits ≠ 0 → bits ≠ 2 ^ 63 → NonZero (0x1F :: leBytes 8 bits)

/-- A formula in reverse Polish notation: tokens, and the kinds of the values that they leave, the last first. -/
inductive Rpn (whole : Bool) (C : FmlaCtx) : List (List ValKind) → List UInt8 → Prop
  | nil : Rpn whole C [] []
  | leaf {s b ks t} : Rpn whole C s b → Leaf whole C ks t → Rpn whole C (ks :: s) (b ++ t)
  | noop {s b t} : Rpn whole C s b → Noop t → Rpn whole C s (b ++ t)
  | sign {s b as ks op} : Rpn whole C (as :: s) b → op ∈ [0x12, 0x13, 0x14] → (whole = true → SignOk as ks) →
      Rpn whole C (ks :: s) (b ++ [op])
  | op {s b as bs ks op} : Rpn whole C (bs :: as :: s) b → 3 ≤ op.toNat → op.toNat ≤ 0x11 → (whole = true → OpOk op.toNat as bs ks) →
      Rpn whole C (ks :: s) (b ++ [op])
  /-- Division by a number. -/
  | divide {s b as ks t} : Rpn whole C (as :: s) b → NonZero t → (whole = true → OpOk 5 as [.num 1] ks) → Rpn whole C (ks :: s) (b ++ t ++ [6])
  | sum {s b as x y} : Rpn whole C (as :: s) b → Rpn whole C ([.unum] :: s) (b ++ [0x19, 0x10, x, y])
  /-- A function with a fixed number of arguments. -/
  | func {s b args op f n m} : Rpn whole C (args ++ s) b → Token op 1 → f < 65536 → C.funcs f = some (n, m) → args.length = n →
      Rpn whole C ([.unk] :: s) (b ++ op :: leBytes 2 f)
  /-- Other functions, with at least one argument. -/
  | funcVar {s b args op k f n m} : Rpn whole C (args ++ s) b → Token op 2 → f < 65536 → f % 32768 ≠ 1 → f % 32768 ≠ 100 →
      C.funcs (f % 32768) = some (n, m) → k.toNat % 128 = args.length → n ≤ args.length → args.length ≤ m → args ≠ [] →
      Rpn whole C ([.unk] :: s) (b ++ op :: k :: leBytes 2 f)
  /-- Without arguments they may only come first. -/
  | funcVar0 {s b op k f m} : Rpn whole C s b → (whole = true → s = []) → Token op 2 → f < 65536 → f % 32768 ≠ 1 → f % 32768 ≠ 100 →
      C.funcs (f % 32768) = some (0, m) → k.toNat % 128 = 0 → Rpn whole C ([.unk] :: s) (b ++ op :: k :: leBytes 2 f)
  /-- IF, with the condition and one or two arguments. -/
  | ifs {s b cond args ks op k f n m} : Rpn whole C (args ++ cond :: s) b → Token op 2 → f < 65536 → f % 32768 = 1 → C.funcs 1 = some (n, m) →
      n ≤ args.length + 1 → args.length + 1 ≤ m → args.length = 1 ∨ args.length = 2 → k.toNat % 128 = args.length + 1 →
      (∀ x, x ∈ [ValKind.unk, .num 1, .bool] ∨ (x ≠ .miss ∧ ∃ a ∈ args, x ∈ a) → x ∈ ks) → Rpn whole C (ks :: s) (b ++ op :: k :: leBytes 2 f)
  /-- CHOOSE, with the number and at least one argument: the number may not be one that is not worked out. -/
  | choose {s b index args ks op k f n m} : Rpn whole C (args ++ index :: s) b → Token op 2 → f < 65536 → f % 32768 = 100 →
      C.funcs 100 = some (n, m) → n ≤ args.length + 1 → args.length + 1 ≤ m → args ≠ [] → k.toNat % 128 = args.length + 1 →
      (whole = true → .unum ∉ index) → (∀ x, x ∈ [ValKind.unk, .num 1] ∨ (x ≠ .miss ∧ ∃ a ∈ args, x ∈ a) → x ∈ ks) →
      Rpn whole C (ks :: s) (b ++ op :: k :: leBytes 2 f)
  /-- Functions that are not among those known keep their arguments. -/
  | unknown {s b op f} : Rpn whole C s b → Token op 1 → f < 65536 → C.funcs f = none → Rpn whole C ([.unk] :: s) (b ++ op :: leBytes 2 f)
  | unknownVar {s b op k f} : Rpn whole C s b → Token op 2 → f < 65536 → C.funcs (f % 32768) = none →
      Rpn whole C ([.unk] :: s) (b ++ op :: k :: leBytes 2 f)
  | array {s b op more} : Rpn whole C s b → whole = false → Token op 0 → more.length = 7 → Rpn whole C ([.unk] :: s) (b ++ op :: more)

/-- A formula; an array may come last. -/
inductive Fmla (whole : Bool) (C : FmlaCtx) : List (List ValKind) → List UInt8 → Prop
  | rpn {s b} : Rpn whole C s b → Fmla whole C s b
  | array {s b op more} : Rpn whole C s b → Token op 0 → more.length = 7 → Fmla whole C ([.unk] :: s) (b ++ op :: more)

/-! ### The names of a book -/

/-- The names that may be used by a name: their levels (above those of the names that they use) and the kinds of their
values. -/
abbrev Levels := Nat → Option (Nat × List ValKind)

/-- What the formula of a name with this level may use. -/
def fmlaCtx (v8 : Bool) (tx : List UInt8 → Option (List Char)) (funcs : Nat → Option (Nat × Nat)) (ds : List NameRec) (Γ : Levels) (level : Nat) :
    FmlaCtx where
  v8 := v8
  tx := tx
  funcs := funcs
  xtis := xtisOf ds
  sups := supKinds ds
  externs := (sheets5 ds).map Prod.fst
  count := (nameDefs ds).length
  uses := fun i => match Γ i with
    | some (l, ks) => if l < level then some ks else none
    | none => none

/-- The name is for the whole book or for a work sheet. -/
def OnWorksheet (v8 : Bool) (ds : List NameRec) (all : List (List Char × Nat)) (o : NameDef) : Prop :=
  o.sheet = 0 ∨ (v8 = true ∧ ∃ name, all[o.sheet - 1]? = some (name, 0)) ∨
    (v8 = false ∧ ∃ name, (sheets5 ds)[o.sheet - 1]? = some (3, name) ∧ (name, 0) ∈ all)

/-- A name that may be used: at most ten levels of names below it, and one value. -/
def UsedName (v8 : Bool) (C : Nat → FmlaCtx) (ds : List NameRec) (all : List (List Char × Nat)) (o : NameDef) (level : Nat) (ks : List ValKind) : Prop :=
  level ≤ 10 ∧ OnWorksheet v8 ds all o ∧
    if o.special then ∃ s, Fmla true (C level) s o.fmla
    else (o.fmla = [] ∧ .unk ∈ ks) ∨ (o.fmla ≠ [] ∧ Fmla true (C level) [ks] o.fmla)

/-- The names and references of a book with these sheets. -/
def NamesAre (whole : Bool) (v8 : Bool) (tx : List UInt8 → Option (List Char)) (funcs : Nat → Option (Nat × Nat)) (ds : List NameRec)
    (all : List (List Char × Nat)) : Prop :=
  (∀ a b, ds = a ++ .externName :: b → v8 = true → supKinds a ≠ []) ∧
  (∀ o ∈ nameDefs ds, v8 = false → o.sheet = 0 ∨ ∃ kind name, (sheets5 ds)[o.sheet - 1]? = some (kind, name) ∧ (whole = true → kind = 3)) ∧
  ∃ Γ : Levels, (∀ i l ks, Γ i = some (l, ks) → i < (nameDefs ds).length) ∧
    ∀ i o, (nameDefs ds)[i]? = some o →
      (∀ l ks, whole = true → Γ i = some (l, ks) → UsedName v8 (fmlaCtx v8 tx funcs ds Γ) ds all o l ks) ∧
      (Γ i = none ∨ whole = false → o.special = true ∨ ∃ l s, l ≤ 10 ∧ Fmla whole (fmlaCtx v8 tx funcs ds Γ l) s o.fmla)

/-- A record of external references or a name. -/
def NameGroupIs (v8 : Bool) (g : NameGroup) (d : NameRec) : Prop := NameRecIs v8 g.tx d g.head g.conts

/-- The records of external references and names of a book. -/
def NameGroupsAre (whole : Bool) (v8 : Bool) (funcs : Nat → Option (Nat × Nat)) (tx : List UInt8 → Option (List Char)) (gs : List NameGroup)
    (all : List (List Char × Nat)) : Prop :=
  ∃ ds, Each (NameGroupIs v8) gs ds ∧ NamesAre whole v8 tx funcs ds all

end CP.Spec
