import Verif.Model.CompDoc
/-!
# Sector chains and directories of compound documents
-/

namespace CP.Spec

/-- The sectors on the chain from `s`: the table leads from each to the next, and from the
last one to the end mark. -/
inductive Chain (table : List Int) : Int → List Nat → Prop
  | stop : Chain table (-2) []
  | next {s : Nat} {t : Int} {rest : List Nat} : table[s]? = some t → Chain table t rest →
      Chain table (s : Int) (s :: rest)

/-- A walk along the table from `s` that never ends. -/
def Endless (table : List Int) (s : Int) : Prop :=
  ∃ walk : Nat → Nat, (walk 0 : Int) = s ∧ ∀ i, table[walk i]? = some (walk (i + 1) : Int)

/-- The bytes of sector `s`, fewer if the data ends within it. -/
def sector (mem : Bytes) (base secSize s : Nat) : Bytes := (mem.drop (base + s * secSize)).take secSize

/-- All of the sector is there. -/
def Whole (mem : Bytes) (base secSize s : Nat) : Prop := base + (s + 1) * secSize ≤ mem.length

/-- `x` is in the tree of siblings with the top `c`. -/
inductive InTree (dirlist : List DirNode) : Int → Nat → Prop
  | here {c : Nat} {d : DirNode} : dirlist[c]? = some d → InTree dirlist c c
  | left {c x : Nat} {d : DirNode} : dirlist[c]? = some d → InTree dirlist d.left x → InTree dirlist c x
  | right {c x : Nat} {d : DirNode} : dirlist[c]? = some d → InTree dirlist d.right x → InTree dirlist c x

/-- The entry `c` is directly in the storage `p` (the root or another). -/
def Kid (dirlist : List DirNode) (p c : Nat) : Prop := ∃ d, dirlist[p]? = some d ∧ InTree dirlist d.root c

/-- Entries of a storage have different names, but for case. -/
def NamesDiffer (low : List Char → List Char) (dirlist : List DirNode) : Prop :=
  ∀ p c c' d d', Kid dirlist p c → Kid dirlist p c' → dirlist[c]? = some d → dirlist[c']? = some d' →
    low d.name = low d'.name → c = c'

/-- The stream `c` is found in the storage `p` by the path: storages and then a stream.
(What follows the name of a stream is not looked at.) -/
inductive StreamAt (low : List Char → List Char) (dirlist : List DirNode) :
    List (List Char) → Nat → Nat → DirNode → Prop
  | stream {name : List Char} {more : List (List Char)} {p c : Nat} {d : DirNode} :
      Kid dirlist p c → dirlist[c]? = some d → low d.name = low name → d.etype = 2 →
      StreamAt low dirlist (name :: more) p c d
  | storage {name : List Char} {more : List (List Char)} {p q c : Nat} {d e : DirNode} :
      Kid dirlist p q → dirlist[q]? = some e → low e.name = low name → e.etype = 1 →
      StreamAt low dirlist more q c d → StreamAt low dirlist (name :: more) p c d

/-- The four bytes at `pos`, least first, as a signed number. -/
def IntAt (b : Bytes) (pos : Nat) (v : Int) : Prop :=
  ∃ b0 b1 b2 b3, b[pos]? = some b0 ∧ b[pos + 1]? = some b1 ∧ b[pos + 2]? = some b2 ∧ b[pos + 3]? = some b3 ∧
    let n : Int := (b0.toNat + 256 * b1.toNat + 65536 * b2.toNat + 16777216 * b3.toNat : Nat)
    v = if n < 2147483648 then n else n - 4294967296

/-- The numbers in a byte string, four bytes each. -/
def IntsOf (b : Bytes) (xs : List Int) : Prop :=
  4 * xs.length = b.length ∧ ∀ (i : Nat) (v : Int), xs[i]? = some v → IntAt b (4 * i) v

/-- The chain of the sectors that extend the master table, with their entries: the last
number in each is the next sector. -/
inductive MsatChain (mem : Bytes) (secSize : Nat) : Int → List Nat → List Int → Prop
  | stop {s : Int} : s = -1 ∨ s = -2 ∨ s = -4 → MsatChain mem secSize s [] []
  | next {s : Nat} {t : Int} {xs more : List Int} {rest : List Nat} :
      IntsOf (sector mem 512 secSize s) (xs ++ [t]) → MsatChain mem secSize t rest more →
      MsatChain mem secSize s (s :: rest) (xs ++ more)

/-- A table in these sectors. -/
def TableIn (mem : Bytes) (secSize : Nat) (sids : List Nat) (table : List Int) : Prop :=
  IntsOf (sids.flatMap (sector mem 512 secSize)) table

/-- A directory entry of 128 bytes. -/
structure DirBytes (utf16 : Bytes → Except Exc (List Char)) (b : Bytes) (d : DirNode) : Prop where
  etype : (b[66]?.map UInt8.toNat) = some d.etype
  left : IntAt b 68 d.left
  right : IntAt b 72 d.right
  root : IntAt b 76 d.root
  first : IntAt b 116 d.first
  size : IntAt b 120 d.size
  name : ∃ n0 n1, b[64]? = some n0 ∧ b[65]? = some n1 ∧
    (n0.toNat + 256 * n1.toNat = 0 → d.name = []) ∧
    (2 ≤ n0.toNat + 256 * n1.toNat → utf16 (b.take (n0.toNat + 256 * n1.toNat - 2)) = .ok d.name)

/-- The sectors marked between two states: unmarked before, marked after, and no others. -/
def Marks (a b : List Nat) (sids : List Nat) : Prop :=
  b.length = a.length ∧ sids.Nodup ∧ (∀ x ∈ sids, a[x]? = some 0 ∧ b[x]? ≠ some 0) ∧ ∀ x, x ∉ sids → b[x]? = a[x]?

/-- How the parts of a document are laid out in the sectors of the file: the extension of the
master table, the sector table, the directory, the short stream container and the short
sector table. -/
structure Layout (utf16 : Bytes → Except Exc (List Char)) (mem : Bytes) (cd : CompDoc)
    (msatx sats dir sscs ssats : List Nat) : Prop where
  once : (msatx ++ sats ++ dir ++ sscs ++ ssats).Nodup
  master : ∃ (h m : List Int), IntsOf ((mem.drop 76).take 436) h ∧
    (msatx = [] ∧ m = [] ∨ ∃ first, IntAt mem 68 first ∧ MsatChain mem cd.secSize first msatx m) ∧
    sats.map Int.ofNat = (h ++ m).filter fun e : Int => 0 ≤ e ∧ 512 + e * (cd.secSize : Int) < (mem.length : Int)
  sat : TableIn mem cd.secSize sats cd.sat
  dirChain : ∃ first, IntAt mem 48 first ∧ Chain cd.sat first dir
  dirEntries : ∀ (i : Nat) (d : DirNode), cd.dirlist[i]? = some d →
    DirBytes utf16 (((dir.flatMap (sector mem 512 cd.secSize)).drop (128 * i)).take 128) d
  dirAll : (dir.flatMap (sector mem 512 cd.secSize)).length ≤ 128 * cd.dirlist.length
  root : ∃ root, cd.dirlist[0]? = some root ∧ root.etype = 5 ∧
    (cd.sscs = none → sscs = [] ∧ (root.first < 0 ∨ root.size = 0)) ∧
    (∀ b, cd.sscs = some b → Chain cd.sat root.first sscs ∧
      (0 ≤ root.size → (∀ x ∈ sscs.dropLast, Whole mem 512 cd.secSize x) →
        b = (sscs.flatMap (sector mem 512 cd.secSize)).take root.size.toNat)) ∧
    (root.size ≤ 0 → ssats = []) ∧
    (0 < root.size → ∃ first, IntAt mem 60 first ∧ IntAt mem 64 ssats.length ∧ Chain cd.sat first ssats)
  ssat : TableIn mem cd.secSize ssats cd.ssat

end CP.Spec
