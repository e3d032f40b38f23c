import Verif.Spec.CompDoc
import Verif.Spec.Dbf
/-!
# Specification: compound documents that are in order, and their streams

Written from the file format, not from the code.
-/

namespace CP.Spec

/-- A compound document: the sizes of sectors and of short sectors, the size from which on a
stream is not short, the two tables, the directory, the container of the short streams, and
the sectors that these parts take in the file. -/
structure Doc where
  secSize : Nat
  shortSize : Nat
  minSize : Int
  sat : List Int
  ssat : List Int
  dir : List DirNode
  container : Bytes
  used : List Nat

/-- The entries below `c`, siblings and those in storages, are in a tree of that height. -/
inductive TreeOf (dir : List DirNode) : Nat → Int → Prop
  | none {n : Nat} {c : Int} : c < 0 → TreeOf dir n c
  | node {n c : Nat} {d : DirNode} : dir[c]? = some d → TreeOf dir n d.left → TreeOf dir n d.right →
      (d.etype = 1 → TreeOf dir n d.root) → TreeOf dir (n + 1) c

/-- There is something of the sector in the file. -/
def Present (mem : Bytes) (secSize s : Nat) : Prop := 512 + s * secSize < mem.length

/-- The bytes of a chain of sectors, cut to a size that takes all its sectors. -/
def ChainBytes (mem : Bytes) (base secSize : Nat) (sids : List Nat) (size : Int) (b : Bytes) : Prop :=
  (∀ x ∈ sids.dropLast, Whole mem base secSize x) ∧ b = (sids.flatMap (sector mem base secSize)).take size.toNat ∧
    (b.length : Int) = size

/-- The file is the compound document, with a directory tree of that height.  `msatx` and `sats`
are the sectors of the master table and of the sector table; `dirs`, `conts` and `ssats` those
of the directory, the container and the short sector table. -/
structure DocIn (utf16 : Bytes → Except Exc (List Char)) (height : Nat) (mem : Bytes) (D : Doc)
    (msatx sats dirs conts ssats : List Nat) : Prop where
  signature : mem.take 8 = [0xD0, 0xCF, 0x11, 0xE0, 0xA1, 0xB1, 0x1A, 0xE1]
  order : (mem.drop 28).take 2 = [0xFE, 0xFF]
  sizes : ∃ k j, 3 ≤ k ∧ k ≤ 20 ∧ j ≤ k ∧ (mem.drop 30).take 4 = leBytes 2 k ++ leBytes 2 j ∧
    D.secSize = 2 ^ k ∧ D.shortSize = 2 ^ j
  minSize : IntAt mem 56 D.minSize
  master : ∃ (h m : List Int) (first : Int), IntsOf ((mem.drop 76).take 436) h ∧ h.length = 109 ∧
    IntAt mem 68 first ∧ IntAt mem 72 msatx.length ∧
    (msatx = [] ∧ m = [] ∧ (first = -2 ∨ first = -1 ∨ first = 0) ∨
      msatx ≠ [] ∧ MsatChain mem D.secSize first msatx m) ∧
    (∀ e ∈ h ++ m, e = -1 ∨ e = -2 ∨ 0 ≤ e) ∧ sats.map Int.ofNat = (h ++ m).filter fun e : Int => 0 ≤ e
  sat : TableIn mem D.secSize sats D.sat
  dirChain : ∃ first, IntAt mem 48 first ∧ Chain D.sat first dirs
  entries : ∃ parts : List Bytes, dirs.flatMap (sector mem 512 D.secSize) = parts.flatten ∧
    Each2 (fun (b : Bytes) (d : DirNode) => b.length = 128 ∧ DirBytes utf16 b d ∧ (b[64]? = some 1 → b[65]? ≠ some 0)) parts D.dir
  root : ∃ root : DirNode, D.dir[0]? = some root ∧ root.etype = 5 ∧ TreeOf D.dir height root.root ∧
    (root.size = 0 ∧ conts = [] ∧ D.container = [] ∧ ssats = [] ∧ D.ssat = [] ∨
      0 < root.size ∧ Chain D.sat root.first conts ∧ ChainBytes mem 512 D.secSize conts root.size D.container ∧
      ∃ first, IntAt mem 60 first ∧ IntAt mem 64 ssats.length ∧ Chain D.sat first ssats ∧
        TableIn mem D.secSize ssats D.ssat)
  once : (msatx ++ sats ++ dirs ++ conts ++ ssats).Nodup
  tables : ∀ x ∈ msatx ++ sats ++ ssats, Whole mem 512 D.secSize x
  present : ∀ x ∈ dirs ++ conts, Present mem D.secSize x
  used : D.used = msatx ++ sats ++ dirs ++ conts ++ ssats

/-- The file is the compound document. -/
def DocIs (utf16 : Bytes → Except Exc (List Char)) (height : Nat) (mem : Bytes) (D : Doc) : Prop :=
  ∃ msatx sats dirs conts ssats, DocIn utf16 height mem D msatx sats dirs conts ssats

/-- The stream with this path, with its content.  Its entry is among the first 250. -/
def StreamIs (low : List Char → List Char) (mem : Bytes) (D : Doc) (path : List (List Char)) (b : Bytes) : Prop :=
  ∃ c d sids, StreamAt low D.dir path 0 c d ∧ c < 250 ∧ d.size ≤ mem.length - 512 ∧
    (D.minSize ≤ d.size ∧ Chain D.sat d.first sids ∧ (∀ x ∈ sids, Present mem D.secSize x ∧ x ∉ D.used) ∧
        ChainBytes mem 512 D.secSize sids d.size b ∧ (sids.length - 1) * D.secSize < b.length ∨
      d.size < D.minSize ∧ Chain D.ssat d.first sids ∧ (D.container = [] → sids = []) ∧
        ChainBytes D.container 0 D.shortSize sids d.size b)

end CP.Spec
