import Verif.Spec.Text
/-!
# Numbers and separators on a line of text

`dig` says which characters are digits.
-/

namespace CP.Spec

/-- A run of digits. -/
def Digits (dig : Char → Bool) (s : List Char) : Prop := s ≠ [] ∧ ∀ c ∈ s, dig c = true

/-- Nothing, or a sign. -/
def Sign (s : List Char) : Prop := s = [] ∨ s = ['-'] ∨ s = ['+']

/-- Digits, with a point anywhere in them or none. -/
def Mantissa (dig : Char → Bool) (point : Char) (s : List Char) : Prop :=
  Digits dig s ∨
  (∃ a b, Digits dig a ∧ (∀ c ∈ b, dig c = true) ∧ s = a ++ point :: b) ∨
  (∃ b, Digits dig b ∧ s = point :: b)

/-- Nothing, or e and an integer. -/
def Exponent (dig : Char → Bool) (s : List Char) : Prop :=
  s = [] ∨ ∃ e sg ds, (e = 'e' ∨ e = 'E') ∧ Sign sg ∧ Digits dig ds ∧ s = e :: (sg ++ ds)

/-- A number with this decimal point. -/
def IsNumber (dig : Char → Bool) (point : Char) (s : List Char) : Prop :=
  ∃ sg m ex, Sign sg ∧ Mantissa dig point m ∧ Exponent dig ex ∧ s = sg ++ m ++ ex

/-- The numbers on a line from left to right, each as long as can be. -/
inductive Tokens (dig : Char → Bool) (point : Char) : List Char → List (List Char) → Prop
  | nil : Tokens dig point [] []
  | other {c s ts} : (∀ n rest, c :: s = n ++ rest → ¬ IsNumber dig point n) →
      Tokens dig point s ts → Tokens dig point (c :: s) ts
  | num {n s ts} : IsNumber dig point n →
      (∀ n' rest, n ++ s = n' ++ rest → IsNumber dig point n' → n'.length ≤ n.length) →
      Tokens dig point s ts → Tokens dig point (n ++ s) (n :: ts)

/-- Numbers and what is between them. -/
def weave : List (List Char) → List (List Char) → List Char
  | [], _ => []
  | n :: ns, [] => n ++ ns.flatten
  | n :: ns, g :: gs => n ++ g ++ weave ns gs

/-- The numbers are on the line one after the other with the separators `gs` between,
none of them empty and none with a digit. -/
def Separated (dig : Char → Bool) (nums : List (List Char)) (line : List Char) (gs : List (List Char)) :
    Prop :=
  gs.length + 1 = nums.length ∧ (∀ g ∈ gs, g ≠ [] ∧ ∀ c ∈ g, dig c = false) ∧
  ∃ a b, line = a ++ weave nums gs ++ b

/-- The separator meant: without the whitespace around, if it is not whitespace only. -/
def SepMeans (g sep : List Char) : Prop :=
  ((∀ c ∈ g, pySpace c = true) ∧ sep = g) ∨
  ((∃ c ∈ g, pySpace c = false) ∧ Trimmed (fun c => pySpace c = true) g sep)

/-- A line of several columns: one kind of separator. -/
def OneSep (dig : Char → Bool) (point : Char) (line sep : List Char) : Prop :=
  ∃ nums gs, Tokens dig point line nums ∧ gs ≠ [] ∧ Separated dig nums line gs ∧
    ∀ g ∈ gs, SepMeans g sep

/-- A line of one column: a number, and no separator between numbers. -/
def NoSep (dig : Char → Bool) (point : Char) (line : List Char) : Prop :=
  ∃ nums, Tokens dig point line nums ∧ nums ≠ [] ∧
    (nums.length = 1 ∨ ∀ gs, ¬ Separated dig nums line gs)

/-- Nothing but whitespace. -/
def Blank (s : List Char) : Prop := ∀ c ∈ s, pySpace c = true

/-- A line of data of `n` columns. -/
def DataLine (dig : Char → Bool) (point : Char) (n : Nat) (line : List Char) : Prop :=
  if n = 1 then NoSep dig point line else ∃ sep, OneSep dig point line sep

/-- A line cut at the delimiter, from left to right. -/
inductive CutAt (d : List Char) : List Char → List (List Char) → Prop
  | last {s} : ¬ d <:+: s → CutAt d s [s]
  | cut {f t fs} : NoDelim d f → CutAt d t fs → CutAt d (f ++ d ++ t) (f :: fs)

/-- The fields that are not blank, without the whitespace around. -/
inductive TrimAll : List (List Char) → List (List Char) → Prop
  | nil : TrimAll [] []
  | blank {c cs fs} : Blank c → TrimAll cs fs → TrimAll (c :: cs) fs
  | field {c f cs fs} : ¬ Blank c → Trimmed (fun x => pySpace x = true) c f → TrimAll cs fs →
      TrimAll (c :: cs) (f :: fs)

/-- The fields of a line. -/
def FieldsOf (d : Option (List Char)) (line : List Char) (fs : List (List Char)) : Prop :=
  ∃ cuts, TrimAll cuts fs ∧ match d with
    | none => Words (fun c => pySpace c = true) cuts line
    | some d => CutAt d line cuts

/-- A line that can be names of `n` columns; `word` says which fields may be the first. -/
def NameLine (word : List Char → Bool) (d : Option (List Char)) (n : Nat) (line : List Char)
    (fs : List (List Char)) : Prop :=
  FieldsOf d line fs ∧ fs.length = n ∧ ∃ f, fs.head? = some f ∧ word f = true

/-- The names by column. -/
def numbered (fs : List (List Char)) : List (Int × List Char) := fs.zipIdx.map fun p => ((p.2 : Int), p.1)

/-- The names on the lines above the data (the nearest one first): those of the first line
that can be names. -/
def FoundNames (word : List Char → Bool) (d : Option (List Char)) (n : Nat) (above : List (List Char))
    (names : List (Int × List Char)) : Prop :=
  ((∀ l ∈ above, ∀ fs, ¬ NameLine word d n l fs) ∧ names = []) ∨
  ∃ near l far fs, above = near ++ l :: far ∧ (∀ m ∈ near, ∀ fs, ¬ NameLine word d n m fs) ∧
    NameLine word d n l fs ∧ names = numbered fs

/-- A character that can not be in a number. -/
def Plain (dig : Char → Bool) (point c : Char) : Prop :=
  dig c = false ∧ c ∉ ['-', '+', 'e', 'E'] ∧ c ≠ point

/-- A line with these numbers, the text before, between and after them `Plain`, the
separators all meaning `sep`. -/
def TableLine (dig : Char → Bool) (point : Char) (sep : List Char) (nums : List (List Char)) (line : List Char) :
    Prop :=
  ∃ a gs b, line = a ++ weave nums gs ++ b ∧ gs.length + 1 = nums.length ∧
    (∀ n ∈ nums, IsNumber dig point n) ∧ (∀ c ∈ a, Plain dig point c) ∧ (∀ c ∈ b, Plain dig point c) ∧
    ∀ g ∈ gs, g ≠ [] ∧ (∀ c ∈ g, Plain dig point c) ∧ SepMeans g sep

/-- With digits on both sides of the point. -/
def Fractional (dig : Char → Bool) (point : Char) (s : List Char) : Prop :=
  ∃ sg a b ex, Sign sg ∧ Digits dig a ∧ Digits dig b ∧ Exponent dig ex ∧ s = sg ++ a ++ point :: b ++ ex

/-- On this line the numbers with this point are the fewer (with a dot they may be as many). -/
def FewerWith (dig : Char → Bool) (point : Char) (line : List Char) : Prop :=
  ∀ ds cs, Tokens dig '.' line ds → Tokens dig ',' line cs →
    if point = '.' then ds.length ≤ cs.length else point = ',' ∧ cs.length < ds.length

/-- What is asked of the class of digits: the other characters of numbers and whitespace are
not in it. -/
def DigitClass (dig : Char → Bool) : Prop :=
  (∀ c ∈ ['-', '+', '.', ',', 'e', 'E'], dig c = false) ∧ ∀ c, pySpace c = true → dig c = false

end CP.Spec
