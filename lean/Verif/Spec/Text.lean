import Verif.Model.Text
/-!
# What a text file with delimited data means

Only the types `Val`, `Hint`, `FloatS` of the model are used.
-/

namespace CP.Spec

/-- The lines of a text: no newline but at the end of a line, and only the last one may
lack it. -/
inductive LinesOf : List Char → List (List Char) → Prop
  | nil : LinesOf [] []
  | last {l : List Char} : l ≠ [] → '\n' ∉ l → LinesOf l [l]
  | cons {l t : List Char} {ls} : '\n' ∉ l → LinesOf t ls →
      LinesOf (l ++ '\n' :: t) ((l ++ ['\n']) :: ls)

/-- The ASCII whitespace, in the order of `string.whitespace`. -/
def whites : List Char := [' ', '\t', '\n', '\r', '\x0b', '\x0c']

/-- Padding around a line: whitespace, but not what belongs to the delimiter; not tabs if
there is none. -/
def Pad (d : Option (List Char)) (c : Char) : Prop :=
  c ∈ whites ∧ match d with
    | none => c ≠ '\t'
    | some d => d <:+: whites → c ∉ d

def AllPad (d : Option (List Char)) (s : List Char) : Prop := ∀ c ∈ s, Pad d c

/-- Fields joined by a delimiter. -/
def joined (d : List Char) : List (List Char) → List Char
  | [] => []
  | f :: fs => f ++ (fs.map (d ++ ·)).flatten

/-- In the field followed by the delimiter, the delimiter is found at the end only. -/
def NoDelim (d f : List Char) : Prop := ∀ u v, f ++ d = u ++ d ++ v → v = []

/-- Words between whitespace. -/
inductive Words (ws : Char → Prop) : List (List Char) → List Char → Prop
  | nil {w} : (∀ c ∈ w, ws c) → Words ws [] w
  | cons {w f fs rest} : (∀ c ∈ w, ws c) → f ≠ [] → (∀ c ∈ f, ¬ ws c) →
      (∀ c, rest.head? = some c → ws c) → Words ws fs rest → Words ws (f :: fs) (w ++ f ++ rest)

/-- A line with these fields. -/
inductive HasFields (ws : Char → Prop) : Option (List Char) → List Char → List (List Char) → Prop
  | delim {d pre post fs} : d ≠ [] → fs ≠ [] → (∀ f ∈ fs, NoDelim d f) →
      AllPad (some d) pre → AllPad (some d) post →
      joined d fs ≠ [] → (∀ c, (joined d fs).head? = some c → ¬ Pad (some d) c) →
      (∀ c, (joined d fs).getLast? = some c → ¬ Pad (some d) c) →
      HasFields ws (some d) (pre ++ joined d fs ++ post) fs
  | white {line fs} : fs ≠ [] → Words ws fs line → HasFields ws none line fs

/-- Lines of data, with padding only lines between.  Without a delimiter, a line of whitespace that
is not all padding (a tab, say) is a row without fields. -/
inductive Rows (ws : Char → Prop) (d : Option (List Char)) :
    List (List Char) → List (List (List Char)) → Prop
  | nil : Rows ws d [] []
  | blank {line ls rs} : AllPad d line → Rows ws d ls rs → Rows ws d (line :: ls) rs
  | empty {line ls rs} : d = none → ¬ AllPad d line → (∀ c ∈ line, ws c) → Rows ws d ls rs → Rows ws d (line :: ls) ([] :: rs)
  | row {line ls fs rs} : HasFields ws d line fs → Rows ws d ls rs → Rows ws d (line :: ls) (fs :: rs)

/-- `t` is `s` without the whitespace around. -/
def Trimmed (ws : Char → Prop) (s t : List Char) : Prop :=
  ∃ a b, s = a ++ t ++ b ∧ (∀ c ∈ a, ws c) ∧ (∀ c ∈ b, ws c) ∧
    (∀ c, t.head? = some c → ¬ ws c) ∧ (∀ c, t.getLast? = some c → ¬ ws c)

/-- Whitespace in str, in bytes. -/
def White (h : Hint) (c : Char) : Prop :=
  match h with
  | .text => pySpace c = true
  | _ => c ∈ whites

/-- The value of a field of text. -/
def TextValue (h : Hint) (t : List Char) (v : Val) : Prop :=
  match h with
  | .text => v = .str t
  | .bytes => v = .bytes (t.map fun c => UInt8.ofNat c.toNat)
  | .codec dec => ∃ u, dec t = .ok u ∧ v = .str u

def TextMeans (h : Hint) (strip : Bool) (s : List Char) (v : Val) : Prop :=
  ∃ t, (if strip then Trimmed (White h) s t else t = s) ∧ TextValue h t v

/-- Comma for point. -/
def pointed (s : List Char) : List Char := s.map fun c => if c = ',' then '.' else c

/-- A number with a decimal point, one that needs a decimal comma. -/
def IsNum (fl : FloatS) (s : List Char) : Prop := ∃ v, fl s = some v
def IsCommaNum (fl : FloatS) (s : List Char) : Prop := ¬ IsNum fl s ∧ IsNum fl (pointed s)

/-- What the field `s` of a column means, given the first line of data and its field
`x` in that column. -/
inductive FieldMeans (fl : FloatS) (h : Hint) (strip : Bool) (first : List (List Char))
    (x s : List Char) : Val → Prop
  | missing : (IsNum fl x ∨ IsCommaNum fl x) → s = [] → FieldMeans fl h strip first x s .nan
  | point {v} : (IsNum fl x ∨ IsCommaNum fl x) → s ≠ [] → (¬ ∃ y ∈ first, IsCommaNum fl y) →
      fl s = some v → FieldMeans fl h strip first x s v
  | comma {v} : (IsNum fl x ∨ IsCommaNum fl x) → s ≠ [] → (∃ y ∈ first, IsCommaNum fl y) →
      fl (pointed s) = some v → FieldMeans fl h strip first x s v
  | text {v} : ¬ IsNum fl x → ¬ IsCommaNum fl x → TextMeans h strip s v →
      FieldMeans fl h strip first x s v

/-- The value in column `j`: by the caller's converter if there is one. -/
def CellMeans' (fl : FloatS) (h : Hint) (strip : Bool)
    (convs : List (Int × (List Char → Except Exc Val))) (first : List (List Char)) (j : Nat)
    (s : List Char) (v : Val) : Prop :=
  (∃ f, ((j : Int), f) ∈ convs ∧ f s = .ok v) ∨
  ((∀ f, ((j : Int), f) ∉ convs) ∧ ∃ x, first[j]? = some x ∧ FieldMeans fl h strip first x s v)

end CP.Spec
