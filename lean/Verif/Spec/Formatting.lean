/-!
# Specification: what counts in a number format
-/

namespace CP.Spec

/-- The characters that count in a format: not quoted text (up to the closing quote, or the
end), not a character after a backslash, an underscore or an asterisk, and none of `$-+/(): `. -/
inductive Visible : List Char → List Char → Prop
  | nil : Visible [] []
  | quoted {q rest v} : '"' ∉ q → Visible rest v → Visible ('"' :: (q ++ '"' :: rest)) v
  | unclosed {q} : '"' ∉ q → Visible ('"' :: q) []
  | escaped {m c rest v} : m = '\\' ∨ m = '_' ∨ m = '*' → Visible rest v → Visible (m :: c :: rest) v
  | escape {m} : m = '\\' ∨ m = '_' ∨ m = '*' → Visible [m] []
  | skip {c rest v} : c ∈ "$-+/(): ".toList → Visible rest v → Visible (c :: rest) v
  | char {c rest v} : c ∉ "\"\\_*$-+/(): ".toList → Visible rest v → Visible (c :: rest) (c :: v)

/-- Without the sections in square brackets.  (A section goes up to the next closing bracket;
an opening bracket without one stays.) -/
inductive Unbracketed : List Char → List Char → Prop
  | nil : Unbracketed [] []
  | section {x rest v} : ']' ∉ x → Unbracketed rest v → Unbracketed ('[' :: (x ++ ']' :: rest)) v
  | unclosed {rest} : ']' ∉ rest → Unbracketed ('[' :: rest) ('[' :: rest)
  | char {c rest v} : c ≠ '[' → Unbracketed rest v → Unbracketed (c :: rest) (c :: v)

/-- The letters of date and time fields. -/
def dateLetter (c : Char) : Bool := "ymdhsYMDHS".toList.contains c

/-- The placeholders of digits. -/
def digitPlace (c : Char) : Bool := "0#?".toList.contains c

/-- A date format: there are more letters of date fields than placeholders of digits. -/
def DateFormat (fmt : List Char) : Prop :=
  ∃ v w, Visible fmt v ∧ Unbracketed v w ∧ w.countP digitPlace < w.countP dateLetter

end CP.Spec
