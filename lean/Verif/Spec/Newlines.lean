import Verif.Spec.Text
import Verif.Model.Lazy
/-!
# Line ends
-/

namespace CP.Spec

/-- The end of a line in files of Unix, and of Windows. -/
def LineEnd (e : List Char) : Prop := e = ['\n'] ∨ e = ['\r', '\n']

/-- Texts with the same lines, that may differ in the ends of lines.  The last line may have
no end (in both texts). -/
inductive SameLines : List Char → List Char → Prop
  | last {l} : '\n' ∉ l → '\r' ∉ l → SameLines l l
  | cons {l e e' t t'} : '\n' ∉ l → '\r' ∉ l → LineEnd e → LineEnd e' → SameLines t t' →
      SameLines (l ++ e ++ t) (l ++ e' ++ t')

/-- A text of lines, that all have this end, and a last one without. -/
def withEnds (e : List Char) (ls : List (List Char)) (last : List Char) : List Char :=
  (ls.map (· ++ e)).flatten ++ last

/-- A codec that leaves the ends of lines alone, as those that extend ASCII do: they are
decoded to themselves, and nothing else in a line is decoded to them, and so for encoding. -/
structure KeepsLineEnds (c : Codec) : Prop where
  decode_end : ∀ b e, LineEnd e → '\n' ∉ b → '\r' ∉ b → c.decode (b ++ e) = (c.decode b).map (· ++ e)
  decode_free : ∀ b t, '\n' ∉ b → '\r' ∉ b → c.decode b = .ok t → '\n' ∉ t ∧ '\r' ∉ t
  encode_free : ∀ t b, '\n' ∉ t → '\r' ∉ t → c.encode t = .ok b → '\n' ∉ b ∧ '\r' ∉ b

end CP.Spec
