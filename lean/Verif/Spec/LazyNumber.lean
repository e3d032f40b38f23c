import Verif.Spec.TextNumber
import Verif.Model.Lazy
/-!
# What the channels of numerical data are made of

Of the model only the types `Codec`, `TFile`, `Val` are used.
-/

namespace CP.Spec

/-- A float. -/
def Numeric (v : Val) : Prop := (∃ q, v = .flt q) ∨ v = .nan ∨ ∃ neg, v = .inf neg

/-- Text. -/
def Textual (v : Val) : Prop := (∃ s, v = .str s) ∨ ∃ b, v = .bytes b

/-- The lines that are looked at: the first `n` from where the stream is, nothing for those that are not there;
lines of bytes are decoded. -/
def LookedAt (codec : Option Codec) (f : TFile) (n : Nat) (lines : List (List Char)) : Prop :=
  ∃ ls, LinesOf (f.chars.drop f.pos) ls ∧ lines.length = n ∧
    ∀ (i : Nat) l, lines[i]? = some l → match codec with
      | none => l = ls[i]?.getD []
      | some c => c.decode (ls[i]?.getD []) = .ok l

/-- The delimiter as it is looked for in the stream: encoded in one of bytes. -/
def Sent (codec : Option Codec) (found sent : Option (List Char)) : Prop :=
  match codec, found with
  | some c, some s => ∃ t, c.encode s = .ok t ∧ sent = some t
  | _, _ => sent = found

/-- How the fields of the stream are taken: as text or bytes. -/
def StreamOf (codec : Option Codec) (h : Hint) : Prop := h = if codec.isSome then .bytes else .text

end CP.Spec
