import Verif.Spec.StringParts
import Verif.Props.SstSplit
import Verif.Lemmas.XlsSheet
/-!
# C67: exactly which records are read as the text of a formula
-/

namespace CP
open Spec

variable {σ : Type}

theorem byteUnits (x : UInt8) : utf16Units (Char.ofNat x.toNat) = [x.toNat] := by
  have hx : x.toNat < 256 := x.toNat_lt
  have e : (Char.ofNat x.toNat).toNat = x.toNat := by
    unfold Char.ofNat
    rw [dif_pos (Or.inl (by omega))]
    rfl
  unfold utf16Units
  rw [e, if_pos (by omega)]

theorem decodeChars_iff {wide : Bool} {b : Bytes} {s : List Char} :
    decodeChars wide b = .ok s ↔ UnitBytes wide (textUnits s) b := by
  refine ⟨fun h => ?_, decodeChars_units⟩
  unfold decodeChars at h
  unfold UnitBytes
  cases wide with
  | true =>
    rw [if_pos rfl] at h ⊢
    refine ⟨fun u hu => ?_, utf16le_sound h⟩
    obtain ⟨c, _, hc⟩ := List.mem_flatMap.1 hu
    have hm : c.toNat < 0x110000 := by
      have := c.valid
      unfold UInt32.isValidChar Nat.isValidChar at this
      have e2 : c.val.toNat = c.toNat := rfl
      rw [e2] at this
      omega
    unfold utf16Units at hc
    split at hc
    · simp only [List.mem_singleton] at hc; omega
    · simp only [List.mem_cons, List.not_mem_nil, or_false] at hc; omega
  | false =>
    rw [if_neg (by decide)] at h ⊢
    cases h
    have e : textUnits (latin1 b) = b.map UInt8.toNat := by
      unfold textUnits latin1
      induction b with
      | nil => rfl
      | cons x b ih => rw [List.map_cons, List.flatMap_cons, byteUnits, ih]; rfl
    rw [e]
    refine ⟨fun u hu => ?_, ?_⟩
    · obtain ⟨x, _, rfl⟩ := List.mem_map.1 hu
      exact x.toNat_lt
    · rw [List.map_map]
      have : (UInt8.ofNat ∘ UInt8.toNat) = id := funext fun x => by simp
      rw [this, List.map_id]

theorem leBytes_back (b : Bytes) : leBytes b.length (leNat b) = b ∧ leNat b < 256 ^ b.length := by
  induction b with
  | nil => exact ⟨rfl, by decide⟩
  | cons x b ih =>
    have hx : x.toNat < 256 := x.toNat_lt
    rw [List.length_cons, leNat, leBytes, Nat.pow_succ]
    refine ⟨?_, by omega⟩
    rw [show (x.toNat + 256 * leNat b) / 256 = leNat b by omega, ih.1]
    congr 1
    apply UInt8.toNat_inj.1
    simp

theorem strChunk_iff {E : XlsEnv σ} {b : Bytes} {s : List Char} :
    strChunk E b = .ok s ↔ if E.bv < 80 then E.text b = .ok s else PartSays b s := by
  by_cases h : E.bv < 80
  · rw [strChunk5 h, if_pos h]
  · rw [if_neg h]
    cases b with
    | nil =>
      unfold strChunk
      rw [if_neg h]
      exact ⟨fun e => (nomatch e), fun ⟨o, u, e, _⟩ => (nomatch e)⟩
    | cons o b =>
      rw [strChunk8 h, decodeChars_iff]
      exact ⟨fun e => ⟨o, b, rfl, e⟩, fun ⟨o', b', e, hu⟩ => by cases e; exact hu⟩

theorem strLoop_iff {E : XlsEnv σ} {says : Bytes → List Char → Prop} (hs : ∀ b s, strChunk E b = .ok s ↔ says b s) :
    ∀ {after : List Rec} {need : Nat} {b : Bytes} {t : List Char} {k : Nat},
      strLoop E need b after = .ok (t, k) ↔ TextParts says need b after t k := by
  intro after
  induction after with
  | nil =>
    intro need b t k
    rw [strLoop]
    constructor
    · intro h
      cases hc : strChunk E b with
      | error e => rw [hc] at h; cases h
      | ok s =>
        rw [hc] at h
        dsimp only at h
        by_cases h1 : s.length = need
        · rw [if_pos h1] at h; cases h; subst h1; exact .last ((hs _ _).1 hc)
        · rw [if_neg h1] at h
          split at h <;> cases h
    · intro h
      cases h with
      | last h => rw [(hs _ _).2 h]; dsimp only; rw [if_pos rfl]
  | cons r after ih =>
    intro need b t k
    rw [strLoop]
    constructor
    · intro h
      cases hc : strChunk E b with
      | error e => rw [hc] at h; cases h
      | ok s =>
        rw [hc] at h
        dsimp only at h
        by_cases h1 : s.length = need
        · rw [if_pos h1] at h; cases h; subst h1; exact .last ((hs _ _).1 hc)
        · rw [if_neg h1] at h
          by_cases h2 : need < s.length
          · rw [if_pos h2] at h; cases h
          · rw [if_neg h2] at h
            by_cases h3 : r.code ≠ xlContinue
            · rw [if_pos h3] at h; cases h
            · rw [if_neg h3] at h
              cases hl : strLoop E (need - s.length) r.data after with
              | error e => rw [hl] at h; cases h
              | ok p =>
                obtain ⟨s', k'⟩ := p
                rw [hl] at h
                cases h
                have := TextParts.over ((hs _ _).1 hc) (n := need - s.length) (by omega) (Classical.not_not.1 h3) (ih.1 hl)
                rwa [show s.length + (need - s.length) = need by omega] at this
    · intro h
      cases h with
      | last h => rw [(hs _ _).2 h]; dsimp only; rw [if_pos rfl]
      | @over _ s n _ _ t k h1 h2 h3 h4 =>
        rw [(hs _ _).2 h1]
        dsimp only
        rw [if_neg (by omega), if_neg (by omega), if_neg (show ¬ r.code ≠ xlContinue from Classical.not_not.2 h3), Nat.add_sub_cancel_left, ih.2 h4]

/-- C67: a STRING record and those after it are read as a text exactly if they have the parts of that text (one option byte in
each part of BIFF 8; decoded with the code page before), as many characters as the count says; otherwise reading raises an
exception. -/
theorem C67_parts {E : XlsEnv σ} {data : Bytes} {after : List Rec} {t : List Char} {k : Nat} :
    stringContents E data after = .ok (t, k) ↔
      ∃ n rest, data = leBytes (if 30 ≤ E.bv then 2 else 1) n ++ rest ∧ n < 256 ^ (if 30 ≤ E.bv then 2 else 1) ∧
        TextParts (fun b s => if E.bv < 80 then E.text b = .ok s else PartSays b s) n rest after t k := by
  unfold stringContents
  dsimp only
  generalize (if 30 ≤ E.bv then 2 else 1) = m
  have hl : ∀ need b, _ ↔ _ := fun need b =>
    strLoop_iff (E := E) (fun b s => strChunk_iff (E := E) (b := b) (s := s)) (after := after) (need := need) (b := b) (t := t) (k := k)
  constructor
  · intro h
    cases hu : unpackNat m (data.take m) with
    | error e => rw [hu] at h; cases h
    | ok n =>
      rw [hu] at h
      unfold unpackNat at hu
      split at hu
      · rename_i hm
        cases hu
        have hb := leBytes_back (data.take m)
        rw [hm] at hb
        refine ⟨leNat (data.take m), data.drop m, ?_, hb.2, (hl _ _).1 h⟩
        rw [hb.1, List.take_append_drop]
      · cases hu
  · rintro ⟨n, rest, rfl, hn, h⟩
    have e1 : (leBytes m n ++ rest).take m = leBytes m n := List.take_left' (leBytes_length m n)
    have e2 : (leBytes m n ++ rest).drop m = rest := List.drop_left' (leBytes_length m n)
    rw [e1, e2, unpackNat_leBytes hn]
    exact (hl _ _).2 h

/-- A text of two parts, the second with two bytes for each character; and an empty CONTINUE record, which is none. -/
example (E : XlsEnv σ) (h : ¬ E.bv < 80) (after : List Rec) :
    stringContents E [2, 0, 0, 0x61] (toRec (0x3C, [1, 0x62, 0]) :: after) = .ok (['a', 'b'], 1) ∧
    ∀ t k, stringContents E [2, 0, 0, 0x61] (toRec (0x3C, []) :: after) ≠ .ok (t, k) := by
  constructor
  · refine C67_parts.2 ⟨2, [0, 0x61], by rw [if_pos (by omega)]; rfl, by rw [if_pos (by omega)]; decide, ?_⟩
    refine TextParts.over (s := ['a']) (n := 1) (t := ['b']) (k := 0) ?_ (by decide) rfl (TextParts.last (s := ['b']) ?_)
    · rw [if_neg h]
      exact ⟨0, [0x61], rfl, by unfold UnitBytes; decide⟩
    · rw [if_neg h]
      exact ⟨1, [0x62, 0], rfl, by unfold UnitBytes; decide⟩
  · intro t k hh
    unfold stringContents at hh
    rw [if_pos (by omega : 30 ≤ E.bv)] at hh
    have hh : strLoop E 2 [0, 0x61] (toRec (0x3C, []) :: after) = .ok (t, k) := hh
    have e : decodeChars (Wide 0) [0x61] = .ok ['a'] := rfl
    have e0 : strChunk E [] = .error .indexError := by
      unfold strChunk
      rw [if_neg h]
    rw [strLoop, strChunk8 h, e] at hh
    dsimp only [toRec] at hh
    rw [if_neg (by decide), if_neg (by decide), if_neg (by decide), strLoop, e0] at hh
    cases hh

end CP
