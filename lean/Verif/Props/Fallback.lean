import Verif.Model.Fallback
import Verif.Spec.Fallback
import Verif.Lemmas.Preparse
import Verif.Props.Pack
import Verif.Props.PyFloat
/-!
# C91: what is taken for a fallback name
-/

namespace CP
open Spec

theorem first_group (a : Rx) (s : List Char) :
    (Rx.group a).first s = (a.first s).map fun r => (s.take (s.length - r.2.length) :: r.1, r.2) := by
  unfold Rx.first
  rw [Rx.run, List.head?_map]

theorem first_lit_seq (pre : List Char) (b : Rx) (s : List Char) :
    (Rx.seq (.lit pre) b).first s = if pre <+: s then b.first (s.drop pre.length) else none := by
  unfold Rx.first
  rw [Rx.run, run_lit]
  split
  · simp
  · rfl

theorem fallbackDigits_eq (dec : Char → Option Nat) (pre s : List Char) :
    fallbackDigits dec pre s =
      if pre <+: s then
        match s.drop pre.length with
        | [] => none
        | c :: cs => if (dec c).isSome then some (c :: cs.takeWhile fun c => (dec c).isSome) else none
      else none := by
  unfold fallbackDigits
  rw [first_lit_seq]
  split
  · rw [first_group, first_plus]
    cases s.drop pre.length with
    | nil => rfl
    | cons c cs =>
      dsimp only
      split
      · simp only [Option.map_some, Option.bind_some, List.head?_cons, Option.some.injEq]
        have h1 := List.takeWhile_append_dropWhile (p := fun c => (dec c).isSome) (l := cs)
        have h2 : (c :: cs).length - (cs.dropWhile fun c => (dec c).isSome).length = (cs.takeWhile fun c => (dec c).isSome).length + 1 := by
          have h3 := congrArg List.length h1
          rw [List.length_append] at h3
          rw [List.length_cons]; omega
        rw [h2, List.take_succ_cons]
        congr 1
        have h4 := List.take_left (l₁ := cs.takeWhile fun c => (dec c).isSome) (l₂ := cs.dropWhile fun c => (dec c).isSome)
        rw [h1] at h4; exact h4
      · rfl
  · rfl

theorem fallbackDigits_iff {dec : Char → Option Nat} {pre s ds : List Char} :
    fallbackDigits dec pre s = some ds ↔ DigitsAfter dec pre s ds := by
  rw [fallbackDigits_eq]
  constructor
  · intro h
    split at h
    · rename_i hp
      obtain ⟨t, rfl⟩ := hp
      rw [List.drop_left] at h
      cases t with
      | nil => cases h
      | cons c cs =>
        dsimp only at h
        split at h
        · rename_i hc
          cases h
          refine ⟨cs.dropWhile fun c => (dec c).isSome, ?_, by simp, ?_, ?_⟩
          · rw [List.append_assoc, List.cons_append, List.takeWhile_append_dropWhile]
          · intro x hx
            rcases List.mem_cons.1 hx with rfl | hx
            · exact hc
            · have := List.all_takeWhile (l := cs) (p := fun c => (dec c).isSome)
              exact List.all_eq_true.1 this x hx
          · intro x hx
            have := List.head?_dropWhile_not (fun c => (dec c).isSome) cs
            rw [hx] at this
            simpa using this
        · cases h
    · cases h
  · rintro ⟨rest, rfl, h1, h2, h3⟩
    rw [if_pos ⟨ds ++ rest, by simp⟩, List.append_assoc, List.drop_left]
    cases ds with
    | nil => exact absurd rfl h1
    | cons c cs =>
      dsimp only [List.cons_append]
      rw [if_pos (h2 c (by simp))]
      congr 2
      rw [List.takeWhile_append_of_pos (fun x hx => h2 x (by simp [hx]))]
      cases rest with
      | nil => simp
      | cons x xs => rw [List.takeWhile_cons, h3 x rfl]; simp

theorem digitsAfter_unique {dec : Char → Option Nat} {pre s ds es : List Char} (h : DigitsAfter dec pre s ds) (h' : DigitsAfter dec pre s es) :
    ds = es := by
  rw [← fallbackDigits_iff] at h h'
  rw [h] at h'; cases h'; rfl

theorem foldDigits (dec : Char → Option Nat) (ds : List Char) (acc : Nat) :
    ds.foldl (fun acc c => 10 * acc + (dec c).getD 0) acc = acc * 10 ^ ds.length + digitsValue dec ds := by
  induction ds generalizing acc with
  | nil => simp [digitsValue]
  | cons c cs ih =>
    rw [List.foldl_cons, ih]
    simp only [digitsValue, List.length_cons, Nat.pow_succ, Nat.add_mul]
    have : 10 * acc * 10 ^ cs.length = acc * (10 ^ cs.length * 10) := by
      rw [Nat.mul_comm 10 acc, Nat.mul_assoc, Nat.mul_comm 10]
    omega

theorem intOfDigits_eq (dec : Char → Option Nat) (limit : Option Nat) (ds : List Char) :
    ((∀ n, limit = some n → ds.length ≤ n) ∧ intOfDigits dec limit ds = .ok (digitsValue dec ds)) ∨
    ((∃ n, limit = some n ∧ n < ds.length) ∧ intOfDigits dec limit ds = .error .valueError) := by
  unfold intOfDigits
  rw [foldDigits, Nat.zero_mul, Nat.zero_add]
  cases limit with
  | none => exact .inl ⟨fun n h => (by cases h), rfl⟩
  | some n =>
    by_cases h : n < ds.length
    · exact .inr ⟨⟨n, rfl, h⟩, by simp [h]⟩
    · exact .inl ⟨fun m hm => by cases hm; omega, by simp [h]⟩

/-- C91, exactly: what `pack(s)` finds for a str that is not a name.  Digits of any script after the prefix, whatever follows them, are
the number of the channel; it is ValueError if there are more of them than `int` takes, and else KeyError. -/
theorem C91_exact (dec : Char → Option Nat) (limit : Option Nat) (p : Pack) (s : List Char) (hn : ∀ x ∈ p.names, x.2 ≠ .str s) :
    (∀ k, p.datakeyPy dec limit (.str s) = .ok k ↔
      ∃ ds, DigitsAfter dec p.pre s ds ∧ (∀ n, limit = some n → ds.length ≤ n) ∧ k = (digitsValue dec ds : Nat) ∧ k ∈ dkeys p.data) ∧
    (∀ e, p.datakeyPy dec limit (.str s) = .error e ↔
      (e = .valueError ∧ ∃ ds n, DigitsAfter dec p.pre s ds ∧ limit = some n ∧ n < ds.length) ∨
      (e = .keyError ∧ ∀ ds, DigitsAfter dec p.pre s ds →
        (∀ n, limit = some n → ds.length ≤ n) ∧ ((digitsValue dec ds : Nat) : Int) ∉ dkeys p.data)) := by
  unfold Pack.datakeyPy
  dsimp only
  rw [lookupName_none.2 hn]
  dsimp only
  cases hf : fallbackDigits dec p.pre s with
  | none =>
    have hno : ∀ ds, ¬ DigitsAfter dec p.pre s ds := fun ds h => by rw [← fallbackDigits_iff, hf] at h; cases h
    dsimp only
    refine ⟨fun k => ⟨fun h => (by cases h), fun ⟨ds, h, _⟩ => absurd h (hno ds)⟩, fun e => ⟨fun h => ?_, fun h => ?_⟩⟩
    · cases h; exact .inr ⟨rfl, fun ds h => absurd h (hno ds)⟩
    · rcases h with ⟨-, ds, n, h, -⟩ | ⟨rfl, -⟩
      · exact absurd h (hno ds)
      · rfl
  | some ds =>
    have hd := fallbackDigits_iff.1 hf
    have hu : ∀ es, DigitsAfter dec p.pre s es → es = ds := fun es h => digitsAfter_unique h hd
    dsimp only
    rcases intOfDigits_eq dec limit ds with ⟨h1, h2⟩ | ⟨⟨n, h0, h1⟩, h2⟩
    · rw [h2]
      dsimp only
      by_cases hk : ((digitsValue dec ds : Nat) : Int) ∈ dkeys p.data
      · rw [if_pos (dget_isSome.2 hk)]
        refine ⟨fun k => ⟨fun h => ?_, fun ⟨es, h, _, h3, _⟩ => ?_⟩, fun e => ⟨fun h => ?_, fun h => ?_⟩⟩
        · cases h; exact ⟨ds, hd, h1, rfl, hk⟩
        · rw [h3, hu es h]
        · cases h
        · rcases h with ⟨-, es, n, h, h3, h4⟩ | ⟨-, h⟩
          · have := h1 n h3; rw [hu es h] at h4; omega
          · exact absurd hk (h ds hd).2
      · rw [if_neg (fun h => hk (dget_isSome.1 h))]
        refine ⟨fun k => ⟨fun h => ?_, fun ⟨es, h, _, h3, h4⟩ => ?_⟩, fun e => ⟨fun h => ?_, fun h => ?_⟩⟩
        · cases h
        · rw [h3, hu es h] at h4; exact absurd h4 hk
        · cases h; exact .inr ⟨rfl, fun es h => by rw [hu es h]; exact ⟨h1, hk⟩⟩
        · rcases h with ⟨-, es, n, h, h3, h4⟩ | ⟨rfl, h⟩
          · have := h1 n h3; rw [hu es h] at h4; omega
          · rfl
    · rw [h2]
      dsimp only
      refine ⟨fun k => ⟨fun h => ?_, fun ⟨es, h, h3, _⟩ => ?_⟩, fun e => ⟨fun h => ?_, fun h => ?_⟩⟩
      · cases h
      · have := h3 n h0; rw [hu es h] at this; omega
      · cases h; exact .inl ⟨rfl, ds, n, hd, h0, h1⟩
      · rcases h with ⟨rfl, -⟩ | ⟨-, h⟩
        · rfl
        · have := (h ds hd).1 n h0; omega

theorem dec_ascii {dec : Char → Option Nat} (hd : Decimals dec) {c : Char} (h : DecDigit c) : dec c = some (c.toNat - 48) := by
  rw [hd.ascii c (by have := h.2; omega), if_pos]
  · rfl
  · exact ⟨h.1, h.2⟩

theorem digitsValue_plain {dec : Char → Option Nat} (hd : Decimals dec) {t : List Char} (h : ∀ c ∈ t, DecDigit c) : digitsValue dec t = decValue t := by
  induction t with
  | nil => rfl
  | cons c cs ih =>
    rw [digitsValue, decValue, ih (fun x hx => h x (by simp [hx])), dec_ascii hd (h c (by simp))]; rfl

theorem decDigit_iff {c : Char} : (asciiDec c).isSome = true ↔ DecDigit c := by
  unfold asciiDec DecDigit
  have : ('0' ≤ c ∧ c ≤ '9') ↔ 48 ≤ c.toNat ∧ c.toNat ≤ 57 := Iff.rfl
  split
  · rename_i h; simp [this.1 h]
  · rename_i h; simp only [Option.isSome_none, Bool.false_eq_true, false_iff]; exact fun h' => h (this.2 h')

/-- Ints and names are looked up before that, as in C15; and with the digits of ASCII and no limit it is as there for all. -/
theorem C91_names (dec : Char → Option Nat) (limit : Option Nat) (p : Pack) :
    (∀ k, p.datakeyPy dec limit (.int k) = p.datakey (.int k)) ∧
    (∀ s, (∃ x ∈ p.names, x.2 = .str s) → p.datakeyPy dec limit (.str s) = p.datakey (.str s)) ∧
    (∀ ch, p.datakeyPy asciiDec none ch = p.datakey ch) := by
  have hs : ∀ (dec : Char → Option Nat) (limit : Option Nat) s, (∃ x ∈ p.names, x.2 = .str s) → p.datakeyPy dec limit (.str s) = p.datakey (.str s) := by
    rintro dec limit s ⟨x, hx, hxs⟩
    unfold Pack.datakeyPy Pack.datakey
    dsimp only
    cases hl : lookupName p.data s p.names with
    | none => exact absurd hxs (lookupName_none.1 hl x hx)
    | some r => rfl
  refine ⟨fun k => rfl, hs dec limit, fun ch => ?_⟩
  cases ch with
  | int k => rfl
  | str s =>
    by_cases hn : ∃ x ∈ p.names, x.2 = .str s
    · exact hs _ _ _ hn
    · have hn' : ∀ x ∈ p.names, x.2 ≠ .str s := fun x hx h => hn ⟨x, hx, h⟩
      have hm : matchFallback p.pre s = (fallbackDigits asciiDec p.pre s).map (digitsValue asciiDec) := by
        cases hf : fallbackDigits asciiDec p.pre s with
        | some ds =>
          obtain ⟨rest, h1, h2, h3, h4⟩ := fallbackDigits_iff.1 hf
          have h5 : ∀ c ∈ ds, DecDigit c := fun c hc => decDigit_iff.1 (h3 c hc)
          refine matchFallback_iff.2 ⟨ds, rest, h1, h2, h5, fun c hc hd => ?_, ?_⟩
          · have := decDigit_iff.2 hd
            rw [h4 c hc] at this; cases this
          · exact digitsValue_plain asciiDec_decimals h5
        | none =>
          cases hg : matchFallback p.pre s with
          | none => rfl
          | some k =>
            obtain ⟨ds, rest, h1, h2, h3, h4, -⟩ := matchFallback_iff.1 hg
            have : fallbackDigits asciiDec p.pre s = some ds := fallbackDigits_iff.2
              ⟨rest, h1, h2, fun c hc => decDigit_iff.2 (h3 c hc), fun c hc => by
                cases hx : asciiDec c with
                | none => rfl
                | some v => exact absurd (decDigit_iff.1 (by rw [hx]; rfl)) (h4 c hc)⟩
            rw [hf] at this; cases this
      unfold Pack.datakeyPy Pack.datakey
      dsimp only
      rw [lookupName_none.2 hn', hm]
      cases fallbackDigits asciiDec p.pre s with
      | none => rfl
      | some ds =>
        rcases intOfDigits_eq asciiDec none ds with ⟨-, h⟩ | ⟨⟨n, h, -⟩, -⟩
        · dsimp only [Option.map_some]; rw [h]
        · cases h

/-- C91 as the documentation has it ("Everything after this prefix is assumed to be a number"; "KeyError: If `ch` do not evaluate to a key in the
data dict"): a str that is not a name finds channel `k` if it is the prefix and the number `k`, and else is a KeyError.  With `all` for every
str, else if what follows the prefix is a number as one would write it, or does not begin with a digit. -/
def OnlyFallbackNames (all : Bool) : Prop :=
  ∀ dec, Decimals dec → ∀ (limit : Option Nat) (p : Pack) (s : List Char), (∀ x ∈ p.names, x.2 ≠ .str s) →
    (all = false → ∀ t, s = p.pre ++ t → (PlainNumber t ∧ ∀ n, limit = some n → t.length ≤ n) ∨ ∀ c, t.head? = some c → dec c = none) →
    (∀ t, s = p.pre ++ t → PlainNumber t → ((decValue t : Nat) : Int) ∈ dkeys p.data → p.datakeyPy dec limit (.str s) = .ok (decValue t : Nat)) ∧
    ((∀ t, s = p.pre ++ t → PlainNumber t → ((decValue t : Nat) : Int) ∉ dkeys p.data) → p.datakeyPy dec limit (.str s) = .error .keyError)

theorem plain_digitsAfter {dec : Char → Option Nat} (hd : Decimals dec) {pre t : List Char} (h : PlainNumber t) : DigitsAfter dec pre (pre ++ t) t :=
  ⟨[], by simp, h.1, fun c hc => by rw [dec_ascii hd (h.2.1 c hc)]; rfl, fun c hc => by cases hc⟩

/-- C91, the part that holds.  (Missing: digits with something after them, digits of other scripts, zeros before other digits, and
more digits than `int` takes.) -/
theorem C91_fallback_partial : OnlyFallbackNames false := by
  intro dec hd limit p s hn hs
  obtain ⟨h1, h2⟩ := C91_exact dec limit p s hn
  refine ⟨fun t ht hp hk => ?_, fun h => ?_⟩
  · subst ht
    refine (h1 _).2 ⟨t, plain_digitsAfter hd hp, ?_, by rw [digitsValue_plain hd hp.2.1], hk⟩
    rcases hs rfl t rfl with ⟨-, h⟩ | h
    · exact h
    · cases t with
      | nil => exact absurd rfl hp.1
      | cons c cs =>
        have := h c rfl
        rw [dec_ascii hd (hp.2.1 c (by simp))] at this; cases this
  · refine (h2 _).2 (.inr ⟨rfl, fun ds hds => ?_⟩)
    obtain ⟨rest, e, g1, g2, g3⟩ := hds
    rw [List.append_assoc] at e
    rcases hs rfl _ e with ⟨hp, hl⟩ | hno
    · have := digitsAfter_unique (plain_digitsAfter hd (pre := p.pre) hp) ⟨rest, by rw [List.append_assoc], g1, g2, g3⟩
      rw [this] at hp hl
      refine ⟨hl, ?_⟩
      rw [digitsValue_plain hd hp.2.1]
      exact h ds (by rw [e, this]) hp
    · cases ds with
      | nil => exact absurd rfl g1
      | cons c cs =>
        have := hno c rfl
        have := g2 c (by simp)
        simp_all

/-- C91 as stated is false: `pack('ch0_speed')` finds channel 0. -/
theorem C91_counterexample : ¬ OnlyFallbackNames true := by
  intro h
  have h1 := (h asciiDec asciiDec_decimals (some 4300) exA "ch0_speed".toList (by decide +kernel) (by intro h; cases h)).2 ?_
  · revert h1; decide +kernel
  · intro t ht hp
    have : t = "0_speed".toList := by
      have h2 : "ch0_speed".toList = exA.pre ++ "0_speed".toList := by decide +kernel
      rw [h2] at ht; exact (List.append_cancel_left ht).symm
    subst this
    exact absurd (hp.2.1 '_' (by decide +kernel)) (by unfold DecDigit; decide +kernel)

/-- More digits than `int` takes raise ValueError, not KeyError. -/
theorem C91_long_counterexample (dec : Char → Option Nat) (hd : Decimals dec) :
    exA.datakeyPy dec (some 4300) (.str ("ch".toList ++ List.replicate 4301 '0')) = .error .valueError := by
  refine ((C91_exact dec (some 4300) exA _ ?_).2 _).2 (.inl ⟨rfl, List.replicate 4301 '0', 4300, ⟨[], ?_, ?_, ?_, ?_⟩, rfl, ?_⟩)
  · decide +kernel
  · rw [List.append_nil]; congr 1
  · rw [List.replicate_succ]; exact List.cons_ne_nil _ _
  · intro c hc
    rw [List.mem_replicate] at hc
    rw [hc.2, dec_ascii hd (by unfold DecDigit; decide)]; rfl
  · intro c hc; cases hc
  · rw [List.length_replicate]; decide

/-- The fallback name of channel 0 is found; there is no channel 1. -/
example : exA.datakeyPy asciiDec (some 4300) (.str "ch0".toList) = .ok 0 ∧ exA.datakeyPy asciiDec (some 4300) (.str "ch1".toList) = .error .keyError := by
  have hp : ∀ c, DecDigit c → PlainNumber [c] := fun c h =>
    ⟨by simp, fun x hx => by rw [List.mem_singleton] at hx; rw [hx]; exact h, fun h => by simp at h; rw [h]⟩
  have e : ∀ c t, "ch".toList ++ [c] = exA.pre ++ t → t = [c] := fun c t h => (List.append_cancel_left (as := "ch".toList) h).symm
  have d0 : PlainNumber ['0'] := hp _ (by unfold DecDigit; decide)
  have d1 : PlainNumber ['1'] := hp _ (by unfold DecDigit; decide)
  refine ⟨(C91_fallback_partial asciiDec asciiDec_decimals (some 4300) exA ("ch".toList ++ ['0']) (by decide +kernel)
    (fun _ t h => .inl (by rw [e _ t h]; exact ⟨d0, fun n hn => by cases hn; simp⟩))).1 ['0'] rfl d0 (by decide +kernel),
    (C91_fallback_partial asciiDec asciiDec_decimals (some 4300) exA ("ch".toList ++ ['1']) (by decide +kernel)
    (fun _ t h => .inl (by rw [e _ t h]; exact ⟨d1, fun n hn => by cases hn; simp⟩))).2 ?_⟩
  intro t h _
  rw [e _ t h]; decide +kernel

end CP
