import Verif.Lemmas.Invariant
import Verif.Spec.Lookup
/-!
# Lemmas about decimal strings, lookup and records
-/

namespace CP
open Spec

theorem isDigit_iff {c : Char} : isDigit c = true ↔ DecDigit c := by
  unfold isDigit digitVal DecDigit
  split <;> simp_all

theorem digitVal_getD {c : Char} (h : DecDigit c) : (digitVal c).getD 0 = c.toNat - 48 := by
  unfold digitVal
  unfold DecDigit at h
  simp [h]

theorem parseNat_acc (ds : List Char) (h : ∀ c ∈ ds, DecDigit c) (acc : Nat) :
    ds.foldl (fun acc c => 10 * acc + (digitVal c).getD 0) acc =
      acc * 10 ^ ds.length + decValue ds := by
  induction ds generalizing acc with
  | nil => simp [decValue]
  | cons c cs ih =>
    rw [List.foldl_cons, ih (fun x hx => h x (List.mem_cons_of_mem _ hx)),
      digitVal_getD (h c (by simp))]
    simp only [decValue, List.length_cons, Nat.pow_succ, Nat.add_mul]
    have : 10 * acc * 10 ^ cs.length = acc * (10 ^ cs.length * 10) := by
      rw [Nat.mul_comm 10 acc, Nat.mul_assoc, Nat.mul_comm 10]
    omega

theorem parseNat_eq {ds : List Char} (h : ∀ c ∈ ds, DecDigit c) : parseNat ds = decValue ds := by
  unfold parseNat
  rw [parseNat_acc ds h]; simp

theorem digitChar_toNat {n : Nat} (h : n < 10) : (digitChar n).toNat = 48 + n := by
  unfold digitChar
  rcases n with _ | _ | _ | _ | _ | _ | _ | _ | _ | _ | n <;> first | rfl | omega

theorem digitChar_decDigit {n : Nat} (h : n < 10) : DecDigit (digitChar n) := by
  unfold DecDigit
  rw [digitChar_toNat h]; omega

theorem decNat_digits (n : Nat) : ∀ c ∈ decNat n, DecDigit c := by
  induction n using Nat.strongRecOn with
  | _ n ih =>
    unfold decNat
    split
    · rename_i h
      intro c hc
      simp only [List.mem_singleton] at hc
      subst hc; exact digitChar_decDigit h
    · rename_i h
      intro c hc
      rcases List.mem_append.1 hc with h1 | h1
      · exact ih (n / 10) (by omega) c h1
      · simp only [List.mem_singleton] at h1
        subst h1; exact digitChar_decDigit (by omega)

theorem decNat_ne_nil (n : Nat) : decNat n ≠ [] := by
  unfold decNat
  split <;> simp

theorem parseNat_snoc (ds : List Char) (c : Char) :
    parseNat (ds ++ [c]) = 10 * parseNat ds + (digitVal c).getD 0 := by
  simp [parseNat]

theorem parseNat_decNat (n : Nat) : parseNat (decNat n) = n := by
  induction n using Nat.strongRecOn with
  | _ n ih =>
    unfold decNat
    split
    · rename_i h
      simp [parseNat, digitVal_getD (digitChar_decDigit h), digitChar_toNat h]
    · rename_i h
      rw [parseNat_snoc, ih (n / 10) (by omega),
        digitVal_getD (digitChar_decDigit (show n % 10 < 10 by omega)),
        digitChar_toNat (show n % 10 < 10 by omega)]
      omega

theorem isPrefixOf_iff {pre ch : List Char} :
    pre.isPrefixOf ch = true ↔ ∃ rest, ch = pre ++ rest := by
  rw [List.isPrefixOf_iff_prefix]
  constructor
  · rintro ⟨r, h⟩; exact ⟨r, h.symm⟩
  · rintro ⟨r, h⟩; exact ⟨r, h.symm⟩

theorem takeWhile_split {α : Type} (f : α → Bool) (l : List α) :
    ∃ rest, l = l.takeWhile f ++ rest ∧ (∀ x ∈ l.takeWhile f, f x = true) ∧
      ∀ c, rest.head? = some c → f c = false := by
  induction l with
  | nil => exact ⟨[], by simp⟩
  | cons x xs ih =>
    obtain ⟨rest, h1, h2, h3⟩ := ih
    cases hx : f x with
    | true =>
      refine ⟨rest, by simp [hx, ← h1], ?_, h3⟩
      intro y hy
      simp only [List.takeWhile_cons, hx, if_true, List.mem_cons] at hy
      rcases hy with h | h
      · rw [h]; exact hx
      · exact h2 y h
    | false =>
      refine ⟨x :: xs, by simp [hx], by simp [hx], ?_⟩
      intro c hc
      simp at hc; subst hc; exact hx

theorem takeWhile_append_stop {α : Type} (f : α → Bool) (ds rest : List α)
    (h1 : ∀ x ∈ ds, f x = true) (h2 : ∀ c, rest.head? = some c → f c = false) :
    (ds ++ rest).takeWhile f = ds := by
  induction ds with
  | nil =>
    cases rest with
    | nil => rfl
    | cons c cs => simp [h2 c rfl]
  | cons x xs ih =>
    simp [h1 x (by simp), ih (fun y hy => h1 y (by simp [hy]))]

theorem matchFallback_iff {pre ch : List Char} {k : Nat} :
    matchFallback pre ch = some k ↔ IsFallback pre ch k := by
  unfold matchFallback
  constructor
  · intro h
    split at h
    · rename_i hp
      obtain ⟨r, rfl⟩ := isPrefixOf_iff.1 hp
      simp only [List.drop_left] at h
      obtain ⟨rest, h1, h2, h3⟩ := takeWhile_split isDigit r
      split at h
      · simp at h
      · rename_i hne
        simp only [Option.some.injEq] at h
        refine ⟨r.takeWhile isDigit, rest, by rw [List.append_assoc, ← h1], ?_, ?_, ?_, ?_⟩
        · intro hh; exact hne hh
        · intro c hc; exact isDigit_iff.1 (h2 c hc)
        · intro c hc hd
          have := h3 c hc
          rw [isDigit_iff.2 hd] at this; simp at this
        · rw [← h, parseNat_eq]
          intro c hc; exact isDigit_iff.1 (h2 c hc)
    · simp at h
  · rintro ⟨ds, rest, rfl, h1, h2, h3, rfl⟩
    have hp : pre.isPrefixOf (pre ++ ds ++ rest) = true :=
      isPrefixOf_iff.2 ⟨ds ++ rest, by simp⟩
    rw [if_pos hp]
    have htw : ((pre ++ ds ++ rest).drop pre.length).takeWhile isDigit = ds := by
      rw [List.append_assoc, List.drop_left]
      apply takeWhile_append_stop
      · intro c hc; exact isDigit_iff.2 (h2 c hc)
      · intro c hc
        have := h3 c hc
        cases hd : isDigit c with
        | false => rfl
        | true => exact absurd (isDigit_iff.1 hd) this
    rw [htw]
    split
    · rename_i hh; exact absurd rfl h1
    · rw [parseNat_eq h2]

theorem lookupName_none {data : List (Int × Arr)} {s : List Char} {names : List (Int × Val)} :
    lookupName data s names = none ↔ ∀ x ∈ names, x.2 ≠ .str s := by
  induction names with
  | nil => simp [lookupName]
  | cons x xs ih =>
    obtain ⟨k, v⟩ := x
    unfold lookupName
    split
    · rename_i h; simp [h]
    · rename_i h
      rw [ih]; simp [h]

theorem lookupName_some {data : List (Int × Arr)} {s : List Char} {names : List (Int × Val)}
    {r : Except Exc Int} :
    lookupName data s names = some r ↔
      ∃ key, FirstNamed names s key ∧
        r = if (dget data key).isSome then .ok key else .error .keyError := by
  induction names with
  | nil => simp [lookupName, FirstNamed]
  | cons x xs ih =>
    obtain ⟨k, v⟩ := x
    unfold lookupName
    split
    · rename_i h
      constructor
      · intro h'
        simp only [Option.some.injEq] at h'
        exact ⟨k, ⟨[], xs, by simp [h], by simp⟩, h'.symm⟩
      · rintro ⟨key, ⟨l1, l2, h1, h2⟩, h3⟩
        cases l1 with
        | nil =>
          simp only [List.nil_append, List.cons.injEq, Prod.mk.injEq] at h1
          rw [h1.1.1, h3]
        | cons y ys =>
          simp only [List.cons_append, List.cons.injEq] at h1
          have := h2 y (by simp)
          rw [← h1.1] at this
          exact absurd h this
    · rename_i h
      rw [ih]
      constructor
      · rintro ⟨key, ⟨l1, l2, h1, h2⟩, h3⟩
        refine ⟨key, ⟨(k, v) :: l1, l2, by simp [h1], ?_⟩, h3⟩
        intro x hx
        rcases List.mem_cons.1 hx with h4 | h4
        · rw [h4]; exact h
        · exact h2 x h4
      · rintro ⟨key, ⟨l1, l2, h1, h2⟩, h3⟩
        cases l1 with
        | nil =>
          simp only [List.nil_append, List.cons.injEq, Prod.mk.injEq] at h1
          exact absurd h1.1.2 h
        | cons y ys =>
          simp only [List.cons_append, List.cons.injEq] at h1
          refine ⟨key, ⟨ys, l2, h1.2, ?_⟩, h3⟩
          intro x hx; exact h2 x (by simp [hx])

theorem FirstNamed.unique {names : List (Int × Val)} {s : List Char} {k k' : Int}
    (h : FirstNamed names s k) (h' : FirstNamed names s k') : k = k' := by
  -- both describe what lookupName finds in a dict that has every key
  have h1 := (lookupName_some (data := [(k, ⟨.f, []⟩), (k', ⟨.f, []⟩)])).2 ⟨k, h, rfl⟩
  have h2 := (lookupName_some (data := [(k, ⟨.f, []⟩), (k', ⟨.f, []⟩)])).2 ⟨k', h', rfl⟩
  rw [h1] at h2
  by_cases hk : k = k'
  · exact hk
  · simp [dget, hk] at h2

theorem IsFallback.unique {pre s : List Char} {k k' : Nat}
    (h : IsFallback pre s k) (h' : IsFallback pre s k') : k = k' := by
  have h1 := matchFallback_iff.2 h
  have h2 := matchFallback_iff.2 h'
  rw [h1] at h2; simpa using h2

end CP
