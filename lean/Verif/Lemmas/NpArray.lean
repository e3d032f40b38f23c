import Verif.Model.NpArray
import Verif.Spec.NpValues
import Verif.Lemmas.Float64
import Verif.Props.Dbf
/-!
# Lemmas about `np.array`
-/

namespace CP
open Spec

/-- The type of an array from the types that occur in it. -/
def kindOf (o u s f i n b : Bool) : Kind :=
  if o then .O else if u then .U else if s then .S else if f then .f else if i && n then .f else if n then .u else if i then .i
  else if b then .b else .f

/-- One more type. -/
theorem kindOf_promote : ∀ (k : Kind), k ∈ [Kind.O, .U, .S, .f, .i, .u, .b] → ∀ o u s f i n b : Bool, (o || u || s || f || i || n || b) = true →
    npPromote (kindOf o u s f i n b) k =
      kindOf (o || k == .O) (u || k == .U) (s || k == .S) (f || k == .f) (i || k == .i) (n || k == .u) (b || k == .b) := by
  intro k hk
  simp only [List.mem_cons, List.not_mem_nil, or_false] at hk
  rcases hk with rfl | rfl | rfl | rfl | rfl | rfl | rfl <;> decide

theorem discover_mem (v : Val) : npDiscover v ∈ [Kind.O, .U, .S, .f, .i, .u, .b] := by
  cases v with
  | int i =>
    rw [show npDiscover (.int i) = if -2 ^ 63 ≤ i ∧ i < 2 ^ 63 then .i else if 0 ≤ i ∧ i < 2 ^ 64 then .u else .O from rfl]
    split
    · simp
    · split
      · simp
      · simp
  | _ => simp [npDiscover]

def anyKind (vals : List Val) (k : Kind) : Bool := vals.any fun v => npDiscover v == k

theorem anyKind_cons (v : Val) (vs : List Val) (k : Kind) : anyKind (v :: vs) k = (npDiscover v == k || anyKind vs k) := rfl

theorem fold_kind (vs : List Val) : ∀ o u s f i n b : Bool, (o || u || s || f || i || n || b) = true →
    vs.foldl (fun k w => npPromote k (npDiscover w)) (kindOf o u s f i n b) =
      kindOf (o || anyKind vs .O) (u || anyKind vs .U) (s || anyKind vs .S) (f || anyKind vs .f) (i || anyKind vs .i) (n || anyKind vs .u)
        (b || anyKind vs .b) := by
  induction vs with
  | nil => intros; simp [anyKind]
  | cons v vs ih =>
    intro o u s f i n b h
    rw [List.foldl_cons, kindOf_promote _ (discover_mem v) _ _ _ _ _ _ _ h, ih]
    · simp only [anyKind_cons, Bool.or_assoc]
    · revert h; cases o <;> cases u <;> cases s <;> cases f <;> cases i <;> cases n <;> cases b <;> simp

/-- The type of an array, from the types that occur in it. -/
theorem npKind_eq (vals : List Val) : npKind vals =
    kindOf (anyKind vals .O) (anyKind vals .U) (anyKind vals .S) (anyKind vals .f) (anyKind vals .i) (anyKind vals .u) (anyKind vals .b) := by
  cases vals with
  | nil => rfl
  | cons v vs =>
    have h : npDiscover v = kindOf (npDiscover v == .O) (npDiscover v == .U) (npDiscover v == .S) (npDiscover v == .f) (npDiscover v == .i)
        (npDiscover v == .u) (npDiscover v == .b) ∧
        (npDiscover v == .O || npDiscover v == .U || npDiscover v == .S || npDiscover v == .f || npDiscover v == .i || npDiscover v == .u ||
          npDiscover v == .b) = true := by
      have := discover_mem v
      simp only [List.mem_cons, List.not_mem_nil, or_false] at this
      rcases this with e | e | e | e | e | e | e <;> rw [e] <;> decide
    show vs.foldl _ (npDiscover v) = _
    rw [h.1, fold_kind vs _ _ _ _ _ _ _ h.2]
    simp only [anyKind_cons]

theorem anyKind_iff {vals : List Val} {k : Kind} : anyKind vals k = true ↔ ∃ v ∈ vals, npDiscover v = k := by
  unfold anyKind; simp

theorem discover_int {i : Int} : npDiscover (.int i) = if -2 ^ 63 ≤ i ∧ i < 2 ^ 63 then .i else if 0 ≤ i ∧ i < 2 ^ 64 then .u else .O := rfl

theorem discover_number {v : Val} : NpNumber v ↔ npDiscover v = .b ∨ npDiscover v = .i ∨ npDiscover v = .u ∨ npDiscover v = .f := by
  constructor
  · intro h
    cases h with
    | bool b => exact .inl rfl
    | int h1 h2 =>
      rw [discover_int]
      split
      · exact .inr (.inl rfl)
      · split
        · exact .inr (.inr (.inl rfl))
        · omega
    | flt q => exact .inr (.inr (.inr rfl))
    | nan => exact .inr (.inr (.inr rfl))
    | inf s => exact .inr (.inr (.inr rfl))
  · intro h
    cases v with
    | int i =>
      rw [discover_int] at h
      split at h
      · exact .int (by omega) (by omega)
      · split at h
        · exact .int (by omega) (by omega)
        · simp at h
    | flt q => exact .flt q
    | nan => exact .nan
    | inf s => exact .inf s
    | bool b => exact .bool b
    | _ => simp [npDiscover] at h

theorem discover_str {v : Val} : npDiscover v = .U ↔ ∃ s, v = .str s := by
  constructor
  · intro h
    cases v with
    | str s => exact ⟨s, rfl⟩
    | int i =>
      rw [discover_int] at h
      split at h
      · cases h
      · split at h <;> cases h
    | _ => simp [npDiscover] at h
  · rintro ⟨s, rfl⟩; rfl

theorem discover_bytes {v : Val} : npDiscover v = .S ↔ ∃ s, v = .bytes s := by
  constructor
  · intro h
    cases v with
    | bytes s => exact ⟨s, rfl⟩
    | int i =>
      rw [discover_int] at h
      split at h
      · cases h
      · split at h <;> cases h
    | _ => simp [npDiscover] at h
  · rintro ⟨s, rfl⟩; rfl

theorem discover_object {v : Val} : npDiscover v = .O ↔ IsObject v := by
  have h := discover_mem v
  simp only [List.mem_cons, List.not_mem_nil, or_false] at h
  constructor
  · intro e
    refine ⟨fun h => ?_, fun s h => ?_, fun s h => ?_⟩
    · rw [discover_number, e] at h; simp at h
    · subst h; cases e
    · subst h; cases e
  · rintro ⟨h1, h2, h3⟩
    rcases h with e | e | e | e | e | e | e
    · exact e
    · obtain ⟨s, hs⟩ := discover_str.1 e; exact absurd hs (h2 s)
    · obtain ⟨s, hs⟩ := discover_bytes.1 e; exact absurd hs (h3 s)
    all_goals exact absurd (discover_number.2 (by simp [e])) h1

theorem discover_float {v : Val} : npDiscover v = .f ↔ v = .nan ∨ (∃ s, v = .inf s) ∨ ∃ q, v = .flt q := by
  constructor
  · intro h
    cases v with
    | int i =>
      rw [discover_int] at h
      split at h
      · cases h
      · split at h <;> cases h
    | flt q => exact .inr (.inr ⟨q, rfl⟩)
    | nan => exact .inl rfl
    | inf s => exact .inr (.inl ⟨s, rfl⟩)
    | _ => simp [npDiscover] at h
  · rintro (rfl | ⟨s, rfl⟩ | ⟨q, rfl⟩) <;> rfl

theorem discover_i {v : Val} : npDiscover v = .i ↔ ∃ i : Int, v = .int i ∧ -2 ^ 63 ≤ i ∧ i < 2 ^ 63 := by
  constructor
  · intro h
    cases v with
    | int i =>
      rw [discover_int] at h
      split at h
      · rename_i hi; exact ⟨i, rfl, hi⟩
      · split at h <;> cases h
    | _ => simp [npDiscover] at h
  · rintro ⟨i, rfl, h⟩; rw [discover_int, if_pos h]

theorem discover_u {v : Val} : npDiscover v = .u ↔ ∃ i : Int, v = .int i ∧ 2 ^ 63 ≤ i ∧ i < 2 ^ 64 := by
  constructor
  · intro h
    cases v with
    | int i =>
      rw [discover_int] at h
      split at h
      · cases h
      · split at h
        · exact ⟨i, rfl, by omega, by omega⟩
        · cases h
    | _ => simp [npDiscover] at h
  · rintro ⟨i, rfl, h⟩; rw [discover_int, if_neg (by omega), if_pos (by omega)]

theorem dropNuls_same {α : Type} [DecidableEq α] {nul : α} {s : List α} : dropNuls nul s = s ↔ s.getLast? ≠ some nul := by
  unfold dropNuls
  rw [← List.head?_reverse, List.reverse_eq_iff]
  cases s.reverse with
  | nil => simp
  | cons c cs =>
    rw [List.dropWhile_cons]
    by_cases h : c = nul
    · subst h
      simp only [decide_true, if_true, List.head?_cons, ne_eq, not_true, iff_false]
      intro e
      have h1 := congrArg List.length e
      have h2 := (List.dropWhile_sublist (l := cs) (fun x => decide (x = c))).length_le
      simp at h1; omega
    · simp [h]

theorem dropNuls_last {α : Type} [DecidableEq α] (nul : α) (s : List α) :
    (dropNuls nul s).getLast? ≠ some nul ∧ ∃ n, s = dropNuls nul s ++ List.replicate n nul := by
  unfold dropNuls
  constructor
  · rw [List.getLast?_reverse]
    intro h
    have := List.head?_dropWhile_not (fun x => decide (x = nul)) s.reverse
    rw [h] at this
    simp at this
  · have h := List.takeWhile_append_dropWhile (p := fun x => decide (x = nul)) (l := s.reverse)
    refine ⟨(s.reverse.takeWhile (· = nul)).length, ?_⟩
    have h1 : s.reverse.takeWhile (fun x => decide (x = nul)) = List.replicate (s.reverse.takeWhile (· = nul)).length nul := by
      rw [List.eq_replicate_iff]
      refine ⟨rfl, fun b hb => ?_⟩
      have := List.all_eq_true.1 (List.all_takeWhile (l := s.reverse) (p := fun x => decide (x = nul))) b hb
      simpa using this
    have h2 := congrArg List.reverse h
    rw [List.reverse_append, List.reverse_reverse, h1, List.reverse_replicate] at h2
    exact h2.symm

theorem npItems_ok {ft : Rat → List Char} {k : Kind} {vs ws : List Val} :
    npItems ft k vs = .ok ws ↔ Each2 (fun v w => npItem ft k v = .ok w) vs ws := by
  induction vs generalizing ws with
  | nil =>
    constructor
    · intro h; cases h; exact .nil
    · intro h; cases h; rfl
  | cons v vs ih =>
    unfold npItems
    constructor
    · intro h
      split at h
      · cases h
      · rename_i w hw
        split at h
        · cases h
        · rename_i us hus
          cases h
          exact .cons hw (ih.1 hus)
    · intro h
      cases h with
      | cons h1 h2 => rw [h1, ih.2 h2]

end CP
