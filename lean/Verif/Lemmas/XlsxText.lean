import Verif.Model.Xlsx
import Verif.Spec.XlsxSheet
import Verif.Lemmas.ReadXl
/-!
# Lemmas about text in xlsx files
-/

namespace CP
open Spec

theorem hexVal_some {c : Char} {n : Nat} : hexVal c = some n ↔ hexDigit c < 16 ∧ n = hexDigit c := by
  unfold hexVal hexDigit
  dsimp only
  split
  · simp; omega
  · split
    · simp; omega
    · split
      · simp; omega
      · simp

/-- A match at the start. -/
theorem escapeAt_some {s : List Char} {n : Nat} : escapeAt s = some n ↔ ∃ e r, Escape e n ∧ s = e ++ r := by
  constructor
  · intro h
    unfold escapeAt at h
    split at h
    · rename_i c0 c1 a b c d c6 r
      split at h
      · rename_i hc
        obtain ⟨rfl, rfl, rfl⟩ := hc
        split at h
        · rename_i a' b' c' d' ha hb hc hd
          obtain ⟨ka, rfl⟩ := hexVal_some.1 ha
          obtain ⟨kb, rfl⟩ := hexVal_some.1 hb
          obtain ⟨kc, rfl⟩ := hexVal_some.1 hc
          obtain ⟨kd, rfl⟩ := hexVal_some.1 hd
          refine ⟨_, r, ⟨a, b, c, d, rfl, ka, kb, kc, kd, ?_⟩, rfl⟩
          have := Option.some.inj h
          omega
        · simp at h
      · simp at h
    · simp at h
  · rintro ⟨e, r, ⟨a, b, c, d, rfl, ha, hb, hc, hd, rfl⟩, rfl⟩
    have h1 := hexVal_some.2 ⟨ha, rfl⟩
    have h2 := hexVal_some.2 ⟨hb, rfl⟩
    have h3 := hexVal_some.2 ⟨hc, rfl⟩
    have h4 := hexVal_some.2 ⟨hd, rfl⟩
    show escapeAt ('_' :: 'x' :: a :: b :: c :: d :: '_' :: r) = _
    unfold escapeAt
    dsimp only
    rw [if_pos ⟨rfl, rfl, rfl⟩, h1, h2, h3, h4]
    dsimp only
    congr 1; omega

theorem unescapeLoop_skip (e r : List Char) (k : Nat) (h : e.length = k) : unescapeLoop k (e ++ r) = unescapeLoop 0 r := by
  induction e generalizing k with
  | nil => subst h; rfl
  | cons c e ih =>
    subst h
    rw [List.cons_append, List.length_cons, unescapeLoop]
    exact ih _ rfl

theorem unescaped_eq {s t : List Char} (h : Unescaped s t) : unescape s = t := by
  unfold unescape
  induction h with
  | nil => rfl
  | @esc e n rest t he _ ih =>
    have hm := escapeAt_some.2 ⟨e, rest, he, rfl⟩
    obtain ⟨a, b, c, d, rfl, _⟩ := he
    rw [List.cons_append, unescapeLoop]
    rw [List.cons_append] at hm
    rw [hm]
    dsimp only
    rw [unescapeLoop_skip _ _ 6 rfl, ih]
  | @char c rest t hn _ ih =>
    rw [unescapeLoop]
    have : escapeAt (c :: rest) = none := by
      cases h : escapeAt (c :: rest) with
      | none => rfl
      | some n =>
        obtain ⟨e, r, h1, h2⟩ := escapeAt_some.1 h
        exact absurd ⟨e, n, r, h1, h2⟩ hn
    rw [this, ih]

/-- Each text stands for some text. -/
theorem unescaped_exists (s : List Char) : ∃ t, Unescaped s t := by
  induction h : s.length using Nat.strongRecOn generalizing s with
  | _ n ih =>
    subst h
    cases s with
    | nil => exact ⟨[], .nil⟩
    | cons c rest =>
      by_cases h : ∃ e n r, Escape e n ∧ c :: rest = e ++ r
      · obtain ⟨e, n, r, h1, h2⟩ := h
        obtain ⟨t, ht⟩ := ih r.length (by
          obtain ⟨_, _, _, _, rfl, _⟩ := h1
          rw [h2]; simp; omega) r rfl
        rw [h2]
        exact ⟨_, .esc h1 ht⟩
      · obtain ⟨t, ht⟩ := ih rest.length (by simp) rest rfl
        exact ⟨_, .char h ht⟩

theorem xmlSpace_iff {c : Char} : xmlSpace c = true ↔ XmlBlank c := by
  simp [xmlSpace, XmlBlank, or_assoc]

theorem trimmed_eq {s t : List Char} (h : XmlTrimmed s t) : xmlStrip s = t := by
  obtain ⟨a, b, rfl, ha, hb, h1, h2⟩ := h
  unfold xmlStrip
  have f1 : ∀ c, t.head? = some c → xmlSpace c = false := fun c hc => by
    have := mt xmlSpace_iff.1 (h1 c hc); simpa using this
  have f2 : ∀ c, t.getLast? = some c → xmlSpace c = false := fun c hc => by
    have := mt xmlSpace_iff.1 (h2 c hc); simpa using this
  rw [List.append_assoc, dropWhile_all fun c hc => xmlSpace_iff.2 (ha c hc)]
  by_cases ht : t = []
  · subst ht
    have h3 := dropWhile_all (p := xmlSpace) (s := b) (t := []) fun c hc => xmlSpace_iff.2 (hb c hc)
    rw [List.append_nil] at h3
    rw [List.nil_append, h3]
    rfl
  · have h3 : (t ++ b).dropWhile xmlSpace = t ++ b := dropWhile_head fun c hc => by
      rw [List.head?_append, Option.or_of_isSome (by simpa using ht)] at hc
      exact f1 c hc
    rw [h3, List.reverse_append, dropWhile_all fun c hc => xmlSpace_iff.2 (hb c (by simpa using hc)),
      dropWhile_head fun c hc => f2 c (by simpa using hc), List.reverse_reverse]

theorem textOf_eq {e : Elem} {t : List Char} (h : TextOf e t) : cookedText e = t := by
  unfold cookedText
  unfold TextOf Preserves at h
  rcases h with ⟨h1, rfl⟩ | ⟨s, h1, ⟨h2, h3⟩ | ⟨h2, u, h3, h4⟩⟩
  · rw [h1]
  · rw [h1]
    dsimp only
    rw [if_pos h2, unescaped_eq h3]
  · rw [h1]
    dsimp only
    rw [if_neg h2, trimmed_eq h3, unescaped_eq h4]

theorem textsOf_eq {es : List Elem} {t : List Char} (h : TextsOf es t) : es.flatMap cookedText = t := by
  induction h with
  | nil => rfl
  | cons h1 _ ih => rw [List.flatMap_cons, textOf_eq h1, ih]

theorem siText_nodes (e : Elem) : siText e = (textNodes e).flatMap cookedText := by
  unfold siText textNodes
  rw [List.flatMap_assoc]
  congr 1
  funext c
  split
  · simp
  · split
    · induction c.children with
      | nil => rfl
      | cons x xs ih =>
        rw [List.flatMap_cons, ih]
        by_cases h : x.tag = ssml ['t'] <;> simp [h]
    · rfl

theorem itemText_eq {e : Elem} {t : List Char} (h : ItemText e t) : siText e = t := by
  rw [siText_nodes, textsOf_eq h]

/-! ## Elements in a tree -/

mutual
theorem mem_ends (x : Elem) : (e : Elem) → (x ∈ e.ends ↔ x ∈ e.iter)
  | .mk t a s cs => by
    rw [Elem.ends, Elem.iter, List.mem_append, mem_endsList x cs, List.mem_singleton, List.mem_cons]
    exact Or.comm
theorem mem_endsList (x : Elem) : (es : List Elem) → (x ∈ endsList es ↔ x ∈ iterList es)
  | [] => by rw [endsList, iterList]
  | e :: es => by rw [endsList, iterList, List.mem_append, List.mem_append, mem_ends x e, mem_endsList x es]
end

theorem endsList_append (a b : List Elem) : endsList (a ++ b) = endsList a ++ endsList b := by
  induction a with
  | nil => rfl
  | cons e a ih => rw [List.cons_append, endsList, endsList, ih, List.append_assoc]

theorem iterList_append (a b : List Elem) : iterList (a ++ b) = iterList a ++ iterList b := by
  induction a with
  | nil => rfl
  | cons e a ih => rw [List.cons_append, iterList, iterList, ih, List.append_assoc]

theorem ends_eq (e : Elem) : e.ends = endsList e.children ++ [e] := by
  cases e; rw [Elem.ends]; rfl

theorem iter_eq (e : Elem) : e.iter = e :: iterList e.children := by
  cases e; rw [Elem.iter]; rfl

end CP
