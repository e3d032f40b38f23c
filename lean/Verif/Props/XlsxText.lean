import Verif.Spec.XlsxBook
import Verif.Lemmas.XlsxText
/-!
# C62: shared strings of xlsx files
-/

namespace CP
open Spec

theorem each_map {α β : Type} {P : α → β → Prop} {f : α → β} (h : ∀ a b, P a b → f a = b) {as : List α} {bs : List β}
    (h1 : Each P as bs) : as.map f = bs := by
  induction h1 with
  | nil => rfl
  | cons h2 _ ih => rw [List.map_cons, h _ _ h2, ih]

theorem endsList_si {cs : List Elem} (h : ∀ c ∈ cs, ∀ e ∈ iterList c.children, e.tag ≠ ssml ['s', 'i']) :
    ((endsList cs).filter fun e => e.tag = ssml ['s', 'i']) = cs.filter fun e => e.tag = ssml ['s', 'i'] := by
  induction cs with
  | nil => rfl
  | cons c cs ih =>
    rw [endsList, List.filter_append, ih fun x hx => h x (by simp [hx]), ends_eq, List.filter_append]
    have : ((endsList c.children).filter fun e => e.tag = ssml ['s', 'i']) = [] := by
      rw [List.filter_eq_nil_iff]
      intro e he
      simpa using h c (by simp) e ((mem_endsList e c.children).1 he)
    rw [this]
    simp only [List.filter_cons, List.filter_nil]
    split <;> simp

/-- C62: the shared strings are the texts of the `si` elements, in order: for each of them the
texts of its `t` elements and of those in its runs `r`, without those for pronunciation, with
white space at the ends of a `t` cut off unless it is to be preserved, and with escapes
replaced. -/
theorem C62_strings {root : Elem} {strs : List (List Char)} (h : StringsAre root strs) : sharedStrings root = strs := by
  obtain ⟨h1, h2, h3⟩ := h
  unfold sharedStrings
  rw [ends_eq, List.filter_append, endsList_si h2]
  have : ([root].filter fun e => e.tag = ssml ['s', 'i']) = [] := by simp [h1]
  rw [this, List.append_nil]
  exact each_map (fun _ _ h => itemText_eq h) h3

theorem hexVal_hexChar : ∀ k : Fin 16, hexVal (hexChar k.val) = some k.val := by decide

theorem escaped_head (bad : Char → Bool) {s : List Char} (h : s.head? ≠ some 'x') : (escaped bad s).head? ≠ some 'x' := by
  cases s with
  | nil => simp [escaped]
  | cons c cs =>
    rw [escaped]
    split
    · simp
    · simpa using h

theorem escapeAt_hex {c : Char} (hc : c.toNat < 65536) (rest : List Char) :
    escapeAt (['_', 'x', hexChar (c.toNat / 4096), hexChar (c.toNat / 256 % 16), hexChar (c.toNat / 16 % 16),
      hexChar (c.toNat % 16), '_'] ++ rest) = some c.toNat := by
  have h1 := hexVal_hexChar ⟨c.toNat / 4096, by omega⟩
  have h2 := hexVal_hexChar ⟨c.toNat / 256 % 16, by omega⟩
  have h3 := hexVal_hexChar ⟨c.toNat / 16 % 16, by omega⟩
  have h4 := hexVal_hexChar ⟨c.toNat % 16, by omega⟩
  dsimp only at h1 h2 h3 h4
  simp only [List.cons_append, escapeAt, and_self, if_true, h1, h2, h3, h4]
  congr 1
  omega

/-- C62: text that a program writes with escapes is read as it was, if it escapes at least
each underscore before an `x` (of the characters `bad` it may escape any up to FFFF).  So all
texts can be stored. -/
theorem C62_escapes (bad : Char → Bool) (hb : ∀ c, bad c = true → c.toNat < 65536) (s : List Char) :
    unescape (escaped bad s) = s := by
  unfold unescape
  induction s with
  | nil => rfl
  | cons c cs ih =>
    rw [escaped]
    by_cases hc : bad c = true ∨ (c = '_' ∧ cs.head? = some 'x')
    · rw [if_pos hc]
      have hlt : c.toNat < 65536 := by
        rcases hc with h | ⟨rfl, _⟩
        · exact hb c h
        · decide
      have h1 := escapeAt_hex hlt (escaped bad cs)
      rw [List.cons_append] at h1 ⊢
      rw [unescapeLoop, h1]
      dsimp only
      rw [unescapeLoop_skip _ _ 6 rfl, ih, Char.ofNat_toNat]
    · rw [if_neg hc, unescapeLoop]
      have h1 : escapeAt (c :: escaped bad cs) = none := by
        cases he : escapeAt (c :: escaped bad cs) with
        | none => rfl
        | some n =>
          obtain ⟨e, r, ⟨a, b, c', d, rfl, _⟩, h2⟩ := escapeAt_some.1 he
          simp only [List.cons_append, List.nil_append, List.cons.injEq] at h2
          obtain ⟨rfl, h2⟩ := h2
          have h3 : cs.head? ≠ some 'x' := fun h => hc (Or.inr ⟨rfl, h⟩)
          exact absurd (by rw [h2]; rfl) (escaped_head bad h3)
      rw [h1, ih]

/-- C62: a `t` element with text so written and with white space preserved has that text. -/
theorem C62_round_trip (bad : Char → Bool) (hb : ∀ c, bad c = true → c.toNat < 65536) {e : Elem} (s : List Char)
    (h1 : e.text = some (escaped bad s)) (h2 : Preserves e) : cookedText e = s := by
  unfold cookedText
  rw [h1]
  dsimp only
  unfold Preserves at h2
  rw [if_pos h2, C62_escapes bad hb]

/-- A writer that escapes only underscores that would start an escape as the text stands
might lose text: an escaped character can make one out of what is before it. -/
theorem C62_counterexample : unescape (['_', 'x', '0', '0', '4', '1'] ++ ['_', 'x', '0', '0', '0', '1', '_']) =
    ['A', 'x', '0', '0', '0', '1', '_'] := by decide +kernel

/-! ## Examples -/

/-- `<si><t xml:space="preserve"> a</t></si>`, an item with two runs and one for pronunciation, an
escape -/
def exStrings : Elem :=
  .mk (ssml ['s', 's', 't']) [] none [
    .mk (ssml ['s', 'i']) [] none [.mk (ssml ['t']) [(⟨.xml, "space".toList⟩, "preserve".toList)] (some [' ', 'a']) []],
    .mk (ssml ['s', 'i']) [] none [
      .mk (ssml ['r']) [] none [.mk (ssml ['t']) [] (some [' ', 'b', '\n']) []],
      .mk (ssml ['r', 'P', 'h']) [] none [.mk (ssml ['t']) [] (some ['z']) []],
      .mk (ssml ['r']) [] none [.mk (ssml ['t']) [] (some "_x000A_".toList) []]]]

theorem exStrings_are : StringsAre exStrings [[' ', 'a'], ['b', '\n']] := by
  refine ⟨by decide +kernel, by decide +kernel, ?_⟩
  refine .cons ?_ (.cons ?_ .nil)
  · refine .cons (t := [' ', 'a']) (u := []) (Or.inr ⟨[' ', 'a'], rfl, Or.inl ⟨by unfold Preserves; decide +kernel, ?_⟩⟩) .nil
    exact .char (by rintro ⟨e, n, r, ⟨a, b, c, d, rfl, _⟩, h⟩; simp at h) (.char (by
      rintro ⟨e, n, r, ⟨a, b, c, d, rfl, _⟩, h⟩; simp at h) .nil)
  · refine .cons (t := ['b']) (u := ['\n']) (Or.inr ⟨[' ', 'b', '\n'], rfl, Or.inr ⟨by unfold Preserves; decide +kernel, ['b'], ?_, ?_⟩⟩)
      (.cons (t := ['\n']) (u := []) (Or.inr ⟨"_x000A_".toList, rfl, Or.inr ⟨by unfold Preserves; decide +kernel, "_x000A_".toList,
        ⟨[], [], by simp, by simp, by simp, ?_, ?_⟩, ?_⟩⟩) .nil)
    · exact ⟨[' '], ['\n'], rfl, by simp [XmlBlank], by simp [XmlBlank], by simp [XmlBlank], by simp [XmlBlank]⟩
    · exact .char (by rintro ⟨e, n, r, ⟨a, b, c, d, rfl, _⟩, h⟩; simp at h) .nil
    · simp [XmlBlank]
    · simp [XmlBlank]
    · have : "_x000A_".toList = ['_', 'x', '0', '0', '0', 'A', '_'] ++ [] := by decide
      rw [this]
      exact .esc (rest := []) (t := []) (n := 10) ⟨'0', '0', '0', 'A', by decide, by decide, by decide, by decide, by decide, by decide⟩ .nil

example : sharedStrings exStrings = [[' ', 'a'], ['b', '\n']] := C62_strings exStrings_are
example : ∀ c : Char, (decide (c.toNat < 32)) = true → c.toNat < 65536 := by intro c; simp; omega

end CP
