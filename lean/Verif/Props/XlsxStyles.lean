import Verif.Lemmas.XlsxStyles
import Verif.Props.Xlsx
/-!
# C63: the types of cells by their styles
-/

namespace CP
open Spec

/-- C63: cells with the style number `k` are dates if and only if the format of the `k`-th
`xf` in `cellXfs` is a date format: by the last of the definitions before it, or one of the
built-in date formats.  The `xf` elements elsewhere (in `cellStyleXfs`) do not count, nor do
formats defined after `cellXfs` (in `dxfs`). -/
theorem C63_styles {E : XlEnv} (hE : XlLaws E) {root : Elem} {types : List Nat} (h : StylesAre root types) :
    ∃ st, readStyles E (some root) = .ok st ∧ ∀ k : Nat, dget st.xfMap (k : Int) = (styleTypes types)[k]? := by
  obtain ⟨a, x, b, fs, after, h1, h2, h3, h4, h5, h6, h7, h8, h9⟩ := h
  have hroot : Styles.elem E Styles.init root = .ok Styles.init := by
    have := h1 (.mk root.tag root.attrib root.text []) (by simp [iterList, iter_eq])
    exact styles_quiet E _ this
  obtain ⟨t1, e1, _⟩ := styles_formats hE Styles.init h4 h5 (Or.inl (by simp [Styles.init]))
  obtain ⟨st2, e2, _, g2⟩ := styles_xfs hE fs
    { Styles.init with xfType := some 1, isDate := withFormats Styles.init.isDate fs } h6 h7 rfl rfl
  obtain ⟨t3, e3, _⟩ := styles_formats hE st2 (fun e he => (h8 e he).1) h9 (Or.inr fun e he => (h8 e he).2)
  refine ⟨{ st2 with xfType := t3, isDate := withFormats st2.isDate after }, ?_, fun k => ?_⟩
  · show foldE (Styles.elem E) Styles.init root.iter = _
    rw [iter_eq, foldE, hroot]
    dsimp only
    rw [h2, iterList_append, foldE_append, e1]
    dsimp only
    rw [iterList, foldE_append, iter_eq, foldE, styles_cellXfs E _ h3]
    dsimp only
    rw [e2]
    exact e3
  · show dget st2.xfMap (k : Int) = _
    rw [g2]
    simp only [Styles.init, Nat.not_lt_zero, false_or, Nat.zero_add, Nat.sub_zero]
    unfold styleTypes
    by_cases ht : types = []
    · rw [if_pos ht, if_pos (by simp [ht])]
      cases k with
      | zero => rfl
      | succ k => simp [dget]; omega
    · rw [if_neg ht]
      have hl := List.length_pos_iff.2 ht
      by_cases hk : types.length ≤ k
      · rw [if_pos hk, List.getElem?_eq_none hk]
        simp [dget]; omega
      · rw [if_neg hk]

/-- Without styles, cells of style 0 are numbers, and there are no others. -/
theorem C63_no_styles (E : XlEnv) :
    ∃ st, readStyles E none = .ok st ∧ ∀ k : Nat, dget st.xfMap (k : Int) = (styleTypes [])[k]? := by
  refine ⟨Styles.init, rfl, fun k => ?_⟩
  cases k with
  | zero => rfl
  | succ k => simp [styleTypes, Styles.init, dget]; omega

/-! ## An example -/

def exXf (id : List Char) : Elem := .mk (ssml "xf".toList) [(bare "numFmtId".toList, id)] none []
def exFmt (id code : List Char) : Elem :=
  .mk (ssml "numFmt".toList) [(bare "numFmtId".toList, id), (bare "formatCode".toList, code)] none []

/-- Format 164 is for dates, 14 is not any more; a style for 0, one for 164, one for 14, one for
22. -/
def exStyles : Elem :=
  .mk (ssml "styleSheet".toList) [] none [
    .mk (ssml "numFmts".toList) [] none [exFmt "164".toList "d".toList, exFmt "14".toList "0".toList],
    .mk (ssml "cellStyleXfs".toList) [] none [exXf "22".toList],
    .mk (ssml "cellXfs".toList) [] none [.mk (ssml "xf".toList) [] none [], exXf "164".toList, exXf "14".toList, exXf "22".toList],
    .mk (ssml "dxfs".toList) [] none [exFmt "0".toList "d".toList]]

theorem exStyles_are : StylesAre exStyles [2, 3, 2, 3] := by
  have hid : ∀ (id : List Char) (n : Nat), id ≠ [] → (∀ c ∈ id, DecDigit c) → decValue id = n →
      NumberText ((exXf id).get (bare "numFmtId".toList)) n := fun id n h1 h2 h3 => ⟨id, by simp [exXf, Elem.get, Elem.attrib, dget], h1, h2, h3⟩
  have hf : ∀ (id code : List Char) (n : Nat), id ≠ [] → (∀ c ∈ id, DecDigit c) → decValue id = n → FormatOf (exFmt id code) (n, code) :=
    fun id code n h1 h2 h3 => ⟨⟨id, by simp [exFmt, Elem.get, Elem.attrib, dget], h1, h2, h3⟩,
      by simp [exFmt, Elem.get, Elem.attrib, dget, bare]⟩
  refine ⟨[_, _], _, [_], [(164, "d".toList), (14, "0".toList)], [(0, "d".toList)], ?_, rfl, by decide +kernel, by decide +kernel, ?_, ?_, ?_, by decide +kernel, ?_⟩
  · unfold StyleQuiet; decide +kernel
  · have h1 := hf "164".toList "d".toList 164 (by decide) (by simp [DecDigit]) (by decide)
    have h2 := hf "14".toList "0".toList 14 (by decide) (by simp [DecDigit]) (by decide)
    exact .cons h1 (.cons h2 .nil)
  · unfold StyleQuiet; decide +kernel
  · refine .cons ⟨0, Or.inl ⟨by decide +kernel, rfl⟩, Or.inr ⟨mt (dateId_iff _ _).2 (by decide +kernel), rfl⟩⟩ ?_
    refine .cons ⟨164, Or.inr (hid _ _ (by decide) (by simp [DecDigit]) (by decide)), Or.inl ⟨(dateId_iff _ _).1 (by decide +kernel), rfl⟩⟩ ?_
    refine .cons ⟨14, Or.inr (hid _ _ (by decide) (by simp [DecDigit]) (by decide)), Or.inr ⟨mt (dateId_iff _ _).2 (by decide +kernel), rfl⟩⟩ ?_
    exact .cons ⟨22, Or.inr (hid _ _ (by decide) (by simp [DecDigit]) (by decide)), Or.inl ⟨(dateId_iff _ _).1 (by decide +kernel), rfl⟩⟩ .nil
  · exact .cons (hf "0".toList "d".toList 0 (by decide) (by simp [DecDigit]) (by decide)) .nil

example : ∃ st, readStyles exXl (some exStyles) = .ok st ∧ ∀ k : Nat, dget st.xfMap (k : Int) = [2, 3, 2, 3][k]? :=
  C63_styles exXl_laws exStyles_are

end CP
