import Verif.Spec.XlsxBook
import Verif.Lemmas.Xlsx
import Verif.Lemmas.XlsxText
import Verif.Lemmas.PyIter
import Verif.Props.Formatting
/-!
# Lemmas about the styles of xlsx files
-/

namespace CP
open Spec

theorem foldE_append {σ α : Type} (f : σ → α → Except Exc σ) (s : σ) (a b : List α) :
    foldE f s (a ++ b) = match foldE f s a with
      | .error e => .error e
      | .ok s => foldE f s b := by
  induction a generalizing s with
  | nil => rfl
  | cons x xs ih =>
    rw [List.cons_append, foldE, foldE]
    cases f s x with
    | error e => rfl
    | ok s => exact ih s

theorem isMain_iff {e : Elem} {name : List Char} :
    isMain e name = true ↔ ¬ (e.tag.ns ≠ .ssml ∧ e.tag.ns ≠ .none) ∧ e.tag.name = name := by
  unfold isMain
  simp only [Bool.and_eq_true, Bool.or_eq_true, decide_eq_true_eq]
  constructor
  · rintro ⟨h1, h2⟩
    exact ⟨fun h => by rcases h1 with h1 | h1 <;> simp [h1] at h, h2⟩
  · rintro ⟨h1, h2⟩
    refine ⟨?_, h2⟩
    by_cases h : e.tag.ns = .ssml
    · exact Or.inl h
    · by_cases h3 : e.tag.ns = .none
      · exact Or.inr h3
      · exact absurd ⟨h, h3⟩ h1

theorem not_main {e : Elem} {name w : List Char} (h : isMain e name = false) (hns : ¬ (e.tag.ns ≠ .ssml ∧ e.tag.ns ≠ .none))
    (hn : e.tag.name = w) (hw : w = name) : False := by
  rw [isMain_iff.2 ⟨hns, hn.trans hw⟩] at h
  simp at h

theorem digits_int {E : XlEnv} (hE : XlLaws E) {s : Option (List Char)} {n : Nat} (h : NumberText s n) : E.intOpt s = .ok (n : Int) := by
  obtain ⟨ds, rfl, h1, h2, rfl⟩ := h
  exact hE.digits ds h1 h2

theorem styles_quiet (E : XlEnv) (st : Styles) {e : Elem} (h : isMain e "cellStyleXfs".toList = false ∧
    isMain e "cellXfs".toList = false ∧ isMain e "numFmt".toList = false ∧ isMain e "xf".toList = false) :
    Styles.elem E st e = .ok st := by
  unfold Styles.elem
  by_cases hns : e.tag.ns ≠ .ssml ∧ e.tag.ns ≠ .none
  · rw [if_pos hns]
  · obtain ⟨h1, h2, h3, h4⟩ := h
    rw [if_neg hns, if_neg, if_neg, if_neg, if_neg]
    · exact fun hn => not_main h4 hns hn (by decide)
    · exact fun hn => not_main h3 hns hn (by decide)
    · exact fun hn => not_main h2 hns hn (by decide)
    · exact fun hn => not_main h1 hns hn (by decide)

theorem styles_quiet_all (E : XlEnv) (st : Styles) {es : List Elem} (h : ∀ e ∈ es, isMain e "cellStyleXfs".toList = false ∧
    isMain e "cellXfs".toList = false ∧ isMain e "numFmt".toList = false ∧ isMain e "xf".toList = false) :
    foldE (Styles.elem E) st es = .ok st := by
  induction es with
  | nil => rfl
  | cons e es ih =>
    rw [foldE, styles_quiet E st (h e (by simp))]
    exact ih fun x hx => h x (by simp [hx])

theorem styles_cellXfs (E : XlEnv) (st : Styles) {e : Elem} (h : isMain e "cellXfs".toList = true) :
    Styles.elem E st e = .ok { st with xfType := some 1 } := by
  obtain ⟨h1, h2⟩ := isMain_iff.1 h
  unfold Styles.elem
  rw [if_neg h1, h2, if_neg (by decide), if_pos (by decide)]

theorem styles_numFmt {E : XlEnv} (hE : XlLaws E) (st : Styles) {e : Elem} {f : Nat × List Char}
    (h : isMain e "numFmt".toList = true) (hf : FormatOf e f) :
    Styles.elem E st e = .ok { st with isDate := dset st.isDate (f.1 : Int) (isDateFormat f.2) } := by
  obtain ⟨h1, h2⟩ := isMain_iff.1 h
  have e1 := digits_int hE hf.1
  have e2 := hf.2
  have w1 : "numFmtId".toList = ['n', 'u', 'm', 'F', 'm', 't', 'I', 'd'] := by decide
  have w2 : "formatCode".toList = ['f', 'o', 'r', 'm', 'a', 't', 'C', 'o', 'd', 'e'] := by decide
  rw [w1] at e1
  rw [w2] at e2
  unfold Styles.elem
  rw [if_neg h1, h2, if_neg (by decide), if_neg (by decide), if_pos (by decide), e1, e2]

theorem styles_other {E : XlEnv} (st : Styles) {e : Elem} (h1 : isMain e "cellXfs".toList = false)
    (h2 : isMain e "numFmt".toList = false) (h3 : st.xfType ≠ some 1 ∨ isMain e "xf".toList = false) :
    ∃ ty, Styles.elem E st e = .ok { st with xfType := ty } ∧ (st.xfType ≠ some 1 → ty ≠ some 1) := by
  unfold Styles.elem
  by_cases hns : e.tag.ns ≠ .ssml ∧ e.tag.ns ≠ .none
  · rw [if_pos hns]; exact ⟨st.xfType, rfl, id⟩
  · rw [if_neg hns]
    split
    · exact ⟨some 0, rfl, fun _ => by simp⟩
    · rw [if_neg fun hn => not_main h1 hns hn (by decide),
        if_neg fun hn => not_main h2 hns hn (by decide)]
      split
      · rename_i hn
        rcases h3 with h3 | h3
        · rw [if_pos h3]; exact ⟨st.xfType, rfl, id⟩
        · exact (not_main h3 hns hn (by decide)).elim
      · exact ⟨st.xfType, rfl, id⟩

/-- The dict of formats after some definitions. -/
def withFormats (d : List (Int × Bool)) (fs : List (Nat × List Char)) : List (Int × Bool) :=
  dupdate d (fs.map fun f => ((f.1 : Int), isDateFormat f.2))

theorem styles_formats {E : XlEnv} (hE : XlLaws E) {es : List Elem} {fs : List (Nat × List Char)} (st : Styles)
    (h1 : ∀ e ∈ es, isMain e "cellXfs".toList = false) (h2 : Each FormatOf (es.filter fun e => isMain e "numFmt".toList) fs)
    (h3 : st.xfType ≠ some 1 ∨ ∀ e ∈ es, isMain e "xf".toList = false) :
    ∃ ty, foldE (Styles.elem E) st es = .ok { st with xfType := ty, isDate := withFormats st.isDate fs } ∧
      (st.xfType ≠ some 1 → ty ≠ some 1) := by
  induction es generalizing st fs with
  | nil => cases h2; exact ⟨st.xfType, rfl, id⟩
  | cons e es ih =>
    have g1 : ∀ e ∈ es, isMain e "cellXfs".toList = false := fun x hx => h1 x (by simp [hx])
    by_cases hn : isMain e "numFmt".toList = true
    · rw [List.filter_cons_of_pos (by simpa using hn)] at h2
      obtain _ | ⟨hf, h2⟩ := h2
      rename_i f fs
      obtain ⟨ty, k1, k2⟩ := ih { st with isDate := dset st.isDate (f.1 : Int) (isDateFormat f.2) } g1 h2
        (h3.imp id fun h x hx => h x (by simp [hx]))
      refine ⟨ty, ?_, k2⟩
      rw [foldE, styles_numFmt hE st hn hf]
      dsimp only
      rw [k1]
      rfl
    · rw [List.filter_cons_of_neg (by simpa using hn)] at h2
      obtain ⟨ty, k1, k2⟩ := styles_other (E := E) st (h1 e (by simp)) (by simpa using hn) (h3.imp id fun h => h e (by simp))
      obtain ⟨ty', k3, k4⟩ := ih { st with xfType := ty } g1 h2 (h3.imp k2 fun h x hx => h x (by simp [hx]))
      refine ⟨ty', ?_, fun h => k4 (k2 h)⟩
      rw [foldE, k1]
      dsimp only
      rw [k3]

theorem dget_split {κ ν : Type} [DecidableEq κ] {l : List (κ × ν)} {k : κ} :
    (∀ v, dget l k = some v → ∃ a b, l = a ++ (k, v) :: b ∧ k ∉ a.map Prod.fst) ∧ (dget l k = none → k ∉ l.map Prod.fst) := by
  induction l with
  | nil => simp [dget]
  | cons p l ih =>
    obtain ⟨k', v'⟩ := p
    simp only [dget]
    by_cases h : k' = k
    · rw [if_pos h]
      refine ⟨fun v hv => ⟨[], l, ?_, by simp⟩, fun h => by simp at h⟩
      simp only [Option.some.injEq] at hv
      rw [h, hv]; rfl
    · rw [if_neg h]
      refine ⟨fun v hv => ?_, fun hn => ?_⟩
      · obtain ⟨a, b, rfl, h2⟩ := ih.1 v hv
        exact ⟨(k', v') :: a, b, rfl, by simp [Ne.symm h]; simpa using h2⟩
      · simp only [List.map_cons, List.mem_cons, not_or]
        exact ⟨Ne.symm h, ih.2 hn⟩

theorem last_entry {κ ν : Type} {a b a' b' : List (κ × ν)} {k : κ} {x y : ν} (h : a ++ (k, x) :: b = a' ++ (k, y) :: b')
    (h1 : k ∉ b.map Prod.fst) (h2 : k ∉ b'.map Prod.fst) : x = y := by
  rcases List.append_eq_append_iff.1 h with ⟨c, _, h3⟩ | ⟨c, _, h3⟩
  · cases c with
    | nil => simp at h3; exact h3.1
    | cons z zs =>
      simp only [List.cons_append, List.cons.injEq] at h3
      rw [h3.2] at h1
      simp at h1
  · cases c with
    | nil => simp at h3; exact h3.1.symm
    | cons z zs =>
      simp only [List.cons_append, List.cons.injEq] at h3
      rw [h3.2] at h2
      simp at h2

theorem dateId_iff (fs : List (Nat × List Char)) (n : Nat) :
    (dget (withFormats Styles.init.isDate fs) (n : Int)).getD false = true ↔ DateId fs n := by
  unfold withFormats
  rw [dget_dupdate]
  have hkeys : ∀ l : List (Nat × List Char), (n : Int) ∈ (l.map fun f => ((f.1 : Int), isDateFormat f.2)).map Prod.fst ↔
      n ∈ l.map Prod.fst := by
    intro l
    simp only [List.map_map, List.mem_map, Function.comp_apply]
    constructor
    · rintro ⟨f, h, h2⟩; exact ⟨f, h, by omega⟩
    · rintro ⟨f, h, h2⟩; exact ⟨f, h, by omega⟩
  cases hd : dget (fs.map fun f => ((f.1 : Int), isDateFormat f.2)).reverse (n : Int) with
  | none =>
    have h1 := dget_split.2 hd
    rw [List.map_reverse, List.mem_reverse, hkeys] at h1
    dsimp only
    have hb : (dget Styles.init.isDate (n : Int)).getD false = true ↔ n ∈ builtinDates := by
      by_cases hn : n < 48
      · have : ∀ k : Fin 48, (dget Styles.init.isDate (k.val : Int)).getD false = true ↔ k.val ∈ builtinDates := by decide +kernel
        exact this ⟨n, hn⟩
      · have h2 : ∀ p ∈ Styles.init.isDate, p.1 < 48 := by decide +kernel
        have h3 : ∀ m ∈ builtinDates, m < 48 := by decide +kernel
        constructor
        · intro h
          cases hg : dget Styles.init.isDate (n : Int) with
          | none => rw [hg] at h; simp at h
          | some v => have := h2 _ (dget_mem hg); dsimp only at this; omega
        · exact fun h => absurd (h3 n h) hn
    rw [hb]
    unfold DateId
    constructor
    · exact fun h => Or.inr ⟨h1, h⟩
    · rintro (⟨a, code, b, rfl, _, _⟩ | ⟨_, h⟩)
      · exact absurd (by simp) h1
      · exact h
  | some v =>
    obtain ⟨a, b, h1, h2⟩ := dget_split.1 v hd
    have h3 : (fs.map fun f => ((f.1 : Int), isDateFormat f.2)) = b.reverse ++ ((n : Int), v) :: a.reverse := by
      have := congrArg List.reverse h1
      rw [List.reverse_reverse] at this
      rw [this]; simp
    obtain ⟨fa, fb, rfl, e1, e2⟩ := List.map_eq_append_iff.1 h3
    obtain ⟨f, fc, rfl, e3, e4⟩ := List.map_eq_cons_iff.1 e2
    obtain ⟨m, code⟩ := f
    simp only [Prod.mk.injEq] at e3
    obtain ⟨e3, rfl⟩ := e3
    obtain rfl : m = n := by omega
    have h4 : m ∉ fc.map Prod.fst := by
      rw [← hkeys, e4]
      simpa using h2
    dsimp only [Option.getD_some]
    rw [C52_date_format]
    unfold DateId
    constructor
    · exact fun h => Or.inl ⟨fa, code, fc, rfl, h4, h⟩
    · rintro (⟨a', code', b', g1, g2, g3⟩ | ⟨g, _⟩)
      · have := last_entry g1 h4 g2
        rwa [this]
      · simp at g

theorem styles_xf {E : XlEnv} (hE : XlLaws E) (fs : List (Nat × List Char)) (st : Styles) {e : Elem} {ty : Nat}
    (h : isMain e "xf".toList = true) (ht : TypeOfXf fs e ty) (h1 : st.xfType = some 1)
    (h2 : st.isDate = withFormats Styles.init.isDate fs) :
    Styles.elem E st e = .ok { st with count := st.count + 1, xfMap := dset st.xfMap (st.count : Int) ty } := by
  obtain ⟨g1, g2⟩ := isMain_iff.1 h
  obtain ⟨n, hn, hty⟩ := ht
  have w1 : "numFmtId".toList = ['n', 'u', 'm', 'F', 'm', 't', 'I', 'd'] := by decide
  rw [w1] at hn
  have hint : E.int ((e.get (bare ['n', 'u', 'm', 'F', 'm', 't', 'I', 'd'])).getD ['0']) = .ok (n : Int) := by
    rcases hn with ⟨k1, rfl⟩ | ⟨ds, k1, k2, k3, rfl⟩
    · rw [k1]
      exact hE.digits ['0'] (by simp) (by simp [DecDigit])
    · rw [k1]
      exact hE.digits ds k2 k3
  unfold Styles.elem
  rw [if_neg g1, g2, if_neg (by decide), if_neg (by decide), if_neg (by decide), if_pos (by decide), if_neg (by simp [h1]), hint]
  dsimp only
  have : (if (dget st.isDate (n : Int)).getD false = true then 3 else 2) = ty := by
    rw [h2]
    rcases hty with ⟨k1, rfl⟩ | ⟨k1, rfl⟩
    · rw [if_pos ((dateId_iff fs n).2 k1)]
    · rw [if_neg fun h => k1 ((dateId_iff fs n).1 h)]
  rw [this]

theorem styles_xfs {E : XlEnv} (hE : XlLaws E) (fs : List (Nat × List Char)) {cs : List Elem} {types : List Nat} (st : Styles)
    (h : ∀ c ∈ cs, isMain c "xf".toList = true ∧ StyleQuiet c.children) (ht : Each (TypeOfXf fs) cs types)
    (h1 : st.xfType = some 1) (h2 : st.isDate = withFormats Styles.init.isDate fs) :
    ∃ st', foldE (Styles.elem E) st (iterList cs) = .ok st' ∧ st'.xfType = some 1 ∧
      ∀ j : Nat, dget st'.xfMap (j : Int) = if j < st.count ∨ st.count + types.length ≤ j then dget st.xfMap (j : Int)
        else types[j - st.count]? := by
  induction ht generalizing st with
  | nil => exact ⟨st, rfl, h1, fun j => by rw [if_pos]; simp; omega⟩
  | @cons c ty cs types hc _ ih =>
    obtain ⟨k1, k2⟩ := h c (by simp)
    obtain ⟨st', e1, e2, e3⟩ := ih { st with count := st.count + 1, xfMap := dset st.xfMap (st.count : Int) ty }
      (fun x hx => h x (by simp [hx])) h1 h2
    refine ⟨st', ?_, e2, fun j => ?_⟩
    · rw [iterList, foldE_append, iter_eq, foldE, styles_xf hE fs st k1 hc h1 h2]
      dsimp only
      rw [styles_quiet_all E _ k2]
      exact e1
    · rw [e3]
      dsimp only
      rw [dget_dset, List.length_cons]
      by_cases hj : j = st.count
      · subst hj
        rw [if_pos (by omega), if_pos rfl, if_neg (by omega)]
        simp
      · rw [if_neg (by omega : ¬ ((j : Int) = (st.count : Int)))]
        by_cases hlt : j < st.count ∨ st.count + types.length + 1 ≤ j
        · rw [if_pos (by omega), if_pos (by omega)]
        · rw [if_neg (by omega), if_neg (by omega)]
          obtain ⟨i, rfl⟩ : ∃ i, j = st.count + 1 + i := ⟨j - st.count - 1, by omega⟩
          have g1 : st.count + 1 + i - (st.count + 1) = i := by omega
          have g2 : st.count + 1 + i - st.count = i + 1 := by omega
          rw [g1, g2, List.getElem?_cons_succ]

end CP
