import Verif.Lemmas.Xlsx
import Verif.Lemmas.XlsxText
import Verif.Props.SheetCells
/-!
# Lemmas about work sheets of xlsx files
-/

namespace CP
open Spec

/-! ## What a cell shows -/

theorem childValue_formulas (is cooked : Bool) {es : List Elem} (h : ∀ x ∈ es, x.tag = ssml ['f']) (tv : Option (List Char))
    (rest : List Elem) : childValue is cooked tv (es ++ rest) = childValue is cooked tv rest := by
  induction es with
  | nil => rfl
  | cons e es ih =>
    have he := h e (by simp)
    rw [List.cons_append, childValue, he, if_neg (by simp [ssml]), if_neg (by simp [ssml]), if_pos rfl]
    exact ih fun x hx => h x (by simp [hx])

theorem childValue_one (is cooked : Bool) {cell v : Elem} (h : HasValue cell v) (tv : Option (List Char)) :
    childValue is cooked tv cell.children = .ok (if cooked then some (cookedText v) else v.text) := by
  obtain ⟨a, b, h1, h2, h3⟩ := h
  rw [h1, childValue_formulas is cooked (fun x hx => h3 x (by simp [hx])), childValue, h2, if_neg (by simp [ssml]), if_pos rfl]
  have := childValue_formulas is cooked (es := b) (fun x hx => h3 x (by simp [hx]))
    (if cooked then some (cookedText v) else v.text) []
  rw [List.append_nil] at this
  rw [this]
  rfl

theorem childValue_none (is cooked : Bool) {es : List Elem} (h : ∀ x ∈ es, x.tag = ssml ['f']) (tv : Option (List Char)) :
    childValue is cooked tv es = .ok tv := by
  have := childValue_formulas is cooked h tv []
  rw [List.append_nil] at this
  rw [this]
  rfl

theorem truthyText_some {t : List Char} (h : t ≠ []) : truthyText (some t) = some t := by
  cases t with
  | nil => exact absurd rfl h
  | cons => rfl

theorem noValue_falsy {cell : Elem} (h : NoValue cell) :
    ∃ tv, childValue false false none cell.children = .ok tv ∧ truthyText tv = none := by
  rcases h with h | ⟨v, h1, h2⟩
  · exact ⟨none, childValue_none false false h none, rfl⟩
  · refine ⟨v.text, ?_, ?_⟩
    · rw [childValue_one false false h1]; rfl
    · rcases h2 with h | h <;> rw [h] <;> rfl

/-- What the reader has at hand is what the specification says. -/
structure Fits (E : XlEnv) (sst : List (List Char)) (xfMap : List (Int × Nat)) (R : Reading) : Prop where
  laws : XlLaws E
  float : R.float = E.float
  strings : R.strings = sst
  typeOf : ∀ n : Nat, R.typeOf n = dget xfMap n

theorem errorCode_eq {t : List Char} {n : Nat} (h : ErrorCode t n) : dget errorCodes t = some n := by
  unfold ErrorCode at h
  simp only [List.mem_cons, Prod.mk.injEq, List.not_mem_nil, or_false] at h
  rcases h with ⟨rfl, rfl⟩ | ⟨rfl, rfl⟩ | ⟨rfl, rfl⟩ | ⟨rfl, rfl⟩ | ⟨rfl, rfl⟩ | ⟨rfl, rfl⟩ | ⟨rfl, rfl⟩ <;> decide +kernel

theorem pyIndex_some {α : Type} {l : List α} {n : Nat} {x : α} (h : l[n]? = some x) : pyIndex l (n : Int) = .ok x := by
  unfold pyIndex
  dsimp only
  rw [if_neg (by omega), if_neg (by omega)]
  have : ((n : Int)).toNat = n := by omega
  rw [this, h]

theorem shows_content {E : XlEnv} {sst : List (List Char)} {xfMap : List (Int × Nat)} {R : Reading} (hf : Fits E sst xfMap R)
    {cell : Elem} {xf : Nat} {p : Option PutCell} (h : Shows R cell xf p) : cellContent E sst xfMap xf cell = .ok p := by
  have hn : NumberTag cell → (cell.get (bare ['t'])).getD ['n'] = ['n'] := by
    rintro (h | h)
    · rw [h]; rfl
    · rw [show _ = _ from h]; rfl
  unfold cellContent
  dsimp only
  cases h with
  | @number v t x ty h1 h2 h3 h4 h5 h6 =>
    rw [hn h1, if_pos rfl, childValue_one _ _ h2]
    simp only [Bool.false_eq_true, if_false]
    rw [h3, truthyText_some h4]
    dsimp only
    rw [← hf.float, h5]
    dsimp only
    rw [← hf.typeOf, h6]
  | noNumber h1 h2 =>
    obtain ⟨tv, h3, h4⟩ := noValue_falsy h2
    rw [hn h1, if_pos rfl, h3]
    dsimp only
    rw [h4]
  | @shared v ds s h1 h2 h3 h4 h5 h6 =>
    rw [show cell.get (bare ['t']) = _ from h1, Option.getD_some, if_neg (by decide), if_pos rfl, childValue_one _ _ h2]
    simp only [Bool.false_eq_true, if_false]
    rw [h3, truthyText_some h4]
    dsimp only
    rw [hf.laws.digits _ h4 h5]
    dsimp only
    rw [← hf.strings, pyIndex_some h6]
    rfl
  | noShared h1 h2 =>
    obtain ⟨tv, h3, h4⟩ := noValue_falsy h2
    rw [show cell.get (bare ['t']) = _ from h1, Option.getD_some, if_neg (by decide), if_pos rfl, h3]
    dsimp only
    rw [h4]
  | @string v t h1 h2 h3 =>
    rw [show cell.get (bare ['t']) = _ from h1, Option.getD_some, if_neg (by decide), if_neg (by decide), if_pos rfl,
      childValue_one _ _ h2, textOf_eq h3]
    rfl
  | @boolTrue v h1 h2 h3 =>
    rw [show cell.get (bare ['t']) = _ from h1, Option.getD_some, if_neg (by decide), if_neg (by decide), if_neg (by decide),
      if_pos rfl, childValue_one _ _ h2]
    simp only [Bool.false_eq_true, if_false]
    rcases h3 with h | h <;> rw [h] <;> rfl
  | @boolFalse v h1 h2 h3 =>
    rw [show cell.get (bare ['t']) = _ from h1, Option.getD_some, if_neg (by decide), if_neg (by decide), if_neg (by decide),
      if_pos rfl, childValue_one _ _ h2]
    simp only [Bool.false_eq_true, if_false]
    rcases h3 with h | h <;> rw [h] <;> rfl
  | @error v t n h1 h2 h3 h4 =>
    rw [show cell.get (bare ['t']) = _ from h1, Option.getD_some, if_neg (by decide), if_neg (by decide), if_neg (by decide),
      if_neg (by decide), if_pos rfl, childValue_one _ _ h2]
    simp only [Bool.false_eq_true, if_false]
    rw [h3]
    dsimp only
    rw [errorCode_eq h4]
    rfl
  | @inline e t h1 h2 h3 h4 h5 =>
    rw [show cell.get (bare ['t']) = _ from h1, Option.getD_some, if_neg (by decide), if_neg (by decide), if_neg (by decide),
      if_neg (by decide), if_neg (by decide), if_pos rfl, h2, childValue, if_pos ⟨rfl, h3⟩, childValue, itemText_eq h4]
    dsimp only
    rw [truthyText_some h5]
    rfl
  | @noInline e h1 h2 h3 h4 =>
    rw [show cell.get (bare ['t']) = _ from h1, Option.getD_some, if_neg (by decide), if_neg (by decide), if_neg (by decide),
      if_neg (by decide), if_neg (by decide), if_pos rfl, h2, childValue, if_pos ⟨rfl, h3⟩, childValue, itemText_eq h4]
    rfl

/-! ## The place of a cell -/

theorem rowNameLoop_letters {ls : List Char} (h : ∀ c ∈ ls, letterIndex c ≠ 0) (charx colx : Nat) (rest : List Char) :
    rowNameLoop charx colx (ls.map upChar ++ rest) =
      rowNameLoop (charx + ls.length) (colx * 26 ^ ls.length + columnNumber ls) rest := by
  induction ls generalizing charx colx with
  | nil => simp [columnNumber]
  | cons c cs ih =>
    have hc := h c (by simp)
    have hd : upChar c ≠ '$' := by
      intro hd
      have := upChar_letter hc
      rw [hd] at this
      simp [cellCharValue] at this
    rw [List.map_cons, List.cons_append, rowNameLoop, if_neg hd, upChar_letter hc]
    split
    · rename_i h1; exact absurd h1 (by simp)
    · rename_i h1; exact absurd (Option.some.inj h1) hc
    · rename_i lv _ h1
      obtain rfl := Option.some.inj h1
      rw [ih fun x hx => h x (by simp [hx]), columnNumber_step, List.length_cons,
        show charx + 1 + cs.length = charx + (cs.length + 1) by omega]

theorem rowNameLoop_digit {d : Char} (hd : DecDigit d) (h0 : d ≠ '0') (charx colx : Nat) (rest : List Char) :
    rowNameLoop charx colx (upChar d :: rest) =
      if 1 ≤ colx ∧ colx ≤ 16384 then .ok ((charx : Int), (colx : Int) - 1) else .error .assertionError := by
  have h1 : upChar d ≠ '$' := by
    intro h1
    have := upChar_digit hd
    rw [if_neg h0, h1] at this
    simp [cellCharValue] at this
  rw [rowNameLoop, if_neg h1, upChar_digit hd, if_neg h0]
  by_cases h : 1 ≤ colx ∧ colx ≤ 16384
  · rw [if_pos h]
    show (if _ then _ else _) = _
    rw [if_pos (by omega)]
  · rw [if_neg h]
    show (if _ then _ else _) = _
    rw [if_neg (by omega)]

/-- Row numbers are written in one way only. -/
theorem rowDigits_unique {a b : List Char} (ha : RowDigits a) (hb : RowDigits b) (h : decValue a = decValue b) : a = b := by
  have key : ∀ l : List Char, RowDigits l → decNat (decValue l) = l := by
    intro l
    suffices H : ∀ r : List Char, RowDigits r.reverse → decNat (decValue r.reverse) = r.reverse by
      have := H l.reverse
      simpa using this
    intro r
    induction r with
    | nil => intro h; exact absurd rfl h.1
    | cons d r ih =>
      rintro ⟨_, h2, h3⟩
      rw [List.reverse_cons] at h2 h3 ⊢
      have hd : DecDigit d := h2 d (by simp)
      have hval : decValue (r.reverse ++ [d]) = 10 * decValue r.reverse + (d.toNat - 48) := by
        rw [← parseNat_eq h2, parseNat_snoc, parseNat_eq (fun c hc => h2 c (by simp at hc; simp [hc])), digitVal_getD hd]
      have hdc : digitChar (d.toNat - 48) = d := by
        unfold DecDigit at hd
        unfold digitChar
        rw [show 48 + (d.toNat - 48) = d.toNat by omega, ofNat_self]
      rw [hval]
      by_cases hr : r = []
      · subst hr
        unfold DecDigit at hd
        rw [List.reverse_nil, List.nil_append]
        show decNat (10 * 0 + _) = _
        unfold decNat
        rw [if_pos (by omega)]
        simp [hdc]
      · have hr' : RowDigits r.reverse := by
          refine ⟨by simpa using hr, fun c hc => h2 c (by simp at hc; simp [hc]), fun c hc => h3 c ?_⟩
          rw [List.head?_append, hc]; rfl
        have h1 := ih hr'
        have hpos : 1 ≤ decValue r.reverse := by
          obtain ⟨g1, g2, g3⟩ := hr'
          cases hrr : r.reverse with
          | nil => exact absurd hrr g1
          | cons x xs =>
            rw [hrr] at g2 g3
            have := mt zero_iff.2 (g3 x rfl)
            have g4 := g2 x (by simp)
            unfold DecDigit at g4
            have : 1 ≤ (x.toNat - 48) * 10 ^ xs.length := Nat.mul_pos (by omega) (Nat.pow_pos (by omega))
            show 1 ≤ (x.toNat - 48) * 10 ^ xs.length + decValue xs
            omega
        unfold DecDigit at hd
        unfold decNat
        rw [if_neg (by omega), show (10 * decValue r.reverse + (d.toNat - 48)) / 10 = decValue r.reverse by omega,
          show (10 * decValue r.reverse + (d.toNat - 48)) % 10 = d.toNat - 48 by omega, h1, hdc]
  rw [← key a ha, ← key b hb, h]

theorem cellColumn_eq {E : XlEnv} (hE : XlLaws E) {cell : Elem} {r n c : Nat} (h : ColumnOf cell r n c)
    {rowNumber : Option (List Char)} (hr : ∀ ds, rowNumber = some ds → RowDigits ds ∧ decValue ds = r + 1) :
    cellColumn E rowNumber ((n : Int) - 1) cell = .ok (c : Int) := by
  obtain ⟨hc, ⟨h1, rfl⟩ | ⟨s, h1, h2⟩⟩ := h
  · unfold cellColumn
    rw [h1]
    dsimp only
    congr 1; omega
  · unfold cellColumn
    rw [h1]
    dsimp only
    obtain ⟨ls, ds, rfl, hne, hl, hd, hcol, hrow⟩ := h2
    have hd' := hd
    obtain ⟨hd1, hd2, hd3⟩ := hd
    rw [hE.flatMap_up, List.map_append, rowNameLoop_letters hl]
    · cases ds with
      | nil => exact absurd rfl hd1
      | cons d ds =>
        rw [List.map_cons, rowNameLoop_digit (hd2 d (by simp)) (hd3 d rfl), hcol, if_pos (by omega)]
        dsimp only
        have hcc : (((0 * 26 ^ ls.length + (c + 1) : Nat) : Int) - 1) = (c : Int) := by omega
        cases rowNumber with
        | none => dsimp only; rw [hcc]
        | some x =>
          obtain ⟨g1, g2⟩ := hr x rfl
          dsimp only
          rw [show (0 + ls.length : Nat) = ls.length by omega, pyFrom_append,
            rowDigits_unique g1 hd' (by omega), if_neg (by simp), hcc]
    · intro x hx
      rcases List.mem_append.1 hx with h | h
      · exact AlNum.lt (Or.inl (hl x h))
      · exact AlNum.lt (Or.inr (hd2 x h))

/-! ## Rows -/

theorem style_eq {E : XlEnv} (hE : XlLaws E) {cell : Elem} {xf : Nat} (h : StyleOf cell xf) :
    E.int ((cell.get (bare ['s'])).getD ['0']) = .ok (xf : Int) := by
  rcases h with ⟨h, rfl⟩ | ⟨ds, h1, h2, h3, rfl⟩
  · rw [h, Option.getD_none, hE.digits _ (by simp) (by simp [DecDigit])]
    rfl
  · rw [h1, Option.getD_some, hE.digits _ h2 h3]

theorem doCells_eq {E : XlEnv} {sst : List (List Char)} {xfMap : List (Int × Nat)} {R : Reading} (hf : Fits E sst xfMap R)
    {r n : Nat} {cells : List Elem} {ops : List CellOp} (h : CellsAre R r n cells ops)
    {rowNumber : Option (List Char)} (hr : ∀ ds, rowNumber = some ds → RowDigits ds ∧ decValue ds = r + 1) (g : Grid) :
    doCells E sst xfMap rowNumber r ((n : Int) - 1) g cells = g.run ops := by
  induction h generalizing g with
  | nil => rfl
  | @blank n c xf cell rest ops h1 h2 h3 _ ih =>
    rw [doCells, cellColumn_eq hf.laws h1 hr]
    dsimp only
    rw [style_eq hf.laws h2]
    dsimp only
    rw [shows_content hf h3]
    dsimp only
    have := ih g
    rwa [show (((c + 1 : Nat) : Int) - 1) = (c : Int) by omega] at this
  | @put n c xf p cell rest ops h1 h2 h3 _ ih =>
    rw [doCells, cellColumn_eq hf.laws h1 hr]
    dsimp only
    rw [style_eq hf.laws h2]
    dsimp only
    rw [shows_content hf h3]
    dsimp only
    rw [Grid.run]
    show _ = match g.put r c p with
      | (g, some e) => (g, some e)
      | (g, none) => g.run ops
    rw [show ((c : Int)).toNat = c by omega]
    rcases g.put r c p with ⟨g1, _ | e⟩
    · dsimp only
      have := ih g1
      rwa [show (((c + 1 : Nat) : Int) - 1) = (c : Int) by omega] at this
    · rfl

theorem doRow_eq {E : XlEnv} {sst : List (List Char)} {xfMap : List (Int × Nat)} {R : Reading} (hf : Fits E sst xfMap R)
    {row : Elem} {n r : Nat} (h1 : RowOf row n r) {cs : List CellOp} (h2 : CellsAre R r 0 row.children cs) (g : Grid) :
    doRow E sst xfMap ⟨(n : Int) - 1, g⟩ row = (⟨(r : Int), (g.run cs).1⟩, (g.run cs).2) := by
  obtain ⟨hr, h1⟩ := h1
  have hcells := doCells_eq hf h2 (rowNumber := row.get (bare ['r'])) (by
    intro ds hds
    rcases h1 with ⟨h, _⟩ | ⟨ds', h, h3, h4⟩
    · rw [h] at hds; simp at hds
    · rw [h] at hds
      obtain rfl := Option.some.inj hds
      exact ⟨h3, h4⟩) g
  unfold doRow
  dsimp only
  have hrow : rowIndex E ((n : Int) - 1) (row.get (bare ['r'])) = .ok (r : Int) := by
    rcases h1 with ⟨h, rfl⟩ | ⟨ds, h, h3, h4⟩
    · rw [h, rowIndex]
      congr 1; omega
    · rw [h, rowIndex]
      rw [hf.laws.digits _ h3.1 h3.2.1]
      dsimp only
      congr 1; omega
  rw [hrow]
  dsimp only
  rw [if_pos (by omega), show ((r : Int)).toNat = r by omega]
  rw [show (((0 : Nat) : Int) - 1) = -1 by omega] at hcells
  rw [hcells]

/-! ## The elements of a sheet -/

theorem sheetTags_iff {q : QName} : q ∈ sheetTags ↔ q = ssml ['r', 'o', 'w'] ∨
    q = ssml ['d', 'i', 'm', 'e', 'n', 's', 'i', 'o', 'n'] ∨ q = ssml ['m', 'e', 'r', 'g', 'e', 'C', 'e', 'l', 'l'] := by
  simp [sheetTags]

theorem loop_append (E : XlEnv) (sst : List (List Char)) (xfMap : List (Int × Nat)) (x : XSheet) (a b : List Elem) :
    XSheet.loop E sst xfMap x (a ++ b) = match XSheet.loop E sst xfMap x a with
      | (x, some e) => (x, some e)
      | (x, none) => XSheet.loop E sst xfMap x b := by
  induction a generalizing x with
  | nil => rfl
  | cons e a ih =>
    rw [List.cons_append, XSheet.loop, XSheet.loop]
    rcases XSheet.elem E sst xfMap x e with ⟨x1, _ | err⟩
    · exact ih x1
    · rfl

theorem loop_quiet (E : XlEnv) (sst : List (List Char)) (xfMap : List (Int × Nat)) (x : XSheet) {es : List Elem}
    (h : ∀ e ∈ es, e.tag ∉ sheetTags) : XSheet.loop E sst xfMap x es = (x, none) := by
  induction es generalizing x with
  | nil => rfl
  | cons e es ih =>
    have he := mt sheetTags_iff.2 (h e (by simp))
    have h1 : XSheet.elem E sst xfMap x e = (x, none) := by
      unfold XSheet.elem
      rw [if_neg fun h => he (Or.inl h), if_neg fun h => he (Or.inr (Or.inl h)), if_neg fun h => he (Or.inr (Or.inr h))]
    rw [XSheet.loop, h1]
    exact ih x fun e' he' => h e' (by simp [he'])

/-- The elements `es` do the operations `ops` on the sheet; the next row goes from `n` to
`n'`. -/
def Does (E : XlEnv) (sst : List (List Char)) (xfMap : List (Int × Nat)) (n : Nat) (es : List Elem) (ops : List CellOp) (n' : Nat) :
    Prop :=
  ∀ g : Grid, ∃ k, XSheet.loop E sst xfMap ⟨(n : Int) - 1, g⟩ es = (⟨k, (g.run ops).1⟩, (g.run ops).2) ∧
    ((g.run ops).2 = none → k = (n' : Int) - 1)

theorem Does.append {E : XlEnv} {sst : List (List Char)} {xfMap : List (Int × Nat)} {n n1 n2 : Nat} {a b : List Elem}
    {o1 o2 : List CellOp} (h1 : Does E sst xfMap n a o1 n1) (h2 : Does E sst xfMap n1 b o2 n2) :
    Does E sst xfMap n (a ++ b) (o1 ++ o2) n2 := by
  intro g
  obtain ⟨k, e1, hk⟩ := h1 g
  rw [loop_append, e1, run_append]
  rcases hr : g.run o1 with ⟨g1, _ | err⟩
  · rw [hr] at hk
    obtain rfl := hk rfl
    exact h2 g1
  · exact ⟨k, rfl, fun h => by simp at h⟩

theorem Does.quiet (E : XlEnv) (sst : List (List Char)) (xfMap : List (Int × Nat)) (n : Nat) {es : List Elem}
    (h : ∀ e ∈ es, e.tag ∉ sheetTags) : Does E sst xfMap n es [] n := fun _ =>
  ⟨_, loop_quiet E sst xfMap _ h, fun _ => rfl⟩

theorem quiet_ends {es : List Elem} (h : Quiet es) : ∀ e ∈ endsList es, e.tag ∉ sheetTags := fun e he =>
  h e ((mem_endsList e es).1 he)

theorem Does.one {E : XlEnv} {sst : List (List Char)} {xfMap : List (Int × Nat)} {n n' : Nat} {e : Elem} {ops : List CellOp}
    (h : ∀ g : Grid, ∃ k, XSheet.elem E sst xfMap ⟨(n : Int) - 1, g⟩ e = (⟨k, (g.run ops).1⟩, (g.run ops).2) ∧
      ((g.run ops).2 = none → k = (n' : Int) - 1)) : Does E sst xfMap n [e] ops n' := by
  intro g
  obtain ⟨k, h1, h2⟩ := h g
  refine ⟨k, ?_, h2⟩
  rw [XSheet.loop, h1]
  rcases g.run ops with ⟨g1, _ | err⟩ <;> rfl

theorem rows_do {E : XlEnv} {sst : List (List Char)} {xfMap : List (Int × Nat)} {R : Reading} (hf : Fits E sst xfMap R) {n : Nat}
    {rows : List Elem} {ops : List CellOp} (h : RowsAre R n rows ops) : ∃ n', Does E sst xfMap n (endsList rows) ops n' := by
  induction h with
  | @nil n => exact ⟨n, fun g => ⟨_, rfl, fun _ => rfl⟩⟩
  | @row n r row rest cs ops h1 h2 h3 h4 _ ih =>
    obtain ⟨n', ih⟩ := ih
    refine ⟨n', ?_⟩
    rw [endsList, ends_eq]
    refine Does.append (n1 := r + 1) ?_ ih
    refine Does.append (o1 := []) (Does.quiet E sst xfMap n (quiet_ends h2)) (Does.one fun g => ⟨(r : Int), ?_, fun _ => by omega⟩)
    unfold XSheet.elem
    rw [if_pos h1, doRow_eq hf h3 h4]

theorem cellName_alnum {s : List Char} {r c : Nat} (h : CellName s r c) : ∀ x ∈ s, AlNum x := by
  obtain ⟨ls, ds, rfl, _, h1, h2, _⟩ := h
  intro x hx
  rcases List.mem_append.1 hx with h | h
  · exact Or.inl (h1 x h)
  · exact Or.inr (h2.2.1 x h)

theorem cellName_colon {s : List Char} {r c : Nat} (h : CellName s r c) : ':' ∉ s := by
  intro h1
  have := cellName_alnum h _ h1
  simp [AlNum, letterIndex, DecDigit] at this

theorem cellName_ne {s : List Char} {r c : Nat} (h : CellName s r c) : s ≠ [] := by
  obtain ⟨ls, ds, rfl, h, _⟩ := h
  simp [h]

theorem rangeOf_ne {ref : List Char} {r1 c1 r2 c2 : Nat} (h : RangeOf ref r1 c1 r2 c2) : ref ≠ [] := by
  obtain ⟨_, _, ⟨a, b, rfl, _⟩ | ⟨h, _⟩⟩ := h
  · simp
  · exact cellName_ne h

theorem merges_do {E : XlEnv} (hE : XlLaws E) (sst : List (List Char)) (xfMap : List (Int × Nat)) (n : Nat) {es : List Elem}
    {ops : List CellOp} (h : MergesAre es ops) : Does E sst xfMap n (endsList es) ops n := by
  induction h with
  | nil => exact fun g => ⟨_, rfl, fun _ => rfl⟩
  | @cons e rest ref r1 c1 r2 c2 ops h1 h2 h3 h4 _ _ ih =>
    rw [endsList, ends_eq, h2]
    refine Does.append (o1 := [_]) (Does.one fun g => ⟨(n : Int) - 1, ?_, fun _ => rfl⟩) ih
    unfold XSheet.elem
    rw [h1, if_neg (by decide), if_neg (by decide), if_pos rfl]
    unfold doMergeCell
    rw [h3, truthyText_some (rangeOf_ne h4)]
    dsimp only
    obtain ⟨g1, g2, ⟨a, b, rfl, ha, hb⟩ | ⟨h, rfl, rfl⟩⟩ := h4
    · rw [splitChar_append (cellName_colon ha), splitChar_free (cellName_colon hb)]
      dsimp only
      rw [cellName_ok hE ha, if_pos g1]
      dsimp only
      rw [cellName_ok hE hb, if_pos g2]
      rfl
    · rw [splitChar_free (cellName_colon h)]
      dsimp only
      rw [cellName_ok hE h, if_pos g1]
      rfl

theorem others_do {E : XlEnv} (hE : XlLaws E) (sst : List (List Char)) (xfMap : List (Int × Nat)) (n : Nat) {es : List Elem}
    {ops : List CellOp} (h : OtherParts es ops) : Does E sst xfMap n (endsList es) ops n := by
  induction h with
  | nil => exact fun g => ⟨_, rfl, fun _ => rfl⟩
  | @quiet e rest ops h1 _ ih =>
    rw [endsList]
    refine Does.append (o1 := []) (Does.quiet E sst xfMap n ?_) ih
    have := quiet_ends h1
    rwa [endsList, endsList, List.append_nil] at this
  | @dimension e rest ops h1 h2 h3 _ ih =>
    rw [endsList, ends_eq, h2]
    refine Does.append (o1 := []) (Does.one fun g => ⟨(n : Int) - 1, ?_, fun _ => rfl⟩) ih
    unfold XSheet.elem
    rw [h1, if_neg (by decide), if_pos rfl]
    have hd : doDimension E e = none := by
      unfold doDimension
      rcases h3 with h | ⟨ref, r1, c1, r2, c2, h, h4⟩
      · rw [h]; rfl
      · rw [h, truthyText_some (rangeOf_ne h4)]
        dsimp only
        obtain ⟨g1, g2, ⟨a, b, rfl, ha, hb⟩ | ⟨h, rfl, rfl⟩⟩ := h4
        · rw [splitChar_append (cellName_colon ha), splitChar_free (cellName_colon hb)]
          show (match cellNameToRowxColx E b true with
            | .error err => some err
            | .ok _ => none) = none
          rw [cellName_ok hE hb, if_pos g2]
        · rw [splitChar_free (cellName_colon h)]
          show (match cellNameToRowxColx E ref true with
            | .error err => some err
            | .ok _ => none) = none
          rw [cellName_ok hE h, if_pos g1]
    rw [hd]
    rfl
  | @merges e rest ms ops h1 h2 _ ih =>
    rw [endsList, ends_eq]
    have h := Does.append (Does.append (o2 := []) (merges_do hE sst xfMap n h2)
      (Does.quiet E sst xfMap n (es := [e]) fun x hx => by rw [List.mem_singleton.1 hx]; exact h1)) ih
    rwa [List.append_nil] at h

theorem sheet_does {E : XlEnv} {sst : List (List Char)} {xfMap : List (Int × Nat)} {R : Reading} (hf : Fits E sst xfMap R)
    {root : Elem} {ops : List CellOp} (h : SheetIs R root ops) : ∃ n', Does E sst xfMap 0 root.ends ops n' := by
  obtain ⟨a, data, b, o1, cs, o2, h1, h2, h3, h4, h5, h6, rfl⟩ := h
  obtain ⟨n', hrows⟩ := rows_do hf h5
  refine ⟨n', ?_⟩
  rw [ends_eq, h2, endsList_append, endsList, ends_eq]
  have k1 := others_do hf.laws sst xfMap 0 h4
  have k2 := others_do hf.laws sst xfMap n' h6
  have k3 := Does.quiet E sst xfMap n' (es := [data]) fun x hx => by rw [List.mem_singleton.1 hx]; exact h3
  have k4 := Does.quiet E sst xfMap n' (es := [root]) fun x hx => by rw [List.mem_singleton.1 hx]; exact h1
  have := ((k1.append ((hrows.append k3).append k2)).append k4)
  simpa using this

end CP
