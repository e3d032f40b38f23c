import Verif.Props.PackDbf
import Verif.Props.ReadXl
/-!
# C95: the packs of spread sheets hold the values read
-/

namespace CP
open Spec

/-- What a cell can be in a pack. -/
def CellValue (v : Val) : Prop :=
  Numeric v ∨ (∃ b, v = .bool b) ∨ (∃ s, v = .str s) ∨ v = .none ∨ ∃ d ms, v = .datetime d ms

theorem reads_value {M : XlMul} {dm : Int} {ts : List Nat} {t : Nat} {v w : Val} (h : Reads M dm ts t v w) (ht : t ∈ ts) (hv : CellTyped t v) :
    CellValue w := by
  have two : t = 2 → CellValue v := by rintro rfl; exact .inl hv
  have one : t = 1 → CellValue v := by rintro rfl; exact .inr (.inr (.inl hv))
  cases h with
  | number t v hn hm =>
    rcases hn t ht with h | h
    · exact two h
    · exact absurd h hm
  | noNumber => exact .inl (.inr (.inl rfl))
  | text t v hn htx hm =>
    rcases htx t ht with h | h
    · exact one h
    · exact absurd h hm
  | noText => exact .inr (.inr (.inl ⟨_, rfl⟩))
  | nothing => exact .inr (.inr (.inr (.inl rfl)))
  | date => exact .inr (.inr (.inr (.inr ⟨_, _, rfl⟩)))
  | bool => exact .inr (.inl ⟨_, rfl⟩)
  | other t v hn htx hm h3 h4 =>
    match t, hv with
    | 0, _ => exact absurd (.inl rfl) hm
    | 1, _ => exact one rfl
    | 2, _ => exact two rfl
    | 3, _ => exact absurd rfl h3
    | 4, _ => exact absurd rfl h4
    | 5, _ => exact absurd (.inr (.inl rfl)) hm
    | 6, _ => exact absurd (.inr (.inr rfl)) hm

theorem cellValue_compatible {vs : List Val} (h : ∀ v ∈ vs, CellValue v) : Compatible vs ↔ SheetColumn vs := by
  have hobj : ∀ v ∈ vs, IsObject v ↔ v = .none ∨ ∃ d ms, v = .datetime d ms := by
    intro v hv
    constructor
    · rintro ⟨h1, h2, h3⟩
      rcases h v hv with (⟨q, rfl⟩ | rfl | ⟨n, rfl⟩) | ⟨b, rfl⟩ | ⟨s, rfl⟩ | h | h
      · exact absurd (.flt _) h1
      · exact absurd .nan h1
      · exact absurd (.inf _) h1
      · exact absurd (.bool _) h1
      · exact absurd rfl (h2 _)
      · exact .inl h
      · exact .inr h
    · rintro (rfl | ⟨d, ms, rfl⟩) <;> exact ⟨(fun h => by cases h), (fun s h => by cases h), (fun s h => by cases h)⟩
  constructor
  · rintro (⟨v, hv, ho⟩ | ht | hb | ⟨hn, -⟩)
    · exact .inr (.inr ⟨v, hv, (hobj v hv).1 ho⟩)
    · exact .inr (.inl ht)
    · left
      intro v hv
      obtain ⟨b, rfl, -⟩ := hb v hv
      rcases h _ hv with (⟨q, h⟩ | h | ⟨n, h⟩) | ⟨b, h⟩ | ⟨s, h⟩ | h | ⟨d, ms, h⟩ <;> cases h
    · left
      intro v hv
      have := hn v hv
      rcases h v hv with h | h | ⟨s, rfl⟩ | rfl | ⟨d, ms, rfl⟩
      · exact .inl h
      · exact .inr h
      · cases this
      · cases this
      · cases this
  · rintro (hn | ht | ⟨v, hv, ho⟩)
    · refine .inr (.inr (.inr ⟨fun v hv => ?_, fun _ i hi => ?_⟩))
      · rcases hn v hv with (⟨q, rfl⟩ | rfl | ⟨n, rfl⟩) | ⟨b, rfl⟩
        · exact .flt _
        · exact .nan
        · exact .inf _
        · exact .bool _
      · rcases hn _ hi with (⟨q, h⟩ | h | ⟨n, h⟩) | ⟨b, h⟩ <;> cases h
    · exact .inr (.inl ht)
    · exact .inl ⟨v, hv, (hobj v hv).2 ho⟩

theorem sheetpack_nodup {up : Upper} {M : XlMul} {ws : Sheet} {header : Header} {startcell stopcell : Option (List Char)}
    {usecols : Option Usecols} {data : List (Int × List Val)} {names : List (Int × Val)}
    (h : sheetpack up M ws header startcell stopcell usecols = .ok (data, names)) : (dkeys data).Nodup := by
  unfold sheetpack at h
  split at h
  · cases h
  · cases h
  dsimp only at h
  generalize (if stopcell = none ∨ stopcell = some [] then ((ws.nrows : Int) - 1, (ws.ncols : Int) - 1) else _) = stopref at h
  split at h
  · cases h
  · cases h
  split at h
  · cases h
  split at h
  · cases h
  split at h
  · cases h
  split at h
  · cases h; exact nodup_dictOf _
  · cases h; exact nodup_dictOf _
  · cases h
  · cases h; exact nodup_dictOf _

/-- The channels of `sheetpack` are made of numbers, booleans, text, nothing and dates. -/
theorem C95_kinds {up : Upper} {M : XlMul} {ws : Sheet} (hws : ws.WF) (hty : ∀ r c v t, ws.HasCell r c v t → CellTyped t v) {header : Header}
    {startcell stopcell : Option (List Char)} {usecols : Option Usecols} {data : List (Int × List Val)} {names : List (Int × Val)}
    (h : sheetpack up M ws header startcell stopcell usecols = .ok (data, names)) : ∀ x ∈ data, ∀ v ∈ x.2, CellValue v := by
  obtain ⟨r0, c0, r1, c1, us, hrow, -, -, -, -, -, -, hcol, -⟩ := C31_sheetpack_range up M ws hws header startcell stopcell usecols data names h
  rintro ⟨c, col⟩ hx v hv
  obtain ⟨-, types, hl, hr⟩ := hcol c col (dget_of_mem (sheetpack_nodup h) hx)
  obtain ⟨i, hi⟩ := List.getElem?_of_mem hv
  obtain ⟨v', t, w, h1, h2, h3, h4⟩ := hr i (List.getElem?_eq_some_iff.1 hi).1
  dsimp only at hi
  rw [hi] at h3
  cases h3
  exact reads_value h4 (List.mem_of_getElem? h2) (hty _ _ _ _ h1)

/-- C95: the channels that are held are those of numbers and booleans, of text, and those with a date or nothing among the values. -/
theorem C95_exact {up : Upper} {M : XlMul} {ws : Sheet} (hws : ws.WF) (hty : ∀ r c v t, ws.HasCell r c v t → CellTyped t v) {header : Header}
    {startcell stopcell : Option (List Char)} {usecols : Option Usecols} {data : List (Int × List Val)} {names : List (Int × Val)}
    (h : sheetpack up M ws header startcell stopcell usecols = .ok (data, names)) (ft : Rat → List Char) :
    ∀ x ∈ data, (HoldsValues ft x.2 ↔ SheetColumn x.2) := fun x hx =>
  (C92_exact ft x.2).trans (cellValue_compatible (C95_kinds hws hty h x hx))

/-- C95 as a user would have it: the channels of the pack that `sheetpack` returns are the values that C31 tells.  With `all` of every sheet,
else if the columns are such that an array can hold them. -/
def SheetPackHolds (all : Bool) : Prop :=
  ∀ (ft : Rat → List Char) (up : Upper) (M : XlMul) (ws : Sheet), ws.WF → (∀ r c v t, ws.HasCell r c v t → CellTyped t v) →
    ∀ (header : Header) (startcell stopcell : Option (List Char)) (usecols : Option Usecols) (data : List (Int × List Val))
      (names : List (Int × Val)), sheetpack up M ws header startcell stopcell usecols = .ok (data, names) →
    (all = false → ∀ x ∈ data, SheetColumn x.2) →
    ∃ p, packOfLists ft data names = .ok p ∧ p.names = names ∧ ChannelsHold data p.data

/-- C95, the part that holds.  (Missing: columns of text together with numbers or booleans and no date or empty cell, which are made text, and
text that ends with a NUL: C95_exact.) -/
theorem C95_sheet_partial : SheetPackHolds false := by
  intro ft up M ws hws hty header startcell stopcell usecols data names h hc
  exact C92_values_partial ft data names fun _ x hx => (cellValue_compatible (C95_kinds hws hty h x hx)).2 (hc rfl x hx)

/-- A column with the text a and the boolean TRUE. -/
def mixedSheet : Sheet := { nrows := 2, ncols := 1, datemode := 0, types := [[1], [4]], values := [[.str ['a']], [.int 1]] }

/-- C95 as stated is false: beside text the boolean TRUE is the text True. -/
theorem C95_counterexample : ¬ SheetPackHolds true := by
  intro hall
  have he : sheetpack exUp exactMul mixedSheet .no none none none = .ok ([(0, [.str ['a'], .bool true])], []) := by decide +kernel
  have hty : ∀ r c v t, mixedSheet.HasCell r c v t → CellTyped t v := by
    rintro r c v t ⟨hr, hc, ⟨row, h1, h2⟩, row', h3, h4⟩
    generalize r.toNat = i at h1 h3
    generalize c.toNat = j at h2 h4
    match i, j with
    | 0, 0 => cases h1; cases h2; cases h3; cases h4; exact ⟨_, rfl⟩
    | 1, 0 => cases h1; cases h2; cases h3; cases h4; exact ⟨_, rfl⟩
    | 0, j + 1 => cases h1; simp at h2
    | 1, j + 1 => cases h1; simp at h2
    | i + 2, _ => simp [mixedSheet] at h1
  obtain ⟨p, hp, -, -, h1⟩ := hall (fun _ => []) exUp exactMul mixedSheet ⟨rfl, rfl, by decide, by decide⟩ hty _ _ _ _ _ _ he (by simp)
  obtain ⟨a, ha, h2⟩ := h1 0 0 _ rfl
  have hp' : packOfLists (fun _ => []) [(0, [.str ['a'], .bool true])] [] =
      .ok (Pack.init [(0, ⟨.U, [.str ['a'], .str "True".toList]⟩)] []) := by decide +kernel
  rw [hp'] at hp
  cases hp
  rw [(init_data _ _).1] at ha
  cases ha
  cases h2 with
  | cons h3 h4 =>
    cases h4 with
    | cons h5 h6 => cases same_str h5

/-- C95_sheet_partial: the sheet of the examples of C31. -/
example : (∀ r c v t, exSheet.HasCell r c v t → CellTyped t v) ∧
    ∀ x ∈ [((0 : Int), [Val.str ['x'], .str []]), (1, [.flt 1, .flt 2]), (2, [.datetime 43831 0, .str ['y']])], SheetColumn x.2 := by
  constructor
  · rintro r c v t ⟨hr, hc, ⟨row, h1, h2⟩, row', h3, h4⟩
    generalize r.toNat = i at h1 h3
    generalize c.toNat = j at h2 h4
    match i, j with
    | 0, 0 => cases h1; cases h2; cases h3; cases h4; exact ⟨_, rfl⟩
    | 0, 1 => cases h1; cases h2; cases h3; cases h4; exact ⟨_, rfl⟩
    | 0, 2 => cases h1; cases h2; cases h3; cases h4; exact ⟨_, rfl⟩
    | 1, 0 => cases h1; cases h2; cases h3; cases h4; exact ⟨_, rfl⟩
    | 1, 1 => cases h1; cases h2; cases h3; cases h4; exact .inl ⟨_, rfl⟩
    | 1, 2 => cases h1; cases h2; cases h3; cases h4; exact .inl ⟨_, rfl⟩
    | 2, 0 => cases h1; cases h2; cases h3; cases h4; exact rfl
    | 2, 1 => cases h1; cases h2; cases h3; cases h4; exact .inl ⟨_, rfl⟩
    | 2, 2 => cases h1; cases h2; cases h3; cases h4; exact ⟨_, rfl⟩
    | 0, j + 3 => cases h1; simp at h2
    | 1, j + 3 => cases h1; simp at h2
    | 2, j + 3 => cases h1; simp at h2
    | i + 3, _ => simp [exSheet] at h1
  · intro x hx
    simp only [List.mem_cons, List.not_mem_nil, or_false] at hx
    rcases hx with rfl | rfl | rfl
    · refine .inr (.inl fun v hv => ?_)
      simp only [List.mem_cons, List.not_mem_nil, or_false] at hv
      rcases hv with rfl | rfl
      · exact ⟨_, rfl, by decide⟩
      · exact ⟨_, rfl, by decide⟩
    · refine .inl fun v hv => .inl ?_
      simp only [List.mem_cons, List.not_mem_nil, or_false] at hv
      rcases hv with rfl | rfl <;> exact .inl ⟨_, rfl⟩
    · exact .inr (.inr ⟨.datetime 43831 0, by simp, .inr ⟨_, _, rfl⟩⟩)

end CP
