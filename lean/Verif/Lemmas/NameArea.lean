import Verif.Lemmas.NameCells
/-!
# Lemmas: the boxes of areas
-/

namespace CP
open CP.Spec
variable {ν : Type}

/-! ### Work sheets by their numbers -/

/-- The number of work sheets before the sheet number `k`. -/
def rankOf (all : List (List Char × Nat)) (k : Nat) : Nat := ((all.take k).filter fun p => p.2 = 0).length

theorem rankOf_succ {all : List (List Char × Nat)} {k : Nat} {p : List Char × Nat} (h : all[k]? = some p) :
    rankOf all (k + 1) = rankOf all k + if p.2 = 0 then 1 else 0 := by
  unfold rankOf
  rw [List.take_add_one, h, List.filter_append, List.length_append]
  congr 1
  rw [Option.toList_some, List.filter_cons]
  by_cases c : p.2 = 0 <;> simp [c]

theorem rankOf_mono (all : List (List Char × Nat)) {i j : Nat} (h : i ≤ j) : rankOf all i ≤ rankOf all j := by
  induction j with
  | zero => rw [show i = 0 by omega]; exact Nat.le_refl _
  | succ j ih =>
    by_cases c : i = j + 1
    · rw [c]; exact Nat.le_refl _
    refine Nat.le_trans (ih (by omega)) ?_
    unfold rankOf
    rw [List.take_add_one, List.filter_append, List.length_append]
    omega

theorem rankOf_find {all : List (List Char × Nat)} {s : Nat} : ∀ {n : Nat}, s < rankOf all n → ∃ k, k < n ∧ WorkSheetAt all k s
  | 0, h => by simp [rankOf] at h
  | n + 1, h => by
    by_cases c : s < rankOf all n
    · obtain ⟨k, h1, h2⟩ := rankOf_find c
      exact ⟨k, by omega, h2⟩
    cases hp : all[n]? with
    | none =>
      unfold rankOf at h c
      rw [List.take_add_one, hp] at h
      simp at h c
      omega
    | some p =>
      rw [rankOf_succ hp] at h
      by_cases hw : p.2 = 0
      · rw [if_pos hw] at h
        exact ⟨n, by omega, ⟨p.1, by rw [hp, ← hw]⟩, show rankOf all n = s by omega⟩
      · rw [if_neg hw] at h
        omega

/-- The work sheets among sheets that begin and end with one. -/
theorem sheets_between {all : List (List Char × Nat)} {s1 s2 s : Nat} (h2 : ∃ name, all[s2]? = some (name, 0)) :
    (∃ k, s1 ≤ k ∧ k ≤ s2 ∧ WorkSheetAt all k s) ↔ rankOf all s1 ≤ s ∧ s < rankOf all s2 + 1 := by
  constructor
  · rintro ⟨k, a, b, -, e⟩
    have e : rankOf all k = s := e
    have := rankOf_mono all a
    have := rankOf_mono all b
    omega
  · rintro ⟨a, b⟩
    obtain ⟨name, h2⟩ := h2
    obtain ⟨k, hk, hw⟩ := rankOf_find (n := s2 + 1) (s := s) (by rw [rankOf_succ h2, if_pos rfl]; omega)
    refine ⟨k, ?_, by omega, hw⟩
    apply Decidable.byContradiction
    intro c
    obtain ⟨⟨name', h3⟩, h4⟩ := hw
    have e1 := rankOf_succ h3
    rw [if_pos rfl] at e1
    have := rankOf_mono all (show k + 1 ≤ s1 by omega)
    have h4 : rankOf all k = s := h4
    omega

theorem sheetMap_len (all : List (List Char × Nat)) : ∀ k, (sheetMap k all).length = all.length := by
  induction all with
  | nil => intro k; rfl
  | cons p all ih =>
    intro k
    unfold sheetMap
    split <;> simp [ih]

theorem sheetMap_rank {all : List (List Char × Nat)} {i : Nat} {name : List Char} (h : all[i]? = some (name, 0)) :
    ∀ k, (sheetMap k all)[i]? = some (((k + rankOf all i : Nat)) : Int) := by
  induction all generalizing i with
  | nil => simp at h
  | cons p all ih =>
    obtain ⟨n, t⟩ := p
    intro k
    unfold sheetMap
    cases i with
    | zero =>
      rw [List.getElem?_cons_zero, Option.some.injEq, Prod.mk.injEq] at h
      rw [if_pos h.2, List.getElem?_cons_zero]
      rfl
    | succ i =>
      rw [List.getElem?_cons_succ] at h
      split
      · rename_i ht
        rw [List.getElem?_cons_succ, ih h]
        simp [rankOf, ht]
        omega
      · rename_i ht
        rw [List.getElem?_cons_succ, ih h]
        simp [rankOf, ht]

/-! ### Boxes -/

/-- The coordinates of a box. -/
structure Box6 where
  (s1 s2 r1 r2 c1 c2 : Int)

def Box6.list (b : Box6) : List Int := [b.s1, b.s2, b.r1, b.r2, b.c1, b.c2]

/-- The box of an area. -/
def boxOf (all : List (List Char × Nat)) : AreaExpr → Box6
  | .box s1 s2 r1 r2 c1 c2 => ⟨rankOf all s1, (rankOf all s2 : Int) + 1, r1, (r2 : Int) + 1, c1, (c2 : Int) + 1⟩
  | .both a b => ⟨max (boxOf all a).s1 (boxOf all b).s1, min (boxOf all a).s2 (boxOf all b).s2, max (boxOf all a).r1 (boxOf all b).r1,
      min (boxOf all a).r2 (boxOf all b).r2, max (boxOf all a).c1 (boxOf all b).c1, min (boxOf all a).c2 (boxOf all b).c2⟩
  | .span a b => ⟨min (boxOf all a).s1 (boxOf all b).s1, max (boxOf all a).s2 (boxOf all b).s2, min (boxOf all a).r1 (boxOf all b).r1,
      max (boxOf all a).r2 (boxOf all b).r2, min (boxOf all a).c1 (boxOf all b).c1, max (boxOf all a).c2 (boxOf all b).c2⟩

/-- What is in a box. -/
def InBox (b : Box6) (s r c : Nat) : Prop := (b.s1 ≤ s ∧ (s : Int) < b.s2) ∧ (b.r1 ≤ r ∧ (r : Int) < b.r2) ∧ b.c1 ≤ c ∧ (c : Int) < b.c2

theorem amid_union {S : Nat → Prop} {l1 h1 l2 h2 : Int} (p1 : 0 ≤ l1) (p2 : 0 ≤ l2) (n1 : l1 < h1) (n2 : l2 < h2)
    (hS : ∀ x : Nat, S x ↔ (l1 ≤ x ∧ (x : Int) < h1) ∨ (l2 ≤ x ∧ (x : Int) < h2)) (x : Nat) :
    Amid S x ↔ min l1 l2 ≤ x ∧ (x : Int) < max h1 h2 := by
  constructor
  · rintro ⟨y, z, hy, hz, a, b⟩
    rw [hS] at hy hz
    omega
  · rintro ⟨a, b⟩
    refine ⟨(min l1 l2).toNat, (max h1 h2 - 1).toNat, (hS _).2 ?_, (hS _).2 ?_, by omega, by omega⟩
    · omega
    · omega

/-- The cells of an area are those of its box. -/
theorem boxOf_cells {all : List (List Char × Nat)} : ∀ {e : AreaExpr}, e.Ok all →
    (0 ≤ (boxOf all e).s1 ∧ 0 ≤ (boxOf all e).r1 ∧ 0 ≤ (boxOf all e).c1 ∧ (boxOf all e).s2 ≤ rankOf all all.length) ∧ ∀ s r c, e.cells all s r c ↔ InBox (boxOf all e) s r c
  | .box s1 s2 r1 r2 c1 c2, h => by
    obtain ⟨-, -, ⟨name, h2⟩, -, -⟩ := h
    have hl : s2 < all.length := (List.getElem?_eq_some_iff.1 h2).1
    have h3 := rankOf_mono all (show s2 + 1 ≤ all.length from hl)
    rw [rankOf_succ h2, if_pos rfl] at h3
    refine ⟨⟨by simp [boxOf], by simp [boxOf], by simp [boxOf], by simp [boxOf]; omega⟩, fun s r c => ?_⟩
    simp only [AreaExpr.cells, InBox, boxOf]
    rw [sheets_between ⟨name, h2⟩]
    omega
  | .both a b, h => by
    obtain ⟨p, ha⟩ := boxOf_cells h.1
    obtain ⟨q, hb⟩ := boxOf_cells h.2
    refine ⟨by simp only [boxOf]; omega, fun s r c => ?_⟩
    simp only [AreaExpr.cells, ha, hb, InBox, boxOf]
    omega
  | .span a b, h => by
    obtain ⟨h1, h2, ⟨sa, ra, ca, na⟩, sb, rb, cb, nb⟩ := h
    obtain ⟨p, ha⟩ := boxOf_cells h1
    obtain ⟨q, hb⟩ := boxOf_cells h2
    rw [ha] at na
    rw [hb] at nb
    refine ⟨by simp only [boxOf]; omega, fun s r c => ?_⟩
    simp only [AreaExpr.cells, ha, hb]
    unfold InBox at na nb
    have m1 : (boxOf all a).s1 < (boxOf all a).s2 := by omega
    have m2 : (boxOf all b).s1 < (boxOf all b).s2 := by omega
    have m3 : (boxOf all a).r1 < (boxOf all a).r2 := by omega
    have m4 : (boxOf all b).r1 < (boxOf all b).r2 := by omega
    have m5 : (boxOf all a).c1 < (boxOf all a).c2 := by omega
    have m6 : (boxOf all b).c1 < (boxOf all b).c2 := by omega
    have k1 := amid_union (S := fun s => ∃ r c, InBox (boxOf all a) s r c ∨ InBox (boxOf all b) s r c) p.1 q.1 m1 m2 (fun x => by
      constructor
      · rintro ⟨r, c, h | h⟩
        · exact .inl h.1
        · exact .inr h.1
      · rintro (h | h)
        · exact ⟨ra, ca, .inl ⟨h, na.2⟩⟩
        · exact ⟨rb, cb, .inr ⟨h, nb.2⟩⟩) s
    have k2 := amid_union (S := fun r => ∃ s c, InBox (boxOf all a) s r c ∨ InBox (boxOf all b) s r c) p.2.1 q.2.1 m3 m4 (fun x => by
      constructor
      · rintro ⟨s, c, h | h⟩
        · exact .inl h.2.1
        · exact .inr h.2.1
      · rintro (h | h)
        · exact ⟨sa, ca, .inl ⟨na.1, h, na.2.2⟩⟩
        · exact ⟨sb, cb, .inr ⟨nb.1, h, nb.2.2⟩⟩) r
    have k3 := amid_union (S := fun c => ∃ s r, InBox (boxOf all a) s r c ∨ InBox (boxOf all b) s r c) p.2.2.1 q.2.2.1 m5 m6 (fun x => by
      constructor
      · rintro ⟨s, r, h | h⟩
        · exact .inl h.2.2
        · exact .inr h.2.2
      · rintro (h | h)
        · exact ⟨sa, ra, .inl ⟨na.1, na.2.1, h⟩⟩
        · exact ⟨sb, rb, .inr ⟨nb.1, nb.2.1, h⟩⟩) c
    rw [k1, k2, k3]
    exact Iff.rfl

/-! ### Tokens -/

/-- The references of areas. -/
def areaRef (all : List (List Char × Nat)) (e : AreaExpr) : Ref3 := absRef (boxOf all e).list

/-- What formulas with areas are evaluated with. -/
structure AreaFit (B : FmlaBook ν) (ds : List NameRec) (all : List (List Char × Nat)) : Prop where
  info : B.st.info = xtisOf ds
  map : B.map = sheetMap 0 all
  locals : ∀ i : Nat, (supKinds ds)[i]? = some .own → B.st.locals = some i
  addins : ∀ i, B.st.addins = some i → (supKinds ds)[i]? = some .addIns

section
variable {B : FmlaBook ν} {ds : List NameRec} {all : List (List Char × Nat)} {data : Bytes}

theorem localRange_own (hB : AreaFit B ds all) {s1 s2 : Nat} (h : s1 ≤ s2) (h1 : ∃ name, all[s1]? = some (name, 0))
    (h2 : ∃ name, all[s2]? = some (name, 0)) (bad : Int) : localRange B.map s1 s2 bad = ((rankOf all s1 : Int), (rankOf all s2 : Int)) := by
  obtain ⟨n1, h1⟩ := h1
  obtain ⟨n2, h2⟩ := h2
  have hl : s2 < all.length := (List.getElem?_eq_some_iff.1 h2).1
  have e1 := sheetMap_rank h1 0
  have e2 := sheetMap_rank h2 0
  have hm := rankOf_mono all h
  unfold localRange
  rw [hB.map, if_neg (by rw [sheetMap_len]; omega)]
  dsimp only
  rw [Int.toNat_natCast, Int.toNat_natCast, List.getD_eq_getElem?_getD, List.getD_eq_getElem?_getD, e1, e2]
  simp only [Option.getD_some, Nat.zero_add]
  rw [if_neg (by omega)]

theorem sheetBytes_len {s1 s2 : Nat} {sh : Bytes} (h : SheetBytes B.v8 ds s1 s2 sh) : sh.length = if B.v8 then 2 else 14 := by
  cases h with
  | xti hv => rw [hv, leBytes_length]; rfl
  | own hv _ _ hm => rw [hv]; simp [leBytes_length, hm]

theorem leInt2_small {n : Nat} (h : n < 32768) : leInt2 (leBytes 2 n) = n := by
  unfold leInt2
  rw [leNat_leBytes (by omega), if_pos h]

theorem refSheets_own (hB : AreaFit B ds all) {s1 s2 : Nat} {op : UInt8} {b sh rest : Bytes} (h : SheetBytes B.v8 ds s1 s2 sh) (h12 : s1 ≤ s2)
    (h1 : ∃ name, all[s1]? = some (name, 0)) (h2 : ∃ name, all[s2]? = some (name, 0)) (hd : data = b ++ (op :: (sh ++ rest))) :
    refSheets B data b.length = .ok ((rankOf all s1 : Int), (rankOf all s2 : Int)) := by
  unfold refSheets
  cases h with
  | @xti i k _ _ hv hi hx hk hs =>
    rw [if_pos hv, slice_after hd rfl (by rw [leBytes_length]), unpackNat_leBytes (by omega)]
    dsimp only
    unfold externRange
    rw [hB.info, hx]
    dsimp only
    rw [if_neg (fun c => by rw [hB.addins k c] at hk; cases hk), if_neg (by rw [hB.locals k hk]; simp), if_neg (by omega), if_neg (by omega),
      localRange_own hB h12 h1 h2]
  | @own x mid _ _ hv hx hx' hm hs1 hs2 =>
    have hl : (leBytes 2 x ++ mid ++ leBytes 2 s1 ++ leBytes 2 s2).length = 14 := by simp [leBytes_length, hm]
    rw [hv, if_neg (by decide)]
    dsimp only
    rw [slice_after hd rfl (by rw [hl]), if_pos hl]
    have t1 : (leBytes 2 x ++ mid ++ leBytes 2 s1 ++ leBytes 2 s2).take 2 = leBytes 2 x := by
      rw [List.append_assoc, List.append_assoc, List.take_append_of_le_length (by rw [leBytes_length]; omega), List.take_of_length_le (by rw [leBytes_length]; omega)]
    have t2 : pySlice (leBytes 2 x ++ mid ++ leBytes 2 s1 ++ leBytes 2 s2) 10 12 = leBytes 2 s1 :=
      pySlice_at (pre := leBytes 2 x ++ mid) (post := leBytes 2 s2) (by simp) (by simp [leBytes_length, hm]) (by simp [leBytes_length])
    have t3 : (leBytes 2 x ++ mid ++ leBytes 2 s1 ++ leBytes 2 s2).drop 12 = leBytes 2 s2 := by
      rw [List.drop_append_of_le_length (by simp [leBytes_length, hm]), List.drop_of_length_le (by simp [leBytes_length, hm])]
      rfl
    rw [t1, t2, t3, leInt2_small hs1, leInt2_small hs2]
    unfold externRange57
    have hx0 : ¬ 0 < leInt2 (leBytes 2 x) := by
      unfold leInt2
      rw [leNat_leBytes (by omega)]
      split <;> omega
    rw [if_neg hx0, if_neg (by omega), localRange_own hB h12 h1 h2]

theorem adjust_abs {v8 : Bool} {r c : Nat} (h : RowsCols v8 r c) : adjustCell v8 r c = ((r : Int), (c : Int), 0, 0) := by
  obtain ⟨hr, hc⟩ := h
  unfold adjustCell
  cases v8 with
  | true =>
    rw [if_pos rfl] at hr
    rw [if_pos rfl]
    dsimp only
    rw [show c / 2 ^ 15 % 2 = 0 by omega, show c / 2 ^ 14 % 2 = 0 by omega, if_neg (by omega), if_neg (by omega), Nat.mod_eq_of_lt hc]
  | false =>
    rw [if_neg (by decide)] at hr
    rw [if_neg (by decide)]
    dsimp only
    rw [show r / 2 ^ 15 % 2 = 0 by omega, show r / 2 ^ 14 % 2 = 0 by omega, if_neg (by omega), if_neg (by omega), Nat.mod_eq_of_lt (by omega)]

theorem cellAddr_abs {v8 : Bool} {r c pos : Nat} (h : RowsCols v8 r c) {b rest : Bytes}
    (hd : data = b ++ ((leBytes 2 r ++ leBytes (if v8 then 2 else 1) c) ++ rest)) (hp : pos = b.length) :
    cellAddr v8 data pos = .ok ((r : Int), (c : Int), 0, 0) := by
  have hl : (leBytes 2 r ++ leBytes (if v8 then 2 else 1) c).length = if v8 then 4 else 3 := by
    cases v8 <;> simp [leBytes_length]
  unfold cellAddr
  dsimp only
  rw [pySlice_at hd hp (by rw [hl]), if_pos hl, List.take_append_of_le_length (by rw [leBytes_length]; omega),
    List.take_of_length_le (by rw [leBytes_length]; omega), List.drop_append_of_le_length (by rw [leBytes_length]; omega),
    List.drop_of_length_le (by rw [leBytes_length]; omega), List.nil_append, leNat_leBytes (by have := h.1; cases v8 <;> simp at this <;> omega),
    leNat_leBytes (by have := h.2; cases v8 <;> simp <;> omega), adjust_abs h]

theorem cellRangeAddr_abs {v8 : Bool} {r1 c1 r2 c2 pos : Nat} (h1 : RowsCols v8 r1 c1) (h2 : RowsCols v8 r2 c2) {b rest : Bytes}
    (hd : data = b ++ ((leBytes 2 r1 ++ leBytes 2 r2 ++ leBytes (if v8 then 2 else 1) c1 ++ leBytes (if v8 then 2 else 1) c2) ++ rest))
    (hp : pos = b.length) : cellRangeAddr v8 data pos = .ok (((r1 : Int), (c1 : Int), 0, 0), ((r2 : Int), (c2 : Int), 0, 0)) := by
  unfold cellRangeAddr
  dsimp only
  generalize hw : (if v8 then 2 else 1) = w at *
  have hl : (leBytes 2 r1 ++ leBytes 2 r2 ++ leBytes w c1 ++ leBytes w c2).length = 4 + 2 * w := by
    simp [leBytes_length]; omega
  have hc : ∀ {c : Nat}, c < 256 → c < 256 ^ w := by
    intro c h
    cases v8 <;> simp at hw <;> subst hw <;> simp <;> omega
  have hr : ∀ {r c : Nat}, RowsCols v8 r c → r < 256 ^ 2 := by
    intro r c h
    have := h.1
    cases v8 <;> simp at this <;> omega
  rw [pySlice_at hd hp (by rw [hl]; omega), if_pos hl]
  have t1 : (leBytes 2 r1 ++ leBytes 2 r2 ++ leBytes w c1 ++ leBytes w c2).take 2 = leBytes 2 r1 := by
    rw [List.append_assoc, List.append_assoc, List.take_append_of_le_length (by rw [leBytes_length]; omega), List.take_of_length_le (by rw [leBytes_length]; omega)]
  have t2 : pySlice (leBytes 2 r1 ++ leBytes 2 r2 ++ leBytes w c1 ++ leBytes w c2) 4 (4 + w) = leBytes w c1 :=
    pySlice_at (pre := leBytes 2 r1 ++ leBytes 2 r2) (post := leBytes w c2) (by simp) (by simp [leBytes_length]) (by simp [leBytes_length])
  have t3 : pySlice (leBytes 2 r1 ++ leBytes 2 r2 ++ leBytes w c1 ++ leBytes w c2) 2 4 = leBytes 2 r2 :=
    pySlice_at (pre := leBytes 2 r1) (post := leBytes w c1 ++ leBytes w c2) (by simp) (by simp [leBytes_length]) (by simp [leBytes_length])
  have t4 : (leBytes 2 r1 ++ leBytes 2 r2 ++ leBytes w c1 ++ leBytes w c2).drop (4 + w) = leBytes w c2 := by
    rw [List.drop_append_of_le_length (by simp [leBytes_length]; omega), List.drop_of_length_le (by simp [leBytes_length]; omega)]
    rfl
  rw [t1, t2, t3, t4, leNat_leBytes (hr h1), leNat_leBytes (hr h2), leNat_leBytes (hc h1.2), leNat_leBytes (hc h2.2), adjust_abs h1, adjust_abs h2]

theorem pushes_cell (hB : AreaFit B ds all) {s1 s2 r c : Nat} {sh : Bytes} (h : SheetBytes B.v8 ds s1 s2 sh) (hr : RowsCols B.v8 r c)
    (ho : (AreaExpr.box s1 s2 r r c c).Ok all) :
    Pushes B (0x3A :: (sh ++ (leBytes 2 r ++ leBytes (if B.v8 then 2 else 1) c))) (.opnd oRef (.refs [areaRef all (.box s1 s2 r r c c)])) := by
  obtain ⟨h12, h1, h2, -, -⟩ := ho
  intro deep namex data len b post s hd hl
  refine ⟨1, by simp, fun n => ?_⟩
  have hlen := sheetBytes_len h
  refine loop_token (t := 0x3A :: (sh ++ (leBytes 2 r ++ leBytes (if B.v8 then 2 else 1) c))) (sz := if B.v8 then 7 else 18) ?_ ?_ (by simp) hl n
  · rw [token_class (op := 0x3A) (c := 0x1A) (sz := if B.v8 then 7 else 18) (rest := sh ++ (leBytes 2 r ++ leBytes (if B.v8 then 2 else 1) c) ++ post) (by constructor <;> decide)
      (by cases B.v8 <;> rfl) (by rw [hd]; simp)]
    unfold classToken
    simp only [Nat.reduceEqDiff, ↓reduceIte, or_self]
    rw [cellAddr_abs hr (b := b ++ (0x3A :: sh)) (rest := post) (by rw [hd]; simp) (by rw [List.length_append, List.length_cons, hlen]; cases B.v8 <;> rfl)]
    dsimp only
    rw [refSheets_own hB h h12 h1 h2 (op := 0x3A) (b := b) (rest := (leBytes 2 r ++ leBytes (if B.v8 then 2 else 1) c) ++ post) (by rw [hd]; simp)]
    dsimp only
    rw [decide_eq_false (show ¬ ((rankOf all s1 : Int) < -1) by omega), Bool.or_false]
    rfl
  · rw [List.length_cons, List.length_append, List.length_append, hlen, leBytes_length, leBytes_length]
    cases B.v8 <;> rfl

theorem pushes_area (hB : AreaFit B ds all) {s1 s2 r1 r2 c1 c2 : Nat} {sh : Bytes} (h : SheetBytes B.v8 ds s1 s2 sh) (hr1 : RowsCols B.v8 r1 c1)
    (hr2 : RowsCols B.v8 r2 c2) (ho : (AreaExpr.box s1 s2 r1 r2 c1 c2).Ok all) :
    Pushes B (0x3B :: (sh ++ (leBytes 2 r1 ++ leBytes 2 r2 ++ leBytes (if B.v8 then 2 else 1) c1 ++ leBytes (if B.v8 then 2 else 1) c2)))
      (.opnd oRef (.refs [areaRef all (.box s1 s2 r1 r2 c1 c2)])) := by
  obtain ⟨h12, h1, h2, -, -⟩ := ho
  intro deep namex data len b post s hd hl
  refine ⟨1, by simp, fun n => ?_⟩
  have hlen := sheetBytes_len h
  refine loop_token (t := 0x3B :: (sh ++ (leBytes 2 r1 ++ leBytes 2 r2 ++ leBytes (if B.v8 then 2 else 1) c1 ++ leBytes (if B.v8 then 2 else 1) c2)))
    (sz := if B.v8 then 11 else 21) ?_ ?_ (by simp) hl n
  · rw [token_class (op := 0x3B) (c := 0x1B) (sz := if B.v8 then 11 else 21)
      (rest := sh ++ (leBytes 2 r1 ++ leBytes 2 r2 ++ leBytes (if B.v8 then 2 else 1) c1 ++ leBytes (if B.v8 then 2 else 1) c2) ++ post)
      (by constructor <;> decide) (by cases B.v8 <;> rfl) (by rw [hd]; simp)]
    unfold classToken
    simp only [Nat.reduceEqDiff, ↓reduceIte, or_self]
    rw [cellRangeAddr_abs hr1 hr2 (b := b ++ (0x3B :: sh)) (rest := post) (by rw [hd]; simp)
      (by rw [List.length_append, List.length_cons, hlen]; cases B.v8 <;> rfl)]
    dsimp only
    rw [refSheets_own hB h h12 h1 h2 (op := 0x3B) (b := b)
      (rest := (leBytes 2 r1 ++ leBytes 2 r2 ++ leBytes (if B.v8 then 2 else 1) c1 ++ leBytes (if B.v8 then 2 else 1) c2) ++ post) (by rw [hd]; simp)]
    dsimp only
    rw [decide_eq_false (show ¬ ((rankOf all s1 : Int) < -1) by omega), Bool.or_false]
    rfl
  · simp only [List.length_cons, List.length_append, hlen, leBytes_length]
    cases B.v8 <;> rfl

theorem pushes_expr (hB : AreaFit B ds all) {e : AreaExpr} {t : Bytes} (h : AreaBytes B.v8 ds e t) (ho : e.Ok all) :
    Pushes B t (.opnd oRef (.refs [areaRef all e])) := by
  induction h with
  | cell h hr => exact pushes_cell hB h hr ho
  | area h hr1 hr2 => exact pushes_area hB h hr1 hr2 ho
  | both _ _ iha ihb => exact pushes_two (by decide) (by decide) rfl (iha ho.1) (ihb ho.2) rfl
  | span _ _ iha ihb => exact pushes_two (by decide) (by decide) rfl (iha ho.1) (ihb ho.2.1) rfl
  | before hn _ ih => exact pushes_before hn (ih ho)
  | after _ hn ih => exact pushes_after (ih ho) hn

theorem pushes_areas (hB : AreaFit B ds all) {as : List AreaExpr} {t : Bytes} (h : AreasBytes B.v8 ds as t) (ho : ∀ a ∈ as, a.Ok all) :
    as ≠ [] ∧ Pushes B t (.opnd oRef (.refs (as.map (areaRef all)))) := by
  induction h with
  | one h => exact ⟨by simp, pushes_expr hB h (ho _ (by simp))⟩
  | @more as a x y _ hy ih =>
    obtain ⟨hne, ih⟩ := ih fun a ha => ho a (by simp [ha])
    refine ⟨by simp, pushes_two (by decide) (by decide) rfl ih (pushes_expr hB hy (ho a (by simp))) ?_⟩
    rw [if_neg (by decide), if_pos (by decide)]
    have : 1 ≤ as.length := List.length_pos_iff.2 hne
    simp [doList, oErr, oRef, oRel, this]
  | before hn _ ih => exact ⟨(ih ho).1, pushes_before hn (ih ho).2⟩
  | after _ hn ih => exact ⟨(ih ho).1, pushes_after (ih ho).2 hn⟩

theorem loop_end {deep : Nat → Int → Evals ν → Except Exc (Evals ν)} {namex : Int} {len pos : Nat} (h : len ≤ pos) {s : FmlaSt ν} :
    ∀ n, fmlaLoop B deep namex data len n pos s = .ok s
  | 0 => rfl
  | n + 1 => by rw [fmlaLoop, if_neg (by omega)]

/-- The value of a name whose formula leaves one operand. -/
theorem evalName_pushes {t post : Bytes} {x : Opnd ν} (h : Pushes B t x) (ht : t ≠ []) {j : Nat} {o : NameObj} (ho : B.st.names[j]? = some o)
    (hr : o.raw = t ++ post) (hl : o.len = t.length) : ∀ n namex ev ev', evalName B n j namex ev = .ok ev' → ev' = ev.set j (some ([x], false))
  | 0, _, _, _, he => by cases he
  | n + 1, namex, ev, ev', he => by
    have hpos : 0 < t.length := List.length_pos_iff.2 ht
    obtain ⟨m, hm, e⟩ := h (evalName B n) namex o.raw o.len [] post ⟨[], false, ev⟩ (by rw [hr]; rfl) (by rw [hl]; simp)
    have e := e (o.len - m)
    rw [show m + (o.len - m) = o.len by omega, loop_end (pos := (([] : Bytes) ++ t).length) (by rw [hl]; simp)] at e
    unfold evalName at he
    rw [ho] at he
    dsimp only at he
    rw [if_neg (by omega)] at he
    simp only [List.length_nil] at e
    rw [e] at he
    cases he
    rfl

end

/-! ### The records -/

/-- The SUPBOOK record for the book itself is known. -/
def LocalsIs (ds : List NameRec) (s : NameSt) : Prop := ∀ i : Nat, (supKinds ds)[i]? = some .own → s.locals = some i

theorem supbook_locals {s s' : NameSt} {data : Bytes} (h : handleSupbook s data = .ok s') :
    s'.locals = s.locals ∨ s'.locals = some s.sups.length := by
  unfold handleSupbook at h
  split at h
  · cases h
  split at h
  · cases h; exact .inr rfl
  split at h
  · cases h; exact .inl rfl
  split at h
  · cases h
  split at h
  · cases h; exact .inl rfl
  · generalize supSheets data _ _ = x at h
    cases x with
    | error _ => cases h
    | ok _ => cases h; exact .inl rfl

theorem others_locals {bv : Nat} {text : Bytes → Except Exc (List Char)} {s s' : NameSt} {r : Rec} {after : List Rec} {k : Nat} (hc : r.code ≠ 0x1AE)
    (h : handleNames bv text s r after = .ok (s', k)) : s'.locals = s.locals := by
  unfold handleNames at h
  split at h
  · cases hx : handleExternname bv s r.data with
    | error _ => rw [hx] at h; cases h
    | ok s1 =>
      rw [hx] at h
      cases h
      unfold handleExternname at hx
      split at hx
      · cases hx; rfl
      split at hx
      · split at hx
        · cases hx
        · split at hx
          · cases hx
          · cases hx; rfl
      · cases hx
  split at h
  · unfold handleExternsheet at h
    dsimp only at h
    split at h
    · split at h
      · cases h
      · split at h
        · cases h
        · cases h; rfl
    · split at h
      · rename_i ty _
        by_cases c : ty = (3 : UInt8)
        · rw [if_pos c] at h
          split at h
          · cases h
          · cases h; rfl
        · rw [if_neg c] at h
          cases h; rfl
      · cases h
  cases hx : handleName bv text s r.data with
  | error _ => rw [hx] at h; cases h
  | ok s1 =>
    rw [hx] at h
    cases h
    unfold handleName at hx
    split at hx
    · dsimp only at hx
      generalize (if bv < 80 then _ else _ : Except Exc Int) = pos at hx
      cases pos with
      | error _ => cases hx
      | ok _ => cases hx; rfl
    · cases hx

theorem locals_step {v8 : Bool} {bv : Nat} {text : Bytes → Except Exc (List Char)} {ds : List NameRec} {s s' : NameSt} {g : NameGroup} {d : NameRec}
    (hs : NameStIs v8 ds s) (hs' : NameStIs v8 (ds ++ [d]) s') (hl : LocalsIs ds s) (h1 : OneOwn (ds ++ [d])) (hg : NameGroupIs v8 g d) {after : List Rec} {k : Nat}
    (h : handleNames bv text s (toRec g.head) after = .ok (s', k)) : LocalsIs (ds ++ [d]) s' := by
  have hother : (∀ k, d ≠ .supbook k) → LocalsIs (ds ++ [d]) s' := by
    intro hd
    have hk : supKinds (ds ++ [d]) = supKinds ds := by
      cases d with
      | supbook k => exact absurd rfl (hd k)
      | _ => simp [supKinds]
    have hcode : (toRec g.head).code ≠ 0x1AE := by
      unfold NameGroupIs at hg
      generalize g.head = head at hg
      generalize g.conts = conts at hg
      cases hg with
      | own => exact absurd rfl (hd _)
      | addIns => exact absurd rfl (hd _)
      | other => exact absurd rfl (hd _)
      | _ => simp [toRec]
    intro i hi
    rw [hk] at hi
    rw [others_locals hcode h]
    exact hl i hi
  cases d with
  | supbook q =>
    have e4 : supKinds (ds ++ [.supbook q]) = supKinds ds ++ [q] := by simp [supKinds]
    have hcode : (toRec g.head).code = 0x1AE := by
      unfold NameGroupIs at hg
      generalize g.head = head at hg
      generalize g.conts = conts at hg
      cases hg <;> rfl
    unfold handleNames at h
    rw [hcode, if_neg (by decide), if_neg (by decide), if_pos rfl] at h
    cases hx : handleSupbook s (toRec g.head).data with
    | error _ => rw [hx] at h; cases h
    | ok s1 =>
      rw [hx] at h
      cases h
      by_cases hq : q = .own
      · subst hq
        have hnew : s'.locals = some s.sups.length := by
          unfold NameGroupIs at hg
          generalize g.head = head at hg hx
          generalize g.conts = conts at hg
          cases hg with
          | @own n more _ hn =>
            have e : (toRec (0x1AE, leBytes 2 n ++ [1, 4] ++ more)).data = leBytes 2 n ++ ([1, 4] ++ more) := by simp [toRec]
            rw [e] at hx
            unfold handleSupbook at hx
            rw [List.take_append_of_le_length (by rw [leBytes_length]; omega), List.take_of_length_le (by rw [leBytes_length]; omega),
              unpackNat_leBytes (by omega)] at hx
            dsimp only at hx
            rw [if_pos (pySlice_at (pre := leBytes 2 n) (m := [1, 4]) (post := more) (a := 2) (b := 4) rfl (by rw [leBytes_length]) rfl)] at hx
            cases hx
            rfl
        intro i hi
        rw [hnew, hs.sups]
        refine congrArg some (h1 _ _ ?_ hi)
        rw [e4, List.getElem?_append_right (by omega), Nat.sub_self]
        rfl
      · intro i hi
        rw [e4] at hi
        have hi' : (supKinds ds)[i]? = some .own := by
          by_cases c : i < (supKinds ds).length
          · rwa [List.getElem?_append_left c] at hi
          · rw [List.getElem?_append_right (by omega)] at hi
            cases e : i - (supKinds ds).length with
            | zero => rw [e] at hi; cases hi; exact absurd rfl hq
            | succ n => rw [e] at hi; cases hi
        rcases supbook_locals hx with e | e
        · rw [e]
          exact hl i hi'
        · have := hs'.locals _ e
          rw [e4, hs.sups, List.getElem?_append_right (by omega), Nat.sub_self] at this
          cases this
          exact absurd rfl hq
  | externName => exact hother (by simp)
  | sheets _ => exact hother (by simp)
  | sheet5 _ _ => exact hother (by simp)
  | name _ => exact hother (by simp)

/-- The records of groups. -/
def groupRecs (gs : List NameGroup) : List Rec := gs.flatMap fun g => toRec g.head :: g.conts.map toRec

theorem oneOwn_left {a b : List NameRec} (h : OneOwn (a ++ b)) : OneOwn a := by
  have e : supKinds (a ++ b) = supKinds a ++ supKinds b := by simp [supKinds]
  have hle : ∀ i : Nat, (supKinds a)[i]? = some .own → (supKinds (a ++ b))[i]? = some .own := by
    intro i hi
    rw [e, List.getElem?_append_left (List.getElem?_eq_some_iff.1 hi).1]
    exact hi
  intro i k hi hk
  exact h i k (hle i hi) (hle k hk)

theorem nameRecs_sound {v8 : Bool} {bv : Nat} (hbv : (bv < 80) = (v8 = false)) {text : Bytes → Except Exc (List Char)} :
    ∀ {gs : List NameGroup} {ds0 ds : List NameRec} {s : NameSt} {n : Nat}, (∀ g ∈ gs, ∀ b t, g.tx b = some t → text b = .ok t) →
      Each (NameGroupIs v8) gs ds → (∀ a b, ds0 ++ ds = a ++ .externName :: b → v8 = true → supKinds a ≠ []) → OneOwn (ds0 ++ ds) →
      NameStIs v8 ds0 s → LocalsIs ds0 s → (groupRecs gs).length ≤ n →
      ∃ s', nameRecs bv text n (groupRecs gs) s = .ok s' ∧ NameStIs v8 (ds0 ++ ds) s' ∧ LocalsIs (ds0 ++ ds) s'
  | [], ds0, _, s, n, _, h, _, _, hs, hl, _ => by
    cases h
    refine ⟨s, ?_, by rw [List.append_nil]; exact hs, by rw [List.append_nil]; exact hl⟩
    cases n <;> rfl
  | g :: gs, ds0, _, s, n, ht, h, hx, h1, hs, hl, hn => by
    cases h with
    | @cons _ d _ ds hd h =>
      have e0 : groupRecs (g :: gs) = toRec g.head :: (g.conts.map toRec ++ groupRecs gs) := by simp [groupRecs]
      rw [e0] at hn ⊢
      rw [List.length_cons, List.length_append] at hn
      obtain ⟨m, rfl⟩ : ∃ m, n = m + 1 := ⟨n - 1, by omega⟩
      have ed : ds0 ++ d :: ds = ds0 ++ [d] ++ ds := by simp
      obtain ⟨s', e, hs'⟩ := handle_step hbv (fun _ => ht g (by simp)) hs hd (fun e hv => hx ds0 ds (by rw [e]) hv) (groupRecs gs)
      rw [nameRecs, if_pos (show (toRec g.head).code ∈ [0x17, 0x18, 0x23, 0x1AE] from (recIs_code hd).1), e]
      dsimp only
      rw [List.drop_append_of_le_length (by simp), List.drop_of_length_le (by simp), List.nil_append]
      rw [ed] at hx h1 ⊢
      exact nameRecs_sound hbv (fun g hg => ht g (by simp [hg])) h hx h1 hs' (locals_step hs hs' hl (oneOwn_left h1) hd e) (by omega)

theorem areas_ne {v8 : Bool} {ds : List NameRec} {as : List AreaExpr} {t : Bytes} (h : AreasBytes v8 ds as t) : t ≠ [] := by
  induction h with
  | one h =>
    induction h with
    | before hn _ _ => have := noop_ne hn; simp [this]
    | after _ hn _ => have := noop_ne hn; simp [this]
    | _ => simp
  | more => simp
  | before hn _ _ => have := noop_ne hn; simp [this]
  | after _ hn _ => have := noop_ne hn; simp [this]

/-- The result of a name that stands for areas. -/
theorem name_result {N : NumEnv ν} {v8 : Bool} {bv : Nat} (hbv : (bv < 80) = (v8 = false)) {text : Bytes → Except Exc (List Char)} {ds : List NameRec} {s : NameSt}
    (hs : NameStIs v8 ds s) (hl : LocalsIs ds s) {all : List (List Char × Nat)} {evals : Evals ν} (he : namesEvaluated N bv text s all = .ok evals)
    {j : Nat} {o : NameDef} (hj : (nameDefs ds)[j]? = some o) (ho : o.special = false) {as : List AreaExpr} (ha : AreasBytes v8 ds as o.fmla)
    (hok : ∀ a ∈ as, a.Ok all) : nameResult evals j = some (.opnd oRef (.refs (as.map (areaRef all)))) := by
  have hv : v8 = decide (80 ≤ bv) := by
    cases v8 with
    | true =>
      have : ¬ bv < 80 := fun c => by rw [hbv] at c; cases c
      exact (decide_eq_true (by omega)).symm
    | false =>
      have : bv < 80 := by rw [hbv]
      exact (decide_eq_false (by omega)).symm
  subst hv
  unfold namesEvaluated at he
  split at he
  · cases he
  rename_i scopes _
  dsimp only at he
  generalize hB : (FmlaBook.mk (decide (80 ≤ bv)) text N s (sheetMap 0 all) (all.filter fun p => p.2 = 0).length scopes : FmlaBook ν) = B at he
  have hfit : AreaFit B ds all := by
    subst hB
    exact ⟨hs.info, rfl, hl, hs.addins⟩
  have hB8 : B.v8 = decide (80 ≤ bv) := by subst hB; rfl
  have hBn : B.st.names = s.names := by subst hB; rfl
  rw [← hB8] at ha
  obtain ⟨-, hp⟩ := pushes_areas hfit ha hok
  have hlen := each_len hs.names
  have hjl : j < s.names.length := by rw [hlen]; exact (List.getElem?_eq_some_iff.1 hj).1
  have hobj : s.names[j]? = some s.names[j] := List.getElem?_eq_getElem hjl
  obtain ⟨d, hd, hod⟩ := each_at hs.names hobj
  rw [hj] at hd
  cases hd
  obtain ⟨hsp, -, hlen', post, hraw⟩ := hod
  have hval := evalName_pushes (B := B) hp (areas_ne ha) (by rw [hBn]; exact hobj) hraw hlen'
  have hns : ¬ (s.names[j].macroFlag ∨ s.names[j].binary) := by
    rw [ho] at hsp
    simpa using hsp
  have := evalNames_value hval hns he hobj (Nat.zero_add j) (by simpa using hjl) (.inl (by
    rw [List.getD_eq_getElem?_getD, List.getElem?_map, hobj]
    rfl))
  unfold nameResult
  rw [this]

end CP
