import Verif.Model.PyIter
import Verif.Lemmas.Dict
/-!
# Dicts made of pairs, and `zip(*rows)`
-/

namespace CP

theorem dget_append {κ ν : Type} [DecidableEq κ] (a b : List (κ × ν)) (k : κ) :
    dget (a ++ b) k = match dget a k with
      | some v => some v
      | none => dget b k := by
  induction a with
  | nil => simp [dget]
  | cons p a ih =>
    obtain ⟨k', v⟩ := p
    simp only [List.cons_append, dget]
    split
    · rfl
    · exact ih

theorem dget_dset {κ ν : Type} [DecidableEq κ] (d : List (κ × ν)) (k k' : κ) (v : ν) :
    dget (dset d k v) k' = if k' = k then some v else dget d k' := by
  split
  · rename_i h; subst h; exact dget_dset_same _ _ _
  · rename_i h; exact dget_dset_ne _ _ h

theorem dget_dupdate {κ ν : Type} [DecidableEq κ] (d ps : List (κ × ν)) (k : κ) :
    dget (dupdate d ps) k = match dget ps.reverse k with
      | some v => some v
      | none => dget d k := by
  induction ps generalizing d with
  | nil => simp [dupdate, dget]
  | cons p ps ih =>
    obtain ⟨k', v⟩ := p
    show dget (dupdate (dset d k' v) ps) k = _
    rw [ih, List.reverse_cons, dget_append]
    cases dget ps.reverse k with
    | some w => simp
    | none =>
      simp only [dget, dget_dset]
      by_cases h : k = k'
      · simp [h]
      · simp [h, Ne.symm h]

/-- A dict made of keys and values of the same length: every value found belongs to its
key, and every key is found. -/
theorem dictOf_zip {κ ν : Type} [DecidableEq κ] {ks : List κ} {vs : List ν}
    (hl : vs.length = ks.length) :
    (∀ k v, dget (dictOf (ks.zip vs)) k = some v →
      ∃ i : Nat, ks[i]? = some k ∧ vs[i]? = some v) ∧
    (∀ k, k ∈ ks → ∃ v, dget (dictOf (ks.zip vs)) k = some v) := by
  unfold dictOf
  constructor
  · intro k v h
    rw [dget_dupdate] at h
    cases hr : dget (ks.zip vs).reverse k with
    | none => rw [hr] at h; simp [dget] at h
    | some w =>
      rw [hr] at h
      simp only [Option.some.injEq] at h
      subst h
      have hm := dget_mem hr
      rw [List.mem_reverse] at hm
      obtain ⟨i, hi⟩ := List.mem_iff_getElem?.1 hm
      rw [List.getElem?_zip_eq_some] at hi
      exact ⟨i, hi⟩
  · intro k hk
    rw [dget_dupdate]
    cases hr : dget (ks.zip vs).reverse k with
    | some w => exact ⟨w, rfl⟩
    | none =>
      exfalso
      have hkm : k ∈ ((ks.zip vs).reverse).map Prod.fst := by
        rw [List.map_reverse, List.mem_reverse, List.map_fst_zip (by omega)]
        exact hk
      have := (dget_isSome (d := (ks.zip vs).reverse) (k := k)).2 hkm
      rw [hr] at this; simp at this

theorem dget_zipIdx {α : Type} (l : List α) (n : Nat) (k : Int) (x : α) :
    dget ((l.zipIdx n).map fun p => ((p.2 : Int), p.1)) k = some x ↔
      ∃ j : Nat, k = ((n + j : Nat) : Int) ∧ l[j]? = some x := by
  induction l generalizing n with
  | nil => simp [dget]
  | cons a l ih =>
    rw [List.zipIdx_cons, List.map_cons]
    simp only [dget]
    split
    · rename_i h
      constructor
      · intro hx; exact ⟨0, by simpa using h.symm, by simpa using hx⟩
      · rintro ⟨j, hj, hl⟩
        have : j = 0 := by omega
        subst this
        simpa using hl
    · rename_i h
      rw [ih]
      constructor
      · rintro ⟨j, hj, hl⟩; exact ⟨j + 1, by omega, by simpa using hl⟩
      · rintro ⟨j, hj, hl⟩
        cases j with
        | zero => exact absurd (by simpa using hj.symm) h
        | succ j => exact ⟨j, by omega, by simpa using hl⟩

theorem dget_enumDict {α : Type} {l : List α} {k : Int} {x : α} :
    dget (enumDict l) k = some x ↔ ∃ j : Nat, k = j ∧ l[j]? = some x := by
  have := dget_zipIdx l 0 k x
  simpa [enumDict] using this

theorem minLength_uniform {α : Type} {n : Nat} (l : List α) (ls : List (List α)) (hl : l.length = n)
    (hls : ∀ m ∈ ls, m.length = n) : minLength l ls = n := by
  induction ls generalizing l with
  | nil => exact hl
  | cons m ms ih =>
    rw [minLength, ih m (hls m (by simp)) (fun x hx => hls x (by simp [hx])), hl]
    omega

theorem filterMap_get {α : Type} {n j : Nat} (hj : j < n) (ls : List (List α))
    (hls : ∀ m ∈ ls, m.length = n) (i : Nat) :
    (ls.filterMap (·[j]?)).length = ls.length ∧
    (ls.filterMap (·[j]?))[i]? = (ls[i]?).bind (·[j]?) := by
  induction ls generalizing i with
  | nil => simp
  | cons m ms ih =>
    have hm := hls m (by simp)
    have hg : m[j]? = some (m[j]'(by omega)) := by simp
    have ih' := fun i => ih (fun x hx => hls x (by simp [hx])) i
    rw [List.filterMap_cons_some (f := fun x : List α => x[j]?) hg]
    refine ⟨by simp [(ih' 0).1], ?_⟩
    cases i with
    | zero => simp
    | succ i => simpa using (ih' i).2

/-- The columns of a table of rows of one length. -/
theorem zipStar_uniform {α : Type} {n : Nat} (ls : List (List α)) (hls : ∀ m ∈ ls, m.length = n)
    {j : Nat} {col : List α} :
    (zipStar ls)[j]? = some col ↔
      ls ≠ [] ∧ j < n ∧ col.length = ls.length ∧ ∀ i : Nat, col[i]? = (ls[i]?).bind (·[j]?) := by
  cases ls with
  | nil => simp [zipStar]
  | cons l ls =>
    have hml := minLength_uniform l ls (hls l (by simp)) (fun x hx => hls x (by simp [hx]))
    unfold zipStar
    dsimp only
    rw [hml, List.getElem?_map]
    by_cases hj : j < n
    · rw [List.getElem?_range hj]
      simp only [Option.map_some, Option.some.injEq, ne_eq, List.cons_ne_nil, not_false_eq_true,
        true_and, hj]
      constructor
      · rintro rfl
        exact ⟨(filterMap_get hj _ hls 0).1, fun i => (filterMap_get hj _ hls i).2⟩
      · rintro ⟨_, h2⟩
        apply List.ext_getElem?
        intro i
        rw [h2, (filterMap_get hj _ hls i).2]
    · rw [List.getElem?_eq_none (by simpa using hj)]
      simp [hj]

theorem dget_zip_nodup {κ ν : Type} [DecidableEq κ] {ks : List κ} (hn : ks.Nodup) {vs : List ν} {k : κ}
    {v : ν} : dget (ks.zip vs) k = some v ↔ ∃ i : Nat, ks[i]? = some k ∧ vs[i]? = some v := by
  induction ks generalizing vs with
  | nil => simp [dget]
  | cons a ks ih =>
    cases vs with
    | nil => simp [dget]
    | cons b vs =>
      rw [List.zip_cons_cons]
      simp only [dget]
      rw [List.nodup_cons] at hn
      split
      · rename_i h
        subst h
        constructor
        · intro h; exact ⟨0, by simp, by simpa using h⟩
        · rintro ⟨i, h1, h2⟩
          cases i with
          | zero => simpa using h2
          | succ i =>
            rw [List.getElem?_cons_succ] at h1
            exact absurd (List.mem_of_getElem? h1) hn.1
      · rename_i h
        rw [ih hn.2]
        constructor
        · rintro ⟨i, h1, h2⟩; exact ⟨i + 1, by simpa using h1, by simpa using h2⟩
        · rintro ⟨i, h1, h2⟩
          cases i with
          | zero => simp at h1; exact absurd h1 h
          | succ i => exact ⟨i, by simpa using h1, by simpa using h2⟩

theorem lt_minLength {α : Type} {j : Nat} (l : List α) (ls : List (List α)) :
    j < minLength l ls ↔ ∀ m ∈ l :: ls, j < m.length := by
  induction ls generalizing l with
  | nil => simp [minLength]
  | cons m ms ih =>
    rw [minLength, Nat.lt_min, ih]
    simp

theorem filterMap_get' {α : Type} {j : Nat} (ls : List (List α))
    (hls : ∀ m ∈ ls, j < m.length) (i : Nat) :
    (ls.filterMap (·[j]?)).length = ls.length ∧
    (ls.filterMap (·[j]?))[i]? = (ls[i]?).bind (·[j]?) := by
  induction ls generalizing i with
  | nil => simp
  | cons m ms ih =>
    have hm := hls m (by simp)
    have hg : m[j]? = some (m[j]'hm) := by simp
    have ih' := fun i => ih (fun x hx => hls x (by simp [hx])) i
    rw [List.filterMap_cons_some (f := fun x : List α => x[j]?) hg]
    refine ⟨by simp [(ih' 0).1], ?_⟩
    cases i with
    | zero => simp
    | succ i => simpa using (ih' i).2

/-- The columns of rows of any lengths. -/
theorem zipStar_get {α : Type} (ls : List (List α)) {j : Nat} {col : List α} :
    (zipStar ls)[j]? = some col ↔
      ls ≠ [] ∧ (∀ m ∈ ls, j < m.length) ∧ col.length = ls.length ∧
        ∀ i : Nat, col[i]? = (ls[i]?).bind (·[j]?) := by
  cases ls with
  | nil => simp [zipStar]
  | cons l ls =>
    unfold zipStar
    dsimp only
    rw [List.getElem?_map]
    by_cases hj : j < minLength l ls
    · have hls := (lt_minLength l ls).1 hj
      rw [List.getElem?_range hj]
      simp only [Option.map_some, Option.some.injEq]
      constructor
      · rintro rfl
        exact ⟨by simp, hls, (filterMap_get' _ hls 0).1, fun i => (filterMap_get' _ hls i).2⟩
      · rintro ⟨_, _, _, h2⟩
        apply List.ext_getElem?
        intro i
        rw [h2, (filterMap_get' _ hls i).2]
    · rw [List.getElem?_eq_none (by simpa using hj)]
      simp only [Option.map_none, reduceCtorEq, false_iff]
      rintro ⟨_, h, _⟩
      exact hj ((lt_minLength l ls).2 h)

theorem dget_reverse {κ ν : Type} [DecidableEq κ] {ps : List (κ × ν)} (hn : (ps.map Prod.fst).Nodup)
    (k : κ) : dget ps.reverse k = dget ps k := by
  have hn' : (dkeys ps.reverse).Nodup := by
    unfold dkeys
    rw [List.map_reverse]
    unfold List.Nodup
    rw [List.pairwise_reverse]
    exact hn.imp fun h => Ne.symm h
  cases h : dget ps k with
  | some v => exact dget_of_mem hn' (List.mem_reverse.2 (dget_mem h))
  | none =>
    cases h' : dget ps.reverse k with
    | none => rfl
    | some v =>
      rw [dget_of_mem hn (List.mem_reverse.1 (dget_mem h'))] at h
      simp at h

theorem dget_dictOf {κ ν : Type} [DecidableEq κ] {ps : List (κ × ν)} (hn : (ps.map Prod.fst).Nodup)
    (k : κ) : dget (dictOf ps) k = dget ps k := by
  unfold dictOf
  rw [dget_dupdate, dget_reverse hn]
  cases dget ps k <;> simp [dget]

theorem nodup_zip_fst {κ ν : Type} {ks : List κ} (hn : ks.Nodup) (vs : List ν) :
    ((ks.zip vs).map Prod.fst).Nodup := by
  induction ks generalizing vs with
  | nil => simp
  | cons a ks ih =>
    cases vs with
    | nil => simp
    | cons b vs =>
      rw [List.nodup_cons] at hn
      rw [List.zip_cons_cons, List.map_cons, List.nodup_cons]
      refine ⟨fun hm => hn.1 ?_, ih hn.2 vs⟩
      obtain ⟨p, hp, rfl⟩ := List.mem_map.1 hm
      exact (List.of_mem_zip hp).1

/-- A dict made of different keys and of values. -/
theorem dget_dictOf_zip {κ ν : Type} [DecidableEq κ] {ks : List κ} (hn : ks.Nodup) {vs : List ν} {k : κ}
    {v : ν} : dget (dictOf (ks.zip vs)) k = some v ↔ ∃ i : Nat, ks[i]? = some k ∧ vs[i]? = some v := by
  rw [dget_dictOf (nodup_zip_fst hn vs), dget_zip_nodup hn]

end CP