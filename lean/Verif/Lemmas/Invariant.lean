import Verif.Lemmas.Filter
/-!
# The pack invariant: the cached slices are those of the mask, and mindur holds
-/

namespace CP
open Spec

theorem truncRat_int (m : Int) : truncRat (m : Rat) = m := by
  unfold truncRat
  split
  · exact Rat.floor_intCast m
  · rw [← Rat.intCast_neg, Rat.floor_intCast]; omega

theorem truncRat_mono {a b : Rat} (h : a ≤ b) : truncRat a ≤ truncRat b := by
  unfold truncRat
  split <;> split
  · exact Rat.floor_monotone h
  · rename_i h1 h2; exact absurd (Rat.le_trans h1 h) h2
  · rename_i h1 h2
    have h3 : (0 : Int) ≤ b.floor := Rat.le_floor_iff.2 (by simpa using h2)
    have h4 : (0 : Int) ≤ (-a).floor := Rat.le_floor_iff.2 (by
      have : a ≤ 0 := Rat.le_of_lt (Rat.not_le.1 h1)
      have := Rat.neg_le_neg this
      simpa [Rat.neg_zero] using this)
    omega
  · have := Rat.floor_monotone (Rat.neg_le_neg h)
    omega

/-- Cache coherence and the mindur promise. -/
structure Inv (p : Pack) : Prop where
  cache : p.cached = slicelist p.mask.bits
  dur : ∀ m, p.mindur = some m → ∀ s t, IsRun p.mask.bits s t → m ≤ (t : Int) - s

theorem duration_bits {p : Pack} (h : p.cached = slicelist p.mask.bits) (q : Rat) (m : Bool) :
    (p.duration q m).mask.bits =
      (slicelist p.mask.bits).foldl (durationStep (truncRat q) m) p.mask.bits := by
  simp [Pack.duration, h]

theorem duration_cache (p : Pack) (q : Rat) (m : Bool) :
    (p.duration q m).cached = slicelist (p.duration q m).mask.bits := rfl

theorem duration_runs {p : Pack} (h : p.cached = slicelist p.mask.bits) (q : Rat) (m : Bool)
    (s t : Nat) : IsRun (p.duration q m).mask.bits s t ↔
      IsRun p.mask.bits s t ∧ keeps (truncRat q) m (t - s) := by
  rw [duration_bits h]
  exact keeps_filtered _ s t

theorem inv_duration {p : Pack} (h : Inv p) (q : Rat) (m : Bool) : Inv (p.duration q m) := by
  refine ⟨rfl, ?_⟩
  intro k hk s t hr
  have := (duration_runs h.cache q m s t).1 hr
  exact h.dur k hk s t this.1

theorem inv_applyMindur {p : Pack} (h : p.cached = slicelist p.mask.bits) :
    Inv p.applyMindur := by
  unfold Pack.applyMindur
  split
  · rename_i hm
    refine ⟨h, ?_⟩
    intro m hm'; rw [hm] at hm'; simp at hm'
  · rename_i m hm
    refine ⟨rfl, ?_⟩
    intro k hk s t hr
    have hk' : m = k := by
      have : p.mindur = some k := hk
      rw [hm] at this; simpa using this
    subst hk'
    have h1 := (duration_runs h _ _ s t).1 hr
    have h2 := h1.2
    unfold keeps at h2
    simp only [truncRat_int, if_true] at h2
    have := hr.1
    omega

theorem inv_setMask (p : Pack) (m : Mask) : Inv (p.setMask m) := inv_applyMindur rfl

theorem inv_setMindur {p : Pack} (h : Inv p) (m : Option Int) : Inv (p.setMindur m) :=
  inv_applyMindur (p := { p with mindur := m }) h.cache

theorem mem_insertInt {k x : Int} {l : List Int} : x ∈ insertInt k l ↔ x = k ∨ x ∈ l := by
  induction l with
  | nil => simp [insertInt]
  | cons y ys ih =>
    unfold insertInt
    split
    · simp
    · simp only [List.mem_cons, ih]
      constructor
      · rintro (h | h | h) <;> simp [h]
      · rintro (h | h | h) <;> simp [h]

theorem mem_sortInts {x : Int} {l : List Int} : x ∈ sortInts l ↔ x ∈ l := by
  induction l with
  | nil => simp [sortInts]
  | cons y ys ih =>
    have : sortInts (y :: ys) = insertInt y (sortInts ys) := rfl
    rw [this, mem_insertInt, ih]; simp

theorem insertInt_sorted {k : Int} {l : List Int} (h : l.Pairwise (· ≤ ·)) :
    (insertInt k l).Pairwise (· ≤ ·) := by
  induction l with
  | nil => simp [insertInt]
  | cons y ys ih =>
    unfold insertInt
    rw [List.pairwise_cons] at h
    split
    · rename_i hk
      refine List.pairwise_cons.2 ⟨?_, List.pairwise_cons.2 h⟩
      intro x hx
      rcases List.mem_cons.1 hx with h1 | h1
      · omega
      · have := h.1 x h1; omega
    · rename_i hk
      refine List.pairwise_cons.2 ⟨?_, ih h.2⟩
      intro x hx
      rcases mem_insertInt.1 hx with h1 | h1
      · omega
      · exact h.1 x h1

theorem sortInts_sorted (l : List Int) : (sortInts l).Pairwise (· ≤ ·) := by
  induction l with
  | nil => simp [sortInts]
  | cons y ys ih => exact insertInt_sorted ih

theorem dget_isSome {κ ν : Type} [DecidableEq κ] {d : List (κ × ν)} {k : κ} :
    (dget d k).isSome ↔ k ∈ dkeys d := by
  induction d with
  | nil => simp [dget, dkeys]
  | cons p d ih =>
    obtain ⟨k', v⟩ := p
    unfold dget
    split
    · rename_i h; subst h; simp [dkeys]
    · rename_i h
      rw [ih]
      simp only [dkeys, List.map_cons, List.mem_cons]
      constructor
      · exact Or.inr
      · rintro (h' | h')
        · exact absurd h'.symm h
        · exact h'

/-- The lowest data key and its array. -/
theorem maskReset_eq (p : Pack) :
    (p.data = [] ∧ p.maskReset = p.setMask ⟨false, []⟩) ∨
    ∃ k a, dget p.data k = some a ∧ (∀ k' ∈ dkeys p.data, k ≤ k') ∧
      p.maskReset = p.setMask ⟨true, a.els.map selfEq⟩ := by
  unfold Pack.maskReset
  split
  · rename_i h
    left
    refine ⟨?_, rfl⟩
    cases hd : p.data with
    | nil => rfl
    | cons x xs =>
      exfalso
      have : x.1 ∈ sortInts (dkeys p.data) := mem_sortInts.2 (by simp [hd, dkeys])
      rw [h] at this; simp at this
  · rename_i k ks h
    right
    have hk : k ∈ dkeys p.data := mem_sortInts.1 (by rw [h]; simp)
    have := dget_isSome.2 hk
    rcases ha : dget p.data k with _ | a
    · rw [ha] at this; simp at this
    · refine ⟨k, a, ha, ?_, rfl⟩
      intro k' hk'
      have h1 := sortInts_sorted (dkeys p.data)
      have h2 := mem_sortInts.2 hk'
      rw [h] at h1 h2
      rcases List.mem_cons.1 h2 with h3 | h3
      · omega
      · exact (List.pairwise_cons.1 h1).1 k' h3

theorem inv_maskReset (p : Pack) : Inv p.maskReset := by
  rcases maskReset_eq p with ⟨_, h⟩ | ⟨k, a, _, _, h⟩ <;> rw [h] <;> exact inv_setMask _ _

theorem Inv.congr {p q : Pack} (h : Inv p) (h1 : q.cached = p.cached) (h2 : q.mask = p.mask)
    (h3 : q.mindur = p.mindur) : Inv q := by
  refine ⟨by rw [h1, h2, h.cache], ?_⟩
  intro m hm s t hr
  rw [h2] at hr
  rw [h3] at hm
  exact h.dur m hm s t hr

theorem inv_appendPack (E : NpEnv) {p : Pack} (h : Inv p) (o : Pack) :
    Inv (p.appendPack E o).1 := by
  unfold Pack.appendPack
  split
  · exact h.congr rfl rfl rfl
  · split
    · exact h.congr rfl rfl rfl
    · exact inv_maskReset _

theorem inv_step (E : NpEnv) {p : Pack} (h : Inv p) (op : Op) : Inv (p.step E op).1 := by
  cases op <;> simp only [Pack.step]
  case setMask m => exact inv_setMask _ _
  case setMaskBad => exact h
  case setMindur m => exact inv_setMindur h m
  case setMindurBad => exact h
  case setNof v =>
    unfold Pack.setNof
    split
    · exact h.congr rfl rfl rfl
    · exact h
  case setData d => exact inv_maskReset _
  case setDataBad => exact h
  case setDataNp => exact h.congr rfl rfl rfl
  case setNames => exact h.congr rfl rfl rfl
  case setFn => exact h.congr rfl rfl rfl
  case setFnBad => exact h
  case setPrefix => exact h.congr rfl rfl rfl
  case setPrefixBad => exact h
  case dataItem => exact h.congr rfl rfl rfl
  case dataDel =>
    split
    · exact h.congr rfl rfl rfl
    · exact h
  case nameItem => exact h.congr rfl rfl rfl
  case maskReset => exact inv_maskReset _
  case duration => exact inv_duration h _ _
  case startstop a b ap =>
    have : Inv (p.startstop a b ap).1 := by
      unfold Pack.startstop
      dsimp only
      split
      · split
        · exact inv_setMask _ _
        · exact h
      · exact h
    split
    · rename_i p' r heq; rw [heq] at this; exact this
    · rename_i p' r heq; rw [heq] at this; exact this
  case appendPack o => exact inv_appendPack E h o

theorem inv_run (E : NpEnv) {p : Pack} (h : Inv p) (ops : List Op) : Inv (p.run E ops) := by
  induction ops generalizing p with
  | nil => exact h
  | cons op ops ih => exact ih (inv_step E h op)

/-- Packs client code can have: constructed, then any history. -/
def Reachable (E : NpEnv) (p : Pack) : Prop :=
  ∃ d n ops, p = (Pack.init d n).run E ops

theorem inv_init (d : List (Int × Arr)) (n : List (Int × Val)) : Inv (Pack.init d n) :=
  inv_maskReset _

theorem Reachable.inv {E : NpEnv} {p : Pack} (h : Reachable E p) : Inv p := by
  obtain ⟨d, n, ops, rfl⟩ := h
  exact inv_run E (inv_init d n) ops

theorem Reachable.init (E : NpEnv) (d : List (Int × Arr)) (n : List (Int × Val)) :
    Reachable E (Pack.init d n) := ⟨d, n, [], rfl⟩

theorem pyIndex_nat {α : Type} {l : List α} {i : Nat} {x : α} (h : l[i]? = some x) :
    pyIndex l (i : Int) = .ok x := by
  have h0 : ¬ ((i : Int) < 0) := by omega
  simp [pyIndex, h0, h]

theorem call_ignore {p : Pack} {ch : Ch} {a : Arr} :
    p.call ch none (some "ignore") = .ok a ↔
      ∃ key, p.datakey ch = .ok key ∧ dget p.data key = some a := by
  unfold Pack.call
  cases hk : p.datakey ch with
  | error e => simp
  | ok key =>
    cases ha : dget p.data key with
    | none => simp [ha]
    | some a' => simp [ha]

end CP
