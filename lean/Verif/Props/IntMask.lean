import Verif.Model.IntMask
/-!
# C85: masks of integers
-/

namespace CP

/-- The same mask, once in integers and once as truth values. -/
structure SameMask (s : IntMasked) (p : Pack) : Prop where
  bits : p.mask.bits = truths s.vals
  isBool : p.mask.isBool = true
  cached : p.cached = s.cached
  mindur : p.mindur = s.mindur

/-- The elements are 0 or odd (0 and 1, as of flags). -/
def Odds (vals : List Int) : Prop := ∀ v ∈ vals, v = 0 ∨ v % 2 = 1

/-- The statement of C85: after any program that assigns a mask of integers first, exceptions and results are those of
a program with the truth values of the mask instead.  `all`: for all masks and all results; otherwise for masks with 0
and odd numbers, and for parts and `nof='nan'`. -/
def IntMasksWork (all : Bool) : Prop :=
  ∀ (s : IntMasked) (p : Pack), s.mindur = p.mindur → ∀ (vals : List Int) (ops : List MaskOp),
    (all = false → ∀ vs, MaskOp.assign vs ∈ MaskOp.assign vals :: ops → Odds vs) →
    (s.run (.assign vals :: ops)).2 = (p.maskRun (.assign vals :: ops)).2 ∧
    SameMask (s.run (.assign vals :: ops)).1 (p.maskRun (.assign vals :: ops)).1 ∧
    ∀ a : Arr, (s.run (.assign vals :: ops)).1.nan a = masked a (p.maskRun (.assign vals :: ops)).1.mask ∧
      (all = true → (s.run (.assign vals :: ops)).1.filter a = boolIndex a (p.maskRun (.assign vals :: ops)).1.mask)

/-! ### One operation -/

theorem truths_zeroPart (vals : List Int) (st : Nat × Nat) : truths (zeroPart vals st) = falsify (truths vals) st := by
  unfold truths zeroPart falsify
  apply List.ext_getElem
  · simp
  · intro i h1 h2
    simp only [List.getElem_map, List.getElem_mapIdx]
    split <;> rfl

theorem truths_durationStep (req : Int) (m : Bool) (vals : List Int) (sc : Nat × Nat) :
    truths (intDurationStep req m vals sc) = durationStep req m (truths vals) sc := by
  unfold intDurationStep durationStep
  dsimp only
  split
  · exact truths_zeroPart ..
  · split
    · exact truths_zeroPart ..
    · rfl

theorem truths_foldl (req : Int) (m : Bool) (l : List (Nat × Nat)) (vals : List Int) :
    truths (l.foldl (intDurationStep req m) vals) = l.foldl (durationStep req m) (truths vals) := by
  induction l generalizing vals with
  | nil => rfl
  | cons sc l ih => rw [List.foldl_cons, List.foldl_cons, ih, truths_durationStep]

theorem SameMask.duration {s : IntMasked} {p : Pack} (h : SameMask s p) (q : Rat) (m : Bool) :
    SameMask (s.duration q m) (p.duration q m) := by
  have e : p.cached.foldl (durationStep (truncRat q) m) p.mask.bits =
      truths (s.cached.foldl (intDurationStep (truncRat q) m) s.vals) := by
    rw [truths_foldl, h.cached, h.bits]
  exact ⟨e, h.isBool, congrArg slicelist e, h.mindur⟩

theorem SameMask.applyMindur {s : IntMasked} {p : Pack} (h : SameMask s p) : SameMask s.applyMindur p.applyMindur := by
  unfold IntMasked.applyMindur Pack.applyMindur
  rw [h.mindur]
  cases s.mindur with
  | none => exact h
  | some m => exact h.duration m true

theorem SameMask.set {s : IntMasked} {p : Pack} (h : s.mindur = p.mindur) (vals : List Int) :
    SameMask (s.setMask vals) (p.setMask ⟨true, truths vals⟩) :=
  SameMask.applyMindur ⟨rfl, rfl, rfl, h.symm⟩

theorem SameMask.setMindur {s : IntMasked} {p : Pack} (h : SameMask s p) (m : Option Int) :
    SameMask (s.setMindur m) (p.setMindur m) :=
  SameMask.applyMindur ⟨h.bits, h.isBool, h.cached, rfl⟩

theorem andBool_truth {v : Int} (r : Bool) : ((andBool v r != 0) = ((v != 0) && r)) ↔ (r = true → v = 0 ∨ v % 2 = 1) := by
  unfold andBool
  cases r with
  | false => simp
  | true =>
    simp only [if_true, Bool.and_true, true_implies]
    by_cases h0 : v = 0
    · simp [h0]
    · have : (v != 0) = true := by simpa using h0
      rw [this]
      simp only [bne_iff_ne, ne_eq, h0, false_or]
      omega

theorem iand_same {vals : List Int} (ho : Odds vals) (r : List Bool) :
    npIand ⟨true, truths vals⟩ r = (intIand vals r).map fun m => ⟨true, truths m⟩ := by
  unfold npIand intIand
  have hl : (truths vals).length = vals.length := List.length_map ..
  by_cases h0 : r = []
  · rw [if_pos (.inr h0), if_pos h0]; rfl
  rw [if_neg (by simpa using h0), if_neg h0]
  dsimp only
  rw [hl]
  by_cases h1 : r.length = vals.length
  · rw [if_pos h1, if_pos h1]
    show Except.ok _ = Except.ok _
    congr 2
    unfold truths
    apply List.ext_getElem
    · simp
    · intro i h1 h2
      simp only [List.getElem_map, List.getElem_zipWith]
      exact ((andBool_truth _).2 fun _ => ho _ (List.getElem_mem _)).symm
  · rw [if_neg h1, if_neg h1]
    match r with
    | [] => exact absurd rfl h0
    | [b] =>
      show Except.ok _ = Except.ok _
      congr 2
      unfold truths
      rw [List.map_map, List.map_map]
      exact List.map_congr_left fun v hv => ((andBool_truth b).2 fun _ => ho v hv).symm
    | _ :: _ :: _ => rfl

/-! ### Odd elements stay odd -/

theorem odds_zeroPart {vals : List Int} (h : Odds vals) (st : Nat × Nat) : Odds (zeroPart vals st) := by
  intro v hv
  unfold zeroPart at hv
  obtain ⟨i, hi, rfl⟩ := List.mem_mapIdx.1 hv
  split
  · exact .inl rfl
  · exact h _ (List.getElem_mem _)

theorem odds_foldl (req : Int) (m : Bool) (l : List (Nat × Nat)) {vals : List Int} (h : Odds vals) :
    Odds (l.foldl (intDurationStep req m) vals) := by
  induction l generalizing vals with
  | nil => exact h
  | cons sc l ih =>
    rw [List.foldl_cons]
    apply ih
    unfold intDurationStep
    dsimp only
    split
    · exact odds_zeroPart h _
    · split
      · exact odds_zeroPart h _
      · exact h

theorem odds_applyMindur {s : IntMasked} (h : Odds s.vals) : Odds s.applyMindur.vals := by
  unfold IntMasked.applyMindur
  cases s.mindur with
  | none => exact h
  | some m => exact odds_foldl _ _ _ h

theorem odds_andBool (v : Int) (r : Bool) : andBool v r = 0 ∨ andBool v r % 2 = 1 := by
  unfold andBool; cases r <;> simp <;> omega

theorem odds_iand {vals m : List Int} {r : List Bool} (h : intIand vals r = .ok m) : Odds m := by
  unfold intIand at h
  split at h
  · cases h
  · split at h
    · cases h
      intro v hv
      obtain ⟨i, hi, rfl⟩ := List.getElem_of_mem hv
      rw [List.getElem_zipWith]
      exact odds_andBool _ _
    · split at h
      · cases h
        intro v hv
        obtain ⟨x, _, rfl⟩ := List.mem_map.1 hv
        exact odds_andBool _ _
      · cases h

/-! ### Programs -/

theorem step_same {s : IntMasked} {p : Pack} (h : SameMask s p) (ho : Odds s.vals) (op : MaskOp)
    (hop : ∀ vs, op = .assign vs → Odds vs) :
    (s.step op).2 = (p.maskStep op).2 ∧ SameMask (s.step op).1 (p.maskStep op).1 ∧ Odds (s.step op).1.vals := by
  cases op with
  | assign vals => exact ⟨rfl, .set h.mindur.symm vals, odds_applyMindur (hop vals rfl)⟩
  | duration q m => exact ⟨rfl, h.duration q m, odds_foldl _ _ _ ho⟩
  | mindur m => exact ⟨rfl, h.setMindur m, odds_applyMindur (s := { s with mindur := m }) ho⟩
  | startstop a b ap =>
    unfold IntMasked.step Pack.maskStep IntMasked.startstop Pack.startstop
    dsimp only
    cases ap with
    | false => exact ⟨rfl, h, ho⟩
    | true =>
      rw [if_pos rfl, if_pos rfl]
      have hm : p.mask = ⟨true, truths s.vals⟩ := by
        have h1 := h.bits
        have h2 := h.isBool
        revert h1 h2
        cases p.mask with
        | mk x y => rintro rfl rfl; rfl
      rw [hm, iand_same ho]
      cases hi : intIand s.vals (startstopBool a b) with
      | error e => exact ⟨rfl, h, ho⟩
      | ok m => exact ⟨rfl, .set h.mindur.symm m, odds_applyMindur (odds_iand hi)⟩

theorem run_same {s : IntMasked} {p : Pack} (h : SameMask s p) (ho : Odds s.vals) (ops : List MaskOp)
    (hop : ∀ vs, MaskOp.assign vs ∈ ops → Odds vs) :
    (s.run ops).2 = (p.maskRun ops).2 ∧ SameMask (s.run ops).1 (p.maskRun ops).1 := by
  induction ops generalizing s p with
  | nil => exact ⟨rfl, h⟩
  | cons op ops ih =>
    obtain ⟨h1, h2, h3⟩ := step_same h ho op fun vs e => hop vs (e ▸ List.mem_cons_self ..)
    obtain ⟨h4, h5⟩ := ih h2 h3 fun vs hv => hop vs (List.mem_cons_of_mem _ hv)
    unfold IntMasked.run Pack.maskRun
    dsimp only
    exact ⟨by rw [h1, h4], h5⟩

theorem masked_bits (a : Arr) {m n : Mask} (h : m.bits = n.bits) : masked a m = masked a n := by
  unfold masked; rw [h]

/-- C85, the part that holds: with 0 and odd numbers in the masks, all but `nof='filter'` is as for truth values. -/
theorem C85_int_masks_partial : IntMasksWork false := by
  intro s p hm vals ops ho
  have ho := ho rfl
  have h1 : SameMask (s.setMask vals) (p.setMask ⟨true, truths vals⟩) := .set hm vals
  have h2 : Odds (s.setMask vals).vals := odds_applyMindur (ho vals (List.mem_cons_self ..))
  obtain ⟨h3, h4⟩ := run_same h1 h2 ops fun vs hv => ho vs (List.mem_cons_of_mem _ hv)
  refine ⟨congrArg (none :: ·) h3, h4, fun a => ⟨masked_bits a h4.bits.symm, by simp⟩⟩

/-- Parts of a channel are what a call gives with the same mask of truth values, for all integers in it. -/
theorem C85_parts {s : IntMasked} {p : Pack} (h : SameMask s p) {ch : Ch} {key : Int} {a : Arr} (hk : p.datakey ch = .ok key)
    (ha : dget p.data key = some a) (i : Int) (nof : Option String) : s.part a i = p.call ch (some i) nof := by
  unfold IntMasked.part Pack.call
  rw [hk]
  dsimp only
  rw [ha]
  dsimp only
  rw [h.cached]
  cases pyIndex s.cached i <;> rfl

/-- Assigned masks, durations and mindur are right for all integers. -/
theorem C85_without_startstop {s : IntMasked} {p : Pack} (h : SameMask s p) (ops : List MaskOp)
    (hop : ∀ a b ap, MaskOp.startstop a b ap ∉ ops) : SameMask (s.run ops).1 (p.maskRun ops).1 := by
  induction ops generalizing s p with
  | nil => exact h
  | cons op ops ih =>
    have hn := fun a b ap hx => hop a b ap (List.mem_cons_of_mem op hx)
    cases op with
    | assign vals => exact ih (.set h.mindur.symm vals) hn
    | duration q m => exact ih (h.duration q m) hn
    | mindur m => exact ih (h.setMindur m) hn
    | startstop a b ap => exact absurd (List.mem_cons_self ..) (hop a b ap)

/-- `mask &= result` is right exactly if no even number but 0 is to be kept. -/
theorem C85_iand_exact {vals : List Int} {r : List Bool} (h0 : r ≠ []) (hl : r.length = vals.length) :
    (∃ m, intIand vals r = .ok m ∧ truths m = List.zipWith (· && ·) (truths vals) r) ↔
      ∀ (i : Nat) v, vals[i]? = some v → r[i]? = some true → v = 0 ∨ v % 2 = 1 := by
  have e : intIand vals r = .ok (List.zipWith andBool vals r) := by
    unfold intIand; rw [if_neg h0, if_pos hl]
  constructor
  · rintro ⟨m, h1, h2⟩ i v hv hr
    rw [e] at h1
    cases h1
    have h3 := congrArg (fun l => l[i]?) h2
    simp only [truths, List.getElem?_map, List.getElem?_zipWith, hv, hr, Option.map_some] at h3
    exact (andBool_truth true).1 (Option.some.inj h3) rfl
  · intro h
    refine ⟨_, e, ?_⟩
    apply List.ext_getElem
    · simp [truths]
    · intro i h1 h2
      simp only [truths, List.getElem_map, List.getElem_zipWith]
      have hi : i < vals.length := by simp [truths] at h1; omega
      exact (andBool_truth _).2 fun hr =>
        h i _ (List.getElem?_eq_getElem hi) (by rw [List.getElem?_eq_getElem (by omega), hr])

/-- With `nof='filter'` there are as many elements as the mask has, at the indices that the mask gives. -/
theorem C85_filter {s : IntMasked} {a b : Arr} (h : s.filter a = .ok b) :
    b.els.length = s.vals.length ∧ ∀ (i : Nat) k, s.vals[i]? = some k → ∃ v, pyIndex a.els k = .ok v ∧ b.els[i]? = some v := by
  unfold IntMasked.filter at h
  cases ht : takeAt a.els s.vals with
  | error e => rw [ht] at h; cases h
  | ok els =>
    rw [ht] at h
    cases h
    dsimp only
    generalize s.vals = vals at ht
    induction vals generalizing els with
    | nil => cases ht; simp
    | cons k vals ih =>
      unfold takeAt at ht
      cases hk : pyIndex a.els k with
      | error e => rw [hk] at ht; cases ht
      | ok v =>
        rw [hk] at ht
        dsimp only at ht
        cases hr : takeAt a.els vals with
        | error e => rw [hr] at ht; cases ht
        | ok vs =>
          rw [hr] at ht
          cases ht
          obtain ⟨h1, h2⟩ := ih vs hr
          refine ⟨by simp [h1], fun i k' hi => ?_⟩
          cases i with
          | zero => cases hi; exact ⟨v, hk, rfl⟩
          | succ i => exact h2 i k' hi

/-! ### Where it fails, and examples -/

/-- A pack of one channel, 10, 20, 30. -/
def exFlagPack : Pack := Pack.init [(0, ⟨.i, [.int 10, .int 20, .int 30]⟩)] []

/-- No mask yet. -/
def exNoMask : IntMasked := ⟨[], none, []⟩

/-- With the mask 1, 0, 1 the filter gives 20, 10, 20 instead of 10, 30. -/
theorem C85_counterexample : ¬ IntMasksWork true := by
  intro h
  have h1 := ((h exNoMask exFlagPack rfl [1, 0, 1] [] (by simp)).2.2 ⟨.i, [.int 10, .int 20, .int 30]⟩).2 rfl
  have h2 : exNoMask.run [.assign [1, 0, 1]] = (exNoMask.setMask [1, 0, 1], [none]) := rfl
  rw [h2] at h1
  revert h1
  decide +kernel

/-- The element 2 is true, but not after `mask &= [True]`. -/
theorem C85_counterexample_startstop : ∃ (s : IntMasked) (p : Pack), s.mindur = p.mindur ∧
    (s.run [.assign [2], .startstop [true] [false] true]).1.vals = [0] ∧
    (p.maskRun [.assign [2], .startstop [true] [false] true]).1.mask.bits = [true] :=
  ⟨exNoMask, exFlagPack, rfl, by decide +kernel, by decide +kernel⟩

example : Odds [1, 0, 1] := by unfold Odds; decide
example : SameMask (exNoMask.setMask [1, 0, 2]) (exFlagPack.setMask ⟨true, truths [1, 0, 2]⟩) := .set rfl _
example : (exNoMask.setMask [1, 0, 1]).filter ⟨.i, [.int 10, .int 20, .int 30]⟩ = .ok ⟨.i, [.int 20, .int 10, .int 20]⟩ := by
  decide +kernel
example : exFlagPack.datakey (.int 0) = .ok 0 ∧ dget exFlagPack.data 0 = some ⟨.i, [.int 10, .int 20, .int 30]⟩ := by decide +kernel
-- a single flag: index 1 of an array of one element
example : (exNoMask.setMask [1]).filter ⟨.i, [.int 10]⟩ = .error .indexError := by decide +kernel

end CP
