import Verif.Lemmas.Invariant
import Verif.Lemmas.Float64
/-!
# C01-C11: triggers, parts, durations, NaN masking, histories of one pack
-/

namespace CP
open Spec

/-! ## C01, C02: start/stop triggers -/

theorem C01_startstop_semantics (startb stopb : List Bool) :
    (startstopBool startb stopb).length = min startb.length stopb.length ∧
    ∀ i, i < min startb.length stopb.length →
      ((startstopBool startb stopb)[i]? = some true ↔ TriggerOn startb stopb i) := by
  refine ⟨startstopLoop_length _ _ _, ?_⟩
  intro i hi
  unfold startstopBool
  rw [startstopLoop_spec _ _ _ _ hi]
  simp [TrigFrom]

example : TriggerOn [false, true, false, false] [true, false, false, true] 2 :=
  ⟨1, by omega, rfl, by intro k h1 h2; rcases k with _ | _ | _ | k <;> simp_all⟩
example : startstopBool [false, true, false, false] [true, false, false, true]
    = [false, true, true, false] := by decide

/-- The method: what it returns is the trigger sequence, and with `apply` a boolean
mask of the same (non-zero) length is and-ed with it. -/
theorem C01_startstop_method (p : Pack) (startb stopb : List Bool) :
    (p.startstop startb stopb false) = (p, .ok (startstopBool startb stopb)) ∧
    (p.mask.isBool = true → p.mask.bits ≠ [] →
      min startb.length stopb.length = p.mask.bits.length → p.mindur = none →
      ∃ q, p.startstop startb stopb true = (q, .ok (startstopBool startb stopb)) ∧
        q.mask.isBool = true ∧ q.mask.bits.length = p.mask.bits.length ∧
        q.data = p.data ∧
        ∀ i, q.mask.bits[i]? = some true ↔
          (p.mask.bits[i]? = some true ∧ TriggerOn startb stopb i)) := by
  refine ⟨by simp [Pack.startstop], ?_⟩
  intro hb hne hlen hmd
  have hl := (C01_startstop_semantics startb stopb).1
  have hs := (C01_startstop_semantics startb stopb).2
  have hlen' : (startstopBool startb stopb).length = p.mask.bits.length := by omega
  have hne' : startstopBool startb stopb ≠ [] := by
    intro h; rw [h] at hlen'; apply hne
    exact List.length_eq_zero_iff.1 hlen'.symm
  refine ⟨p.setMask ⟨true, List.zipWith (· && ·) p.mask.bits (startstopBool startb stopb)⟩,
    ?_, ?_, ?_, ?_, ?_⟩
  · simp [Pack.startstop, npIand, hb, hne', hlen']
  · simp [Pack.setMask, Pack.applyMindur, hmd]
  · simp [Pack.setMask, Pack.applyMindur, hmd, hlen']
  · simp [Pack.setMask, Pack.applyMindur, hmd]
  · intro i
    simp only [Pack.setMask, Pack.applyMindur, hmd]
    rw [List.getElem?_zipWith]
    rcases Nat.lt_or_ge i p.mask.bits.length with hi | hi
    · rw [← hs i (by omega), List.getElem?_eq_getElem hi,
        List.getElem?_eq_getElem (show i < (startstopBool startb stopb).length by omega)]
      simp
    · simp [List.getElem?_eq_none hi]

theorem C02_startstop_causal (a a' b b' : List Bool) :
    startstopBool a b <+: startstopBool (a ++ a') (b ++ b') := by
  unfold startstopBool
  generalize false = st
  induction a generalizing st b with
  | nil => simp [startstopLoop]
  | cons x xs ih =>
    cases b with
    | nil => simp [startstopLoop]
    | cons y ys =>
      rw [List.cons_append, List.cons_append, startstopLoop_cons, startstopLoop_cons,
        List.cons_prefix_cons]
      exact ⟨rfl, ih _ _⟩

example : startstopBool [true, false] [false, false] <+:
    startstopBool ([true, false] ++ [true]) ([false, false] ++ [true]) ∧
    startstopBool [true, false] [false, false] = [true, true] :=
  ⟨C02_startstop_causal _ _ _ _, by decide⟩

/-! ## C03, C04: parts -/

theorem C03_slices_are_maximal_runs (b : List Bool) :
    (∀ s t, (s, t) ∈ slicelist b ↔ IsRun b s t) ∧
    (slicelist b).Pairwise (fun x y => x.2 < y.1) :=
  slicelist_spec b

/-- Every True element is in exactly one of the slices. -/
theorem C03_true_in_exactly_one (b : List Bool) (i : Nat) :
    b[i]? = some true ↔
      ∃ st, st ∈ slicelist b ∧ (st.1 ≤ i ∧ i < st.2) ∧
        ∀ st', st' ∈ slicelist b → st'.1 ≤ i ∧ i < st'.2 → st' = st := by
  constructor
  · intro h
    obtain ⟨s, t, hr, h1, h2⟩ := exists_run h
    refine ⟨(s, t), mem_slicelist.2 hr, ⟨h1, h2⟩, ?_⟩
    rintro ⟨s', t'⟩ hm hi
    obtain ⟨rfl, rfl⟩ := IsRun.unique hr (mem_slicelist.1 hm) ⟨h1, h2⟩ hi
    rfl
  · rintro ⟨⟨s, t⟩, hm, ⟨h1, h2⟩, _⟩
    exact (mem_slicelist.1 hm).2.2.1 i h1 h2

example : slicelist [true, false, true, true] = [(0, 1), (2, 4)] := by decide
example : IsRun [true, false, true, true] 2 4 := by
  rw [← mem_slicelist]; decide

/-- C04: for every pack client code can have, the parts of a channel that is as long
as the (boolean) mask, in order, are the filtered channel. -/
theorem C04_parts_partition_filter (E : NpEnv) (p : Pack) (hp : Reachable E p) (ch : Ch) (a : Arr)
    (nof : Option String)
    (ha : p.call ch none (some "ignore") = .ok a)
    (hlen : a.els.length = p.mask.bits.length) (hbool : p.mask.isBool = true) :
    ∃ (f : Arr) (parts : List Arr), p.call ch none (some "filter") = .ok f ∧
      p.parts.map (fun (i : Nat) => p.call ch (some (i : Int)) nof) = parts.map Except.ok ∧
      (∀ x ∈ parts, x.kind = a.kind) ∧ f.kind = a.kind ∧
      f.els = (parts.map Arr.els).flatten ∧
      f.els = ((a.els.zip p.mask.bits).filter (·.2)).map (·.1) := by
  have hinv := hp.inv
  obtain ⟨key, hk, hd⟩ := call_ignore.1 ha
  refine ⟨⟨a.kind, ((a.els.zip p.mask.bits).filter (·.2)).map (·.1)⟩,
    p.cached.map a.slice, ?_, ?_, ?_, rfl, ?_, rfl⟩
  · simp [Pack.call, hk, hd, boolIndex, hlen, hbool]
  · apply List.ext_getElem
    · simp [Pack.parts]
    · intro i h1 h2
      simp only [Pack.parts, List.getElem_map, List.getElem_range]
      have hi : i < p.cached.length := by simpa using h2
      have hpi : pyIndex p.cached (i : Int) = .ok p.cached[i] :=
        pyIndex_nat (List.getElem?_eq_getElem hi)
      simp [Pack.call, hk, hd, hpi]
  · intro x hx
    simp only [List.mem_map] at hx
    obtain ⟨sl, _, rfl⟩ := hx
    rfl
  · show _ = _
    rw [selectTrue_eq, hinv.cache, ← slicelist_flat a.els p.mask.bits hlen, List.map_map,
      List.flatMap_def]
    rfl

/-- An environment for the examples. -/
def exEnv : NpEnv := ⟨fun _ _ => none, fun _ v => v⟩

/-- A pack for the examples: one float channel of length 4 with a mask of two parts. -/
def exPack : Pack :=
  (Pack.init [(0, ⟨.f, [.flt 1, .flt 2, .flt 3, .flt 4]⟩)] [(0, .str ['A'])]).run exEnv
    [.setMask ⟨true, [true, false, true, true]⟩]

theorem exPack_reachable : Reachable exEnv exPack := ⟨_, _, _, rfl⟩

example : exPack.call (.int 0) none (some "ignore") =
      .ok ⟨.f, [.flt 1, .flt 2, .flt 3, .flt 4]⟩ ∧
    exPack.mask.bits.length = 4 ∧ exPack.mask.isBool = true ∧ exPack.parts = [0, 1] := by decide +kernel

/-! ## C05-C07: durations -/

/-- `int()` truncates toward zero. -/
theorem truncRat_spec (q : Rat) :
    (0 ≤ q → (truncRat q : Rat) ≤ q ∧ q < truncRat q + 1) ∧
    (q < 0 → (truncRat q : Rat) - 1 < q ∧ q ≤ truncRat q) := by
  unfold truncRat
  constructor
  · intro h
    rw [if_pos h]
    refine ⟨Rat.floor_le q, ?_⟩
    have := Rat.lt_floor_add_one q
    simpa using this
  · intro h
    rw [if_neg (Rat.not_le.2 h)]
    have h1 := Rat.floor_le (-q)
    have h2 := Rat.lt_floor_add_one (-q)
    simp only [Rat.intCast_neg, Rat.intCast_add, Rat.intCast_one] at h2 ⊢
    constructor
    · have := Rat.neg_lt_neg h2
      simpa [Rat.neg_add, Rat.sub_eq_add_neg] using this
    · have := Rat.neg_le_neg h1
      simpa using this

theorem C05_min_duration (E : NpEnv) (p : Pack) (hp : Reachable E p) (prod : Rat) :
    (p.duration prod true).mask.bits.length = p.mask.bits.length ∧
    (p.duration prod true).data = p.data ∧
    (∀ i, (p.duration prod true).mask.bits[i]? = some true ↔
      InRunWith (fun n => truncRat prod ≤ n) p.mask.bits i) ∧
    (∀ i : Nat, (p.duration prod true).mask.bits[i]? = some true → p.mask.bits[i]? = some true) := by
  have h := duration_bits hp.inv.cache prod true
  have h3 : ∀ i, (p.duration prod true).mask.bits[i]? = some true ↔
      InRunWith (fun n => truncRat prod ≤ n) p.mask.bits i := by
    intro i; rw [h, durationFold_true]; rfl
  refine ⟨by rw [h, durationFold_length], rfl, h3, ?_⟩
  intro i hi
  obtain ⟨s, t, hr, h1, h2, _⟩ := (h3 i).1 hi
  exact hr.2.2.1 i h1 h2

theorem C06_max_duration (E : NpEnv) (p : Pack) (hp : Reachable E p) (prod : Rat) :
    (p.duration prod false).mask.bits.length = p.mask.bits.length ∧
    (p.duration prod false).data = p.data ∧
    (∀ i, (p.duration prod false).mask.bits[i]? = some true ↔
      InRunWith (fun n => (n : Int) ≤ truncRat prod) p.mask.bits i) ∧
    (∀ i : Nat, (p.duration prod false).mask.bits[i]? = some true →
      p.mask.bits[i]? = some true) := by
  have h := duration_bits hp.inv.cache prod false
  have h3 : ∀ i, (p.duration prod false).mask.bits[i]? = some true ↔
      InRunWith (fun n => (n : Int) ≤ truncRat prod) p.mask.bits i := by
    intro i; rw [h, durationFold_true]; rfl
  refine ⟨by rw [h, durationFold_length], rfl, h3, ?_⟩
  intro i hi
  obtain ⟨s, t, hr, h1, h2, _⟩ := (h3 i).1 hi
  exact hr.2.2.1 i h1 h2

example : (exPack.duration 2 true).mask.bits = [false, false, true, true] ∧
    (exPack.duration (3/2) false).mask.bits = [true, false, false, false] := by decide +kernel

theorem duration_ext {p : Pack} {a : Bool} {b c : List Bool} (hl : b.length = c.length)
    (h : ∀ i : Nat, b[i]? = some true ↔ c[i]? = some true) :
    ({ p with mask := ⟨a, b⟩, cached := slicelist b } : Pack) =
      { p with mask := ⟨a, c⟩, cached := slicelist c } := by
  rw [bits_ext hl h]

/-- C07: minimum durations compose to the larger one; in particular a repeated one
changes nothing. -/
theorem C07_duration_composes (E : NpEnv) (p : Pack) (hp : Reachable E p) (a b : Rat) :
    (p.duration a true).duration b true = p.duration (if a ≤ b then b else a) true ∧
    (p.duration a true).duration a true = p.duration a true := by
  have key : ∀ a b : Rat, (p.duration a true).duration b true =
      p.duration (if a ≤ b then b else a) true := by
    intro a b
    have hc := hp.inv.cache
    have hc' : (p.duration a true).cached = slicelist (p.duration a true).mask.bits := rfl
    refine duration_ext (p := p) (a := p.mask.isBool)
      (b := ((p.duration a true).duration b true).mask.bits)
      (c := (p.duration (if a ≤ b then b else a) true).mask.bits) ?_ ?_
    · rw [duration_bits hc', duration_bits hc, durationFold_length, durationFold_length,
        duration_bits hc, durationFold_length]
    · intro i
      rw [duration_bits hc', duration_bits (p := p) hc (if a ≤ b then b else a),
        durationFold_true, durationFold_true]
      have hreq : ∀ n : Nat, keeps (truncRat (if a ≤ b then b else a)) true n ↔
          keeps (truncRat a) true n ∧ keeps (truncRat b) true n := by
        intro n
        simp only [keeps, if_true]
        split
        · rename_i h; have := truncRat_mono h; omega
        · rename_i h
          have := truncRat_mono (Rat.le_of_lt (Rat.not_le.1 h)); omega
      constructor
      · rintro ⟨s, t, hr, h1, h2, hk⟩
        have hr' := (duration_runs hc a true s t).1 hr
        exact ⟨s, t, hr'.1, h1, h2, (hreq _).2 ⟨hr'.2, hk⟩⟩
      · rintro ⟨s, t, hr, h1, h2, hk⟩
        have hk' := (hreq _).1 hk
        exact ⟨s, t, (duration_runs hc a true s t).2 ⟨hr, hk'.1⟩, h1, h2, hk'.2⟩
  refine ⟨key a b, ?_⟩
  have := key a a
  simpa using this

/-! ## C08: NaN masking -/

/-- `w` represents the same value as `v`: identical, or a float for the integer. -/
def SameValue (v w : Val) : Prop := v = w ∨ ∃ i : Int, v = .int i ∧ w = .flt i

/-- Exact characterisation, for every array and mask of the same length: a masked
element is NaN (numeric kinds) or None, a valid one is kept, after the upcast to
float64 for numeric kinds that are not complex. -/
theorem C08_masked_exact (a : Arr) (m : Mask) (h : m.bits.length = a.els.length) :
    ∃ r, masked a m = .ok r ∧ r.els.length = a.els.length ∧
      (r.kind = if a.kind = .c then .c else if a.kind.numeric then .f else .O) ∧
      (∀ i : Nat, m.bits[i]? = some false →
        r.els[i]? = some (if a.kind ∈ [.i, .u, .f, .c] then .nan else .none)) ∧
      (∀ i : Nat, m.bits[i]? = some true →
        r.els[i]? = a.els[i]?.map (if a.kind ∈ [.i, .u, .f] then castFloat else id)) := by
  have gen : ∀ (els : List Val) (fill : Val), els.length = m.bits.length →
      ∃ r, npWhere m.bits els fill = .ok r ∧ r.length = els.length ∧
      (∀ i : Nat, m.bits[i]? = some false → r[i]? = some fill) ∧
      (∀ i : Nat, m.bits[i]? = some true → r[i]? = els[i]?) := by
    intro els fill hl
    refine ⟨List.zipWith (fun (m : Bool) v => if m then v else fill) m.bits els,
      by simp [npWhere, hl], by simp [hl], ?_, ?_⟩
    · intro i hi
      have hlt : i < m.bits.length := by
        rcases Nat.lt_or_ge i m.bits.length with hh | hh
        · exact hh
        · simp [List.getElem?_eq_none hh] at hi
      rw [List.getElem?_zipWith, hi, List.getElem?_eq_getElem (show i < els.length by omega)]
      simp
    · intro i hi
      rw [List.getElem?_zipWith, hi]
      cases els[i]? <;> simp
  unfold masked
  cases hk : a.kind <;> simp only [Kind.numeric, if_true, if_false, reduceCtorEq, Bool.false_eq_true]
  case i | u | f =>
    obtain ⟨r, h1, h2, h3, h4⟩ := gen (a.els.map castFloat) .nan (by simp [h])
    rw [h1]
    refine ⟨_, rfl, by simpa using h2, rfl, ?_, ?_⟩
    · intro i hi; simpa using h3 i hi
    · intro i hi; simpa using h4 i hi
  case c =>
    obtain ⟨r, h1, h2, h3, h4⟩ := gen a.els .nan (by simp [h])
    rw [h1]
    refine ⟨_, rfl, by simpa using h2, rfl, ?_, ?_⟩
    · intro i hi; simpa using h3 i hi
    · intro i hi; simpa using h4 i hi
  all_goals
    obtain ⟨r, h1, h2, h3, h4⟩ := gen a.els .none (by simp [h])
    rw [h1]
    refine ⟨_, rfl, by simpa using h2, rfl, ?_, ?_⟩
    · intro i hi; simpa using h3 i hi
    · intro i hi; simpa using h4 i hi

theorem castFloat_sameValue {v : Val} (h : ∀ i, v = .int i → i.natAbs ≤ 2 ^ 53) :
    SameValue v (castFloat v) := by
  unfold castFloat
  split
  · rename_i i
    right
    refine ⟨i, rfl, ?_⟩
    rw [f64_int (h i rfl)]
  · left; rfl

/-- The claim of C08 about one call: right length, blanks where the mask is False,
values kept where it is True. -/
def KeepsAndBlanks (a : Arr) (bits : List Bool) (r : Arr) : Prop :=
  r.els.length = a.els.length ∧
  (∀ i : Nat, bits[i]? = some false →
    r.els[i]? = some (if a.kind ∈ [.i, .u, .f, .c] then .nan else .none)) ∧
  (∀ (i : Nat) (v : Val), bits[i]? = some true → a.els[i]? = some v →
    ∃ w, r.els[i]? = some w ∧ SameValue v w)

/-- C08 for arrays whose integers are at most 2^53 in absolute value (missing:
larger integers, see the counterexample). -/
theorem C08_nan_masking_partial (p : Pack) (ch : Ch) (a : Arr)
    (ha : p.call ch none (some "ignore") = .ok a)
    (hlen : p.mask.bits.length = a.els.length)
    (hsmall : ∀ i, Val.int i ∈ a.els → i.natAbs ≤ 2 ^ 53) :
    ∃ r, p.call ch none (some "nan") = .ok r ∧ KeepsAndBlanks a p.mask.bits r := by
  obtain ⟨r, h1, h2, _, h4, h5⟩ := C08_masked_exact a p.mask hlen
  refine ⟨r, ?_, h2, h4, ?_⟩
  · obtain ⟨key, hk, hd⟩ := call_ignore.1 ha
    simp [Pack.call, hk, hd, h1]
  · intro i v hi hv
    have hvm : v ∈ a.els := List.mem_of_getElem? hv
    refine ⟨_, by rw [h5 i hi, hv]; rfl, ?_⟩
    split
    · apply castFloat_sameValue
      intro j hj; subst hj; exact hsmall j hvm
    · left; rfl

example : exPack.call (.int 0) none (some "nan") = .ok ⟨.f, [.flt 1, .nan, .flt 3, .flt 4]⟩ := by
  decide +kernel

/-- C08 is false for large integers: with every element valid, the integer 2^53 + 1
comes back as the float 2^53. -/
theorem C08_counterexample :
    ∃ (p : Pack) (a : Arr) (r : Arr), Reachable exEnv p ∧
      p.call (.int 0) none (some "ignore") = .ok a ∧ p.mask.bits.length = a.els.length ∧
      p.call (.int 0) none (some "nan") = .ok r ∧ ¬ KeepsAndBlanks a p.mask.bits r := by
  refine ⟨Pack.init [(0, ⟨.i, [.int (2 ^ 53 + 1)]⟩)] [], ⟨.i, [.int (2 ^ 53 + 1)]⟩,
    ⟨.f, [.flt (2 ^ 53 : Int)]⟩, Reachable.init _ _ _, by decide +kernel, by decide +kernel,
    by decide +kernel, ?_⟩
  rintro ⟨_, _, h⟩
  obtain ⟨w, hw, hs⟩ := h 0 (.int (2 ^ 53 + 1)) (by decide +kernel) rfl
  simp at hw
  subst hw
  rcases hs with hs | ⟨i, h1, h2⟩
  · simp at hs
  · simp only [Val.int.injEq] at h1
    subst h1
    revert h2
    decide +kernel

/-- C08 whatever the integers: those of numeric arrays that are kept become the nearest floats. -/
theorem C08_nearest (p : Pack) (ch : Ch) (a : Arr) (ha : p.call ch none (some "ignore") = .ok a)
    (hlen : p.mask.bits.length = a.els.length) (hk : a.kind ∈ [.i, .u, .f]) :
    ∃ r, p.call ch none (some "nan") = .ok r ∧ r.els.length = a.els.length ∧
      (∀ i : Nat, p.mask.bits[i]? = some false → r.els[i]? = some .nan) ∧
      ∀ (i : Nat) (v : Val), p.mask.bits[i]? = some true → a.els[i]? = some v →
        (∀ j, v = .int j → ∃ y, NearestDouble y j ∧ r.els[i]? = some (.flt y)) ∧
        ((∀ j, v ≠ .int j) → r.els[i]? = some v) := by
  obtain ⟨r, h1, h2, _, h4, h5⟩ := C08_masked_exact a p.mask hlen
  refine ⟨r, ?_, h2, fun i hi => ?_, fun i v hi hv => ?_⟩
  · obtain ⟨key, hk, hd⟩ := call_ignore.1 ha
    simp [Pack.call, hk, hd, h1]
  · have := h4 i hi
    rw [if_pos (by revert hk; cases a.kind <;> simp)] at this
    exact this
  · have := h5 i hi
    rw [if_pos (by revert hk; cases a.kind <;> simp), hv, Option.map_some] at this
    refine ⟨fun j hj => ⟨f64 j, f64_nearest _, ?_⟩, fun hj => ?_⟩
    · rw [this, hj]; rfl
    · rw [this]
      cases v <;> first | rfl | exact absurd rfl (hj _)

/-- C08, exactly: the values are kept if and only if the integers kept are floats. -/
theorem C08_exact (p : Pack) (ch : Ch) (a r : Arr) (ha : p.call ch none (some "ignore") = .ok a)
    (hlen : p.mask.bits.length = a.els.length) (hr : p.call ch none (some "nan") = .ok r) :
    KeepsAndBlanks a p.mask.bits r ↔ (a.kind ∈ [.i, .u, .f] → ∀ (i : Nat) (j : Int), p.mask.bits[i]? = some true →
      a.els[i]? = some (.int j) → IsDouble j) := by
  obtain ⟨r', h1, h2, _, h4, h5⟩ := C08_masked_exact a p.mask hlen
  have : r' = r := by
    obtain ⟨key, hk, hd⟩ := call_ignore.1 ha
    simp [Pack.call, hk, hd, h1] at hr
    exact hr
  subst this
  constructor
  · intro ⟨_, _, h⟩ hk i j hi hj
    obtain ⟨w, hw, hs⟩ := h i _ hi hj
    rw [h5 i hi, if_pos hk, hj] at hw
    have hw' : Val.flt (f64 j) = w := by simpa [castFloat] using hw
    subst hw'
    rcases hs with hs | ⟨i', e1, e2⟩
    · simp at hs
    · simp only [Val.int.injEq] at e1
      simp only [Val.flt.injEq] at e2
      subst e1
      rw [← e2]; exact f64_isDouble _
  · intro h
    refine ⟨h2, h4, fun i v hi hv => ⟨_, by rw [h5 i hi, hv]; rfl, ?_⟩⟩
    split
    · rename_i hk
      unfold castFloat
      split
      · rename_i j
        exact .inr ⟨j, rfl, by rw [f64_of_double (h hk i j hi hv)]⟩
      · exact .inl rfl
    · exact .inl rfl

/-! ## C09, C10: histories -/

theorem parts_of_cache {p : Pack} (hc : p.cached = slicelist p.mask.bits) :
    ∃ runs : List (Nat × Nat),
      (∀ s t, (s, t) ∈ runs ↔ IsRun p.mask.bits s t) ∧
      runs.Pairwise (fun x y => x.2 < y.1) ∧
      p.parts = List.range runs.length ∧
      ∀ (ch : Ch) (a : Arr) (nof : Option String), p.call ch none (some "ignore") = .ok a →
        ∀ (i s t : Nat), runs[i]? = some (s, t) →
          p.call ch (some (i : Int)) nof = .ok ⟨a.kind, (a.els.drop s).take (t - s)⟩ := by
  refine ⟨p.cached, ?_, ?_, rfl, ?_⟩
  · intro s t; rw [hc]; exact mem_slicelist
  · rw [hc]; exact slicelist_pairwise _
  · intro ch a nof ha i s t hi
    obtain ⟨key, hk, hd⟩ := call_ignore.1 ha
    simp [Pack.call, hk, hd, pyIndex_nat hi, Arr.slice, pySlice, List.drop_take]

/-- C09: after any history the parts are the maximal True runs of the current mask, in
order, and a part of a channel is the channel restricted to that run. -/
theorem C09_parts_reflect_mask (E : NpEnv) (p : Pack) (hp : Reachable E p) :
    ∃ runs : List (Nat × Nat),
      (∀ s t, (s, t) ∈ runs ↔ IsRun p.mask.bits s t) ∧
      runs.Pairwise (fun x y => x.2 < y.1) ∧
      p.parts = List.range runs.length ∧
      ∀ (ch : Ch) (a : Arr) (nof : Option String), p.call ch none (some "ignore") = .ok a →
        ∀ (i s t : Nat), runs[i]? = some (s, t) →
          p.call ch (some (i : Int)) nof = .ok ⟨a.kind, (a.els.drop s).take (t - s)⟩ :=
  parts_of_cache hp.inv.cache

/-- C10: whenever mindur is an integer, all True runs of the mask are that long. -/
theorem C10_mindur_persistent (E : NpEnv) (p : Pack) (hp : Reachable E p) (m : Int)
    (hm : p.mindur = some m) (s t : Nat) (hr : IsRun p.mask.bits s t) :
    m ≤ (t : Int) - s :=
  hp.inv.dur m hm s t hr

/-- A non-trivial history for C09 and C10: mindur set, then the mask assigned anew. -/
def exHist : Pack :=
  (Pack.init [(0, ⟨.f, [.flt 1, .flt 2, .flt 3, .flt 4]⟩)] []).run exEnv
    [.setMindur (some 2), .setMask ⟨true, [true, false, true, true]⟩]

example : Reachable exEnv exHist ∧ exHist.mindur = some 2 ∧
    exHist.mask.bits = [false, false, true, true] ∧ exHist.parts = [0] :=
  ⟨⟨_, _, _, rfl⟩, by decide +kernel, by decide +kernel, by decide +kernel⟩

/-! ## C11: mask_reset -/

/-- The mask C11 promises for a lowest channel of `n` elements: all True, or all False if
mindur is more than `n`. -/
def AllValidMask (n : Nat) (mindur : Option Int) (m : Mask) : Prop :=
  m.isBool = true ∧ m.bits.length = n ∧
  ∀ i, i < n → m.bits[i]? = some (match mindur with
    | none => true
    | some d => decide (d ≤ n))

theorem setMask_mask (p : Pack) (m : Mask) :
    (p.setMask m).mask = match p.mindur with
      | none => m
      | some d => ⟨m.isBool, (slicelist m.bits).foldl (durationStep d true) m.bits⟩ := by
  unfold Pack.setMask Pack.applyMindur
  cases h : p.mindur with
  | none => simp
  | some d => simp [Pack.duration, truncRat_int]

/-- C11 when the channel with the lowest key holds no NaN (missing: NaN, see the
counterexample).  An empty data dict gives an empty mask. -/
theorem C11_mask_reset_partial (p : Pack) :
    (p.data = [] → p.maskReset.mask.bits = []) ∧
    (∀ k a, dget p.data k = some a → (∀ k' ∈ dkeys p.data, k ≤ k') → .nan ∉ a.els →
      AllValidMask a.els.length p.mindur p.maskReset.mask) := by
  constructor
  · intro hd
    rcases maskReset_eq p with ⟨_, h⟩ | ⟨k, a, ha, _⟩
    · rw [h, setMask_mask]
      cases p.mindur <;> simp [slicelist, slicelistLoop]
    · rw [hd] at ha; simp [dget] at ha
  · intro k a ha hmin hnan
    rcases maskReset_eq p with ⟨hd, _⟩ | ⟨k', a', ha', hmin', h⟩
    · rw [hd] at ha; simp [dget] at ha
    · have hk : k ∈ dkeys p.data := dget_isSome.1 (by rw [ha]; rfl)
      have hk' : k' ∈ dkeys p.data := dget_isSome.1 (by rw [ha']; rfl)
      have : k = k' := by have := hmin k' hk'; have := hmin' k hk; omega
      subst this
      rw [ha] at ha'
      simp only [Option.some.injEq] at ha'
      subst ha'
      have hself : a.els.map selfEq = List.replicate a.els.length true := by
        apply List.ext_getElem
        · simp
        · intro i h1 h2
          simp only [List.getElem_map, List.getElem_replicate]
          have hi : i < a.els.length := by simpa using h1
          have : a.els[i] ≠ .nan := fun hh => hnan (hh ▸ List.getElem_mem hi)
          unfold selfEq
          split
          · rename_i hx; exact absurd hx this
          · rfl
      rw [h, setMask_mask, hself]
      cases hm : p.mindur with
      | none =>
        refine ⟨rfl, by simp, ?_⟩
        intro i hi; simp [hi]
      | some d =>
        refine ⟨rfl, by simp [durationFold_length], ?_⟩
        intro i hi
        have hrun : IsRun (List.replicate a.els.length true) 0 a.els.length := by
          refine ⟨by omega, by simp, ?_, ?_, ?_⟩
          · intro k _ hk; simp [hk]
          · intro k hk; omega
          · left; simp
        have hbit := durationFold_true d true (List.replicate a.els.length true) i
        have hlen := durationFold_length d true (slicelist (List.replicate a.els.length true))
          (List.replicate a.els.length true)
        simp only at hbit ⊢
        have hiff : InRunWith (keeps d true) (List.replicate a.els.length true) i ↔
            d ≤ (a.els.length : Int) := by
          constructor
          · rintro ⟨s, t, hr, h1, h2, hk⟩
            obtain ⟨rfl, rfl⟩ := IsRun.unique hr hrun ⟨h1, h2⟩ ⟨Nat.zero_le _, hi⟩
            simpa [keeps] using hk
          · intro hd
            exact ⟨0, _, hrun, Nat.zero_le _, hi, by simpa [keeps] using hd⟩
        rw [hiff] at hbit
        have hi' : i < ((slicelist (List.replicate a.els.length true)).foldl
            (durationStep d true) (List.replicate a.els.length true)).length := by
          rw [hlen]; simpa using hi
        rw [List.getElem?_eq_getElem hi'] at hbit ⊢
        simp only [Option.some.injEq] at hbit ⊢
        by_cases hd : d ≤ (a.els.length : Int)
        · simp [hd, hbit.2 hd]
        · have := mt hbit.1 hd
          simp [hd, this]

example : (Pack.init [(3, ⟨.i, [.int 1]⟩), (1, ⟨.f, [.flt 1, .flt 2]⟩)] []).maskReset.mask
    = ⟨true, [true, true]⟩ := by decide +kernel

/-- C11 is false: a NaN in the lowest channel is masked out by `mask_reset`. -/
theorem C11_counterexample :
    ∃ (p : Pack) (a : Arr), Reachable exEnv p ∧ dget p.data 0 = some a ∧
      (∀ k' ∈ dkeys p.data, (0 : Int) ≤ k') ∧
      ¬ AllValidMask a.els.length p.mindur p.maskReset.mask := by
  refine ⟨Pack.init [(0, ⟨.f, [.flt 1, .nan]⟩)] [], ⟨.f, [.flt 1, .nan]⟩, Reachable.init _ _ _,
    by decide +kernel, by decide +kernel, ?_⟩
  rintro ⟨_, _, h⟩
  have := h 1 (by decide)
  revert this
  decide +kernel

end CP
