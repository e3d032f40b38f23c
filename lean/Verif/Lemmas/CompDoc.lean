import Verif.Model.CompDoc
import Verif.Spec.CompDoc
/-!
# Lemmas on sector chains
-/

namespace CP

open Spec

/-! ### chains -/

theorem chain_unique {t : List Int} {s : Int} {a b : List Nat} (ha : Chain t s a) (hb : Chain t s b) : a = b := by
  induction ha generalizing b with
  | stop =>
    generalize hs : (-2 : Int) = s at hb
    cases hb with
    | stop => rfl
    | next => omega
  | @next s u rest h _ ih =>
    generalize hs : (s : Int) = s' at hb
    cases hb with
    | stop => omega
    | @next s' u' rest' h' hc =>
      have : s = s' := by omega
      subst this
      rw [h] at h'
      have : u = u' := by simpa using h'
      subst this
      rw [ih hc]

/-- From any sector on a chain the rest of it is a chain. -/
theorem chain_tail {t : List Int} {s : Int} {a : List Nat} (h : Chain t s a) {x : Nat} (hx : x ∈ a) :
    ∃ l r, a = l ++ x :: r ∧ Chain t (x : Int) (x :: r) := by
  induction h with
  | stop => simp at hx
  | @next s u rest hs hc ih =>
    rcases List.mem_cons.1 hx with rfl | hx
    · exact ⟨[], rest, rfl, .next hs hc⟩
    · obtain ⟨l, r, rfl, h2⟩ := ih hx
      exact ⟨s :: l, r, rfl, h2⟩

theorem chain_nodup {t : List Int} {s : Int} {a : List Nat} (h : Chain t s a) : a.Nodup := by
  induction h with
  | stop => simp
  | @next s u rest hs hc ih =>
    refine List.nodup_cons.2 ⟨?_, ih⟩
    intro hm
    obtain ⟨l, r, hr, h2⟩ := chain_tail hc hm
    have := chain_unique h2 (.next hs hc)
    have := congrArg List.length this
    rw [hr] at this
    simp at this
    omega

theorem chain_lt {t : List Int} {s : Int} {a : List Nat} (h : Chain t s a) : ∀ x ∈ a, x < t.length := by
  induction h with
  | stop => simp
  | next hs hc ih =>
    intro x hx
    rcases List.mem_cons.1 hx with rfl | hx
    · exact (List.getElem?_eq_some_iff.1 hs).1
    · exact ih x hx

/-- An endless walk is no chain. -/
theorem endless_not_chain {t : List Int} {s : Int} {a : List Nat} (h : Chain t s a) : ¬ Endless t s := by
  induction h with
  | stop =>
    rintro ⟨w, h0, _⟩
    omega
  | @next s u rest hs hc ih =>
    rintro ⟨w, h0, h1⟩
    refine ih ⟨fun i => w (i + 1), ?_, fun i => h1 (i + 1)⟩
    have := h1 0
    have hw : w 0 = s := by omega
    rw [hw, hs] at this
    simpa using this.symm

/-! ### marks -/

theorem markSeen_ok {seen seen' : List Nat} {s i : Nat} (h : markSeen seen s i = .ok seen') :
    seen[s]? = some 0 ∧ i ≤ 255 ∧ seen' = seen.set s i := by
  unfold markSeen at h
  split at h
  · simp at h
  · split at h
    · simp at h
    · rename_i x hx h0
      split at h
      · simp at h
      · simp only [Except.ok.injEq] at h
        have : x = 0 := by omega
        subst this
        exact ⟨hx, by omega, h.symm⟩

theorem markSeen_free {seen : List Nat} {s i : Nat} (h : seen[s]? = some 0) (hi : i ≤ 255) :
    markSeen seen s i = .ok (seen.set s i) := by
  unfold markSeen
  rw [h]
  simp; omega

/-- Sectors marked one after the other. -/
def markAll (seen : List Nat) (i : Nat) : List Nat → List Nat
  | [] => seen
  | s :: ss => markAll (seen.set s i) i ss

theorem markAll_length (seen : List Nat) (i : Nat) (ss : List Nat) : (markAll seen i ss).length = seen.length := by
  induction ss generalizing seen with
  | nil => rfl
  | cons s ss ih => rw [markAll, ih]; simp

theorem markAll_get (seen : List Nat) (i : Nat) (ss : List Nat) (x : Nat) :
    (markAll seen i ss)[x]? = if x ∈ ss then (if x < seen.length then some i else none) else seen[x]? := by
  induction ss generalizing seen with
  | nil => simp [markAll]
  | cons s ss ih =>
    rw [markAll, ih]
    by_cases hx : x ∈ ss
    · simp [hx]
    · by_cases hs : x = s
      · subst hs
        simp [hx, List.getElem?_set]
      · have : ¬ s = x := fun h => hs h.symm
        simp [hx, hs, this]

/-! ### the bytes -/

theorem pySlice_sector {mem : Bytes} {base secSize s n : Nat} :
    pySlice mem (base + s * secSize) (base + s * secSize + n) = (mem.drop (base + s * secSize)).take n := by
  unfold pySlice
  rw [List.drop_take]
  congr 1
  omega

theorem pySliceI_nat {α : Type} (l : List α) (a b : Nat) : pySliceI l (a : Int) (b : Int) = pySlice l a b := by
  unfold pySliceI
  have h : ∀ n : Nat, ¬ (n : Int) < 0 := fun n => by omega
  simp [h]

/-- The pieces of the stream. -/
def pieces (mem : Bytes) (base secSize : Nat) : Option Int → List Nat → List Bytes
  | _, [] => []
  | todo, s :: ss =>
    (grabSector mem base secSize s todo).1 :: pieces mem base secSize (grabSector mem base secSize s todo).2 ss

theorem grab_none (mem : Bytes) (base secSize s : Nat) :
    grabSector mem base secSize s none = (sector mem base secSize s, none) := by
  unfold grabSector sector
  simp only [pySlice_sector]

theorem grab_some (mem : Bytes) (base secSize s t : Nat) :
    grabSector mem base secSize s (some (t : Int)) =
      ((sector mem base secSize s).take t, some ((t - secSize : Nat) : Int)) := by
  unfold grabSector sector
  dsimp only
  by_cases h : (secSize : Int) > t
  · rw [if_pos h]
    have e : ((base + s * secSize : Nat) : Int) + (t : Int) = ((base + s * secSize + t : Nat) : Int) := by omega
    rw [e, pySliceI_nat, pySlice_sector, List.take_take]
    congr 2
    · omega
    · omega
  · rw [if_neg h]
    have e : ((base + s * secSize : Nat) : Int) + (secSize : Int) = ((base + s * secSize + secSize : Nat) : Int) := by omega
    rw [e, pySliceI_nat, pySlice_sector, List.take_take]
    congr 2
    · congr 1; omega
    · omega

theorem pieces_none (mem : Bytes) (base secSize : Nat) (ss : List Nat) :
    pieces mem base secSize none ss = ss.map (sector mem base secSize) := by
  induction ss with
  | nil => rfl
  | cons s ss ih => rw [pieces, grab_none]; simp [ih]

theorem pieces_zero (mem : Bytes) (base secSize : Nat) (ss : List Nat) :
    (pieces mem base secSize (some ((0 : Nat) : Int)) ss).flatten = [] := by
  induction ss with
  | nil => rfl
  | cons s ss ih =>
    rw [pieces, grab_some]
    have : (0 - secSize : Nat) = 0 := by omega
    rw [this]
    simp only [List.flatten_cons, ih]
    simp

theorem sector_length {mem : Bytes} {base secSize s : Nat} (h : Whole mem base secSize s) :
    (sector mem base secSize s).length = secSize := by
  unfold Whole at h
  have : (s + 1) * secSize = s * secSize + secSize := by rw [Nat.add_mul]; simp
  unfold sector
  simp
  omega

/-- The pieces are the sectors cut to the size, if no data is missing within. -/
theorem pieces_take (mem : Bytes) (base secSize : Nat) (ss : List Nat) (t : Nat)
    (hw : ∀ x ∈ ss.dropLast, Whole mem base secSize x) :
    (pieces mem base secSize (some (t : Int)) ss).flatten = (ss.flatMap (sector mem base secSize)).take t := by
  induction ss generalizing t with
  | nil => simp [pieces]
  | cons s ss ih =>
    rw [pieces, grab_some]
    simp only [List.flatten_cons, List.flatMap_cons, List.take_append]
    congr 1
    cases ss with
    | nil => simp [pieces]
    | cons r rs =>
      rw [ih _ (fun x hx => hw x (by simp [List.dropLast, hx])), sector_length (hw s (by simp [List.dropLast]))]

/-! ### the loop of _get_stream -/

/-- The marks after a stream has been read. -/
def seenAfter (seenId : Option Nat) (seen sids : List Nat) : List Nat :=
  match seenId with
  | none => seen
  | some i => markAll seen i sids

theorem streamLoop_sound {mem : Bytes} {base : Nat} {sat : List Int} {secSize : Nat} {seenId : Option Nat} {n : Nat}
    {seen seen' : List Nat} {s : Int} {todo : Option Int} {ss : List Bytes}
    (h : streamLoop mem base sat secSize seenId n seen s todo = some (seen', .ok ss)) :
    ∃ sids, Chain sat s sids ∧ ss = pieces mem base secSize todo sids ∧
      (∀ i, seenId = some i → ∀ x ∈ sids, seen[x]? = some 0 ∧ i ≤ 255) ∧ seen' = seenAfter seenId seen sids := by
  induction n generalizing seen s todo ss with
  | zero => simp [streamLoop] at h
  | succ n ih =>
    rw [streamLoop] at h
    split at h
    · split at h
      · rename_i hs
        simp only [Option.some.injEq, Prod.mk.injEq, Except.ok.injEq] at h
        obtain ⟨rfl, rfl⟩ := h
        subst hs
        refine ⟨[], .stop, rfl, by simp, ?_⟩
        cases seenId <;> rfl
      · simp at h
    · rename_i hs
      split at h
      · simp at h
      · rename_i seen1 hm
        dsimp only at h
        split at h
        · simp at h
        · rename_i s' hs'
          split at h
          · simp at h
          · simp at h
          · rename_i seen2 ss2 hr
            simp only [Option.some.injEq, Prod.mk.injEq, Except.ok.injEq] at h
            obtain ⟨rfl, rfl⟩ := h
            obtain ⟨sids, h1, h2, h3, h4⟩ := ih hr
            obtain ⟨k, rfl⟩ : ∃ k : Nat, s = k := ⟨s.toNat, by omega⟩
            simp only [Int.toNat_natCast] at hm hs' h2 ⊢
            have hch : Chain sat (k : Int) (k :: sids) := .next hs' h1
            refine ⟨k :: sids, hch, by rw [h2, pieces], ?_⟩
            cases seenId with
            | none =>
              simp only [markOpt, Except.ok.injEq] at hm
              exact ⟨by simp, by rw [hm]; exact h4⟩
            | some i =>
              obtain ⟨g1, g2, g3⟩ := markSeen_ok hm
              refine ⟨?_, by rw [h4, g3]; rfl⟩
              intro i' hi' x hx
              obtain rfl : i = i' := by simpa using hi'
              rcases List.mem_cons.1 hx with rfl | hx
              · exact ⟨g1, g2⟩
              · have hne : k ≠ x := by
                  rintro rfl
                  exact (List.nodup_cons.1 (chain_nodup hch)).1 hx
                have := h3 i rfl x hx
                rw [g3, List.getElem?_set, if_neg hne] at this
                exact this

theorem streamLoop_complete {mem : Bytes} {base : Nat} {sat : List Int} {secSize : Nat} {seenId : Option Nat}
    {seen : List Nat} {s : Int} {todo : Option Int} {sids : List Nat} (hc : Chain sat s sids)
    (hi : ∀ i, seenId = some i → ∀ x ∈ sids, seen[x]? = some 0 ∧ i ≤ 255) (k : Nat) :
    streamLoop mem base sat secSize seenId (sids.length + 1 + k) seen s todo =
      some (seenAfter seenId seen sids, .ok (pieces mem base secSize todo sids)) := by
  induction hc generalizing seen todo with
  | stop =>
    rw [show ([] : List Nat).length + 1 + k = k + 1 by simp; omega, streamLoop]
    cases seenId <;> rfl
  | @next s u rest hs hc ih =>
    rw [show (s :: rest).length + 1 + k = (rest.length + 1 + k) + 1 by simp; omega, streamLoop]
    rw [if_neg (by omega)]
    simp only [Int.toNat_natCast]
    cases seenId with
    | none =>
      simp only [markOpt]
      rw [hs]
      dsimp only
      rw [ih (by simp)]
      rfl
    | some i =>
      have h0 := hi i rfl s (by simp)
      simp only [markOpt]
      rw [markSeen_free h0.1 h0.2]
      dsimp only
      rw [hs]
      dsimp only
      rw [ih (by
        intro i' hi' x hx
        obtain rfl : i = i' := by simpa using hi'
        have hne : s ≠ x := by
          rintro rfl
          exact (List.nodup_cons.1 (chain_nodup (.next hs hc))).1 hx
        rw [List.getElem?_set, if_neg hne]
        exact hi i rfl x (by simp [hx]))]
      rfl

theorem streamLoop_mono {mem : Bytes} {base : Nat} {sat : List Int} {secSize : Nat} {seenId : Option Nat} {n : Nat}
    {seen : List Nat} {s : Int} {todo : Option Int} {r : List Nat × Except Exc (List Bytes)}
    (h : streamLoop mem base sat secSize seenId n seen s todo = some r) (k : Nat) :
    streamLoop mem base sat secSize seenId (n + k) seen s todo = some r := by
  induction n generalizing seen s todo r with
  | zero => simp [streamLoop] at h
  | succ n ih =>
    rw [show n + 1 + k = (n + k) + 1 by omega]
    rw [streamLoop] at h ⊢
    split
    · rw [if_pos (by assumption)] at h; exact h
    · rw [if_neg (by assumption)] at h
      split at h
      · exact h
      · rename_i seen1 hm
        dsimp only at h ⊢
        split at h
        · exact h
        · rename_i s' hs'
          cases hr : streamLoop mem base sat secSize seenId n seen1 s'
              (grabSector mem base secSize s.toNat todo).2 with
          | none => rw [hr] at h; simp at h
          | some q => rw [ih hr]; rw [hr] at h; exact h

/-- With marks the loop ends: a sector not marked yet is needed for each round. -/
theorem streamLoop_ends {mem : Bytes} {base : Nat} {sat : List Int} {secSize i : Nat} (hi : i ≠ 0)
    {n : Nat} {seen : List Nat} (hn : seen.count 0 < n) (s : Int) (todo : Option Int) :
    ∃ r, streamLoop mem base sat secSize (some i) n seen s todo = some r := by
  induction n generalizing seen s todo with
  | zero => omega
  | succ n ih =>
    rw [streamLoop]
    split
    · exact ⟨_, rfl⟩
    · split
      · exact ⟨_, rfl⟩
      · rename_i seen1 hm
        obtain ⟨g1, _, g3⟩ := markSeen_ok hm
        have hc : seen1.count 0 < seen.count 0 := by
          obtain ⟨hlt, hget⟩ := List.getElem?_eq_some_iff.1 g1
          rw [g3, List.count_set hlt]
          have : 0 < seen.count 0 := List.count_pos_iff.2 (hget ▸ List.getElem_mem hlt)
          simp [hget, hi]
          omega
        dsimp only
        split
        · exact ⟨_, rfl⟩
        · rename_i s' _
          obtain ⟨r, hr⟩ := ih (seen := seen1) (by omega) s' (grabSector mem base secSize s.toNat todo).2
          rw [hr]
          obtain ⟨a, b⟩ := r
          cases b <;> exact ⟨_, rfl⟩

/-- Does the loop end within so many rounds, if nothing is marked? -/
def walkEnds (sat : List Int) : Nat → Int → Bool
  | 0, _ => false
  | n + 1, s =>
    if s < 0 then true
    else match sat[s.toNat]? with
      | none => true
      | some t => walkEnds sat n t

theorem streamLoop_walk (mem : Bytes) (base : Nat) (sat : List Int) (secSize : Nat) (n : Nat) (seen : List Nat) (s : Int)
    (todo : Option Int) :
    (streamLoop mem base sat secSize none n seen s todo).isSome = walkEnds sat n s := by
  induction n generalizing s todo with
  | zero => rfl
  | succ n ih =>
    rw [streamLoop, walkEnds]
    split
    · rfl
    · simp only [markOpt]
      cases hg : sat[s.toNat]? with
      | none => rfl
      | some t =>
        dsimp only
        rw [← ih t (grabSector mem base secSize s.toNat todo).2]
        generalize streamLoop mem base sat secSize none n seen t (grabSector mem base secSize s.toNat todo).2 = z
        rcases z with _ | ⟨a, _ | b⟩ <;> rfl

theorem walkEnds_iff (sat : List Int) (s : Int) : (∃ n, walkEnds sat n s = true) ↔ ¬ Endless sat s := by
  constructor
  · rintro ⟨n, h⟩ ⟨w, h0, h1⟩
    have : ∀ n i, walkEnds sat n (w i : Int) = false := by
      intro n
      induction n with
      | zero => intros; rfl
      | succ n ih =>
        intro i
        rw [walkEnds, if_neg (by omega)]
        simp only [Int.toNat_natCast, h1 i, ih]
    rw [← h0, this] at h
    simp at h
  · intro hne
    apply Classical.byContradiction
    intro hno
    apply hne
    -- where the walk does not end, there is a next sector where it does not end
    have step : ∀ s : Int, (∀ n, walkEnds sat n s = false) →
        ¬ s < 0 ∧ ∃ t, sat[s.toNat]? = some t ∧ ∀ n, walkEnds sat n t = false := by
      intro s hs
      have hpos : ¬ s < 0 := by
        intro h
        have := hs 1
        rw [walkEnds, if_pos h] at this
        simp at this
      refine ⟨hpos, ?_⟩
      cases hg : sat[s.toNat]? with
      | none =>
        exfalso
        have := hs 1
        rw [walkEnds, if_neg hpos] at this
        simp [hg] at this
      | some t =>
        refine ⟨t, rfl, fun n => ?_⟩
        have := hs (n + 1)
        rw [walkEnds, if_neg hpos] at this
        simpa [hg] using this
    have h0 : ∀ n, walkEnds sat n s = false := by
      intro n
      cases h : walkEnds sat n s with
      | false => rfl
      | true => exact absurd ⟨n, h⟩ hno
    let walk : Nat → Int := fun i => Nat.rec s (fun _ u => (sat[u.toNat]?).getD 0) i
    have hwalk : ∀ i, ∀ n, walkEnds sat n (walk i) = false := by
      intro i
      induction i with
      | zero => exact h0
      | succ i ih =>
        obtain ⟨_, t, ht, h2⟩ := step _ ih
        have : walk (i + 1) = t := by
          show (sat[(walk i).toNat]?).getD 0 = t
          rw [ht]; rfl
        rw [this]; exact h2
    refine ⟨fun i => (walk i).toNat, ?_, ?_⟩
    · have := (step _ h0).1
      show ((s.toNat : Nat) : Int) = s
      omega
    · intro i
      obtain ⟨_, t, ht, _⟩ := step _ (hwalk i)
      have h1 : walk (i + 1) = t := by
        show (sat[(walk i).toNat]?).getD 0 = t
        rw [ht]; rfl
      have h2 := (step _ (hwalk (i + 1))).1
      show sat[(walk i).toNat]? = some (((walk (i + 1)).toNat : Nat) : Int)
      rw [ht]
      congr 1
      omega

/-- Without marks the loop ends unless the walk is endless. -/
theorem streamLoop_ends_iff {mem : Bytes} {base : Nat} {sat : List Int} {secSize : Nat} {seen : List Nat} {s : Int}
    {todo : Option Int} :
    (∃ n r, streamLoop mem base sat secSize none n seen s todo = some r) ↔ ¬ Endless sat s := by
  rw [← walkEnds_iff]
  constructor
  · rintro ⟨n, r, h⟩
    exact ⟨n, by rw [← streamLoop_walk mem base sat secSize n seen s todo, h]; rfl⟩
  · rintro ⟨n, h⟩
    rw [← streamLoop_walk mem base sat secSize n seen s todo] at h
    exact ⟨n, Option.isSome_iff_exists.1 h⟩

/-! ### marks become only more -/

/-- As many sectors, none of them unmarked. -/
def MoreSeen (a b : List Nat) : Prop := b.length = a.length ∧ b.count 0 ≤ a.count 0

theorem MoreSeen.refl (a : List Nat) : MoreSeen a a := ⟨rfl, Nat.le_refl _⟩

theorem MoreSeen.trans {a b c : List Nat} (h : MoreSeen a b) (g : MoreSeen b c) : MoreSeen a c :=
  ⟨g.1.trans h.1, Nat.le_trans g.2 h.2⟩

theorem set_count {seen : List Nat} {s i : Nat} (hi : i ≠ 0) (h : seen[s]? = some 0) :
    (seen.set s i).count 0 < seen.count 0 := by
  obtain ⟨hlt, hget⟩ := List.getElem?_eq_some_iff.1 h
  rw [List.count_set hlt]
  have : 0 < seen.count 0 := List.count_pos_iff.2 (hget ▸ List.getElem_mem hlt)
  simp [hget, hi]
  omega

theorem moreSeen_mark {seen seen' : List Nat} {s i : Nat} (hi : i ≠ 0) (h : markSeen seen s i = .ok seen') :
    MoreSeen seen seen' ∧ seen'.count 0 < seen.count 0 := by
  obtain ⟨g1, _, rfl⟩ := markSeen_ok h
  have := set_count hi g1
  exact ⟨⟨by simp, by omega⟩, this⟩

theorem markAll_count {seen : List Nat} {i : Nat} (hi : i ≠ 0) (ss : List Nat) :
    (markAll seen i ss).count 0 ≤ seen.count 0 := by
  induction ss generalizing seen with
  | nil => exact Nat.le_refl _
  | cons s ss ih =>
    rw [markAll]
    refine Nat.le_trans ih ?_
    by_cases hlt : s < seen.length
    · rw [List.count_set hlt]
      simp [hi]
    · rw [List.set_eq_of_length_le (by omega)]
      exact Nat.le_refl _

theorem streamLoop_moreSeen {mem : Bytes} {base : Nat} {sat : List Int} {secSize i : Nat} (hi : i ≠ 0) {n : Nat}
    {seen seen' : List Nat} {s : Int} {todo : Option Int} {ss : List Bytes}
    (h : streamLoop mem base sat secSize (some i) n seen s todo = some (seen', .ok ss)) : MoreSeen seen seen' := by
  obtain ⟨sids, _, _, _, rfl⟩ := streamLoop_sound h
  exact ⟨markAll_length _ _ _, markAll_count hi _⟩

theorem msatLoop_ends {mem : Bytes} {secSize nSecs n : Nat} {seen : List Nat} (hn : seen.count 0 < n) (msat : List Int)
    (sid : Int) : ∃ r, msatLoop mem secSize nSecs n seen msat sid = some r ∧
      ∀ p, r = .ok p → MoreSeen seen p.1 := by
  induction n generalizing seen msat sid with
  | zero => omega
  | succ n ih =>
    rw [msatLoop]
    split
    · exact ⟨_, rfl, by rintro p ⟨⟩; exact .refl _⟩
    · split
      · exact ⟨_, rfl, by rintro p ⟨⟩⟩
      · split
        · exact ⟨_, rfl, by rintro p ⟨⟩⟩
        · split
          · exact ⟨_, rfl, by rintro p ⟨⟩⟩
          · rename_i seen1 hm
            obtain ⟨h1, h2⟩ := moreSeen_mark (by decide) hm
            dsimp only
            split
            · exact ⟨_, rfl, by rintro p ⟨⟩⟩
            · obtain ⟨r, g1, g2⟩ := ih (seen := seen1) (by omega) _ _
              exact ⟨r, g1, fun p hp => h1.trans (g2 p hp)⟩

theorem satLoop_moreSeen {mem : Bytes} {secSize nSecs : Nat} {seen : List Nat} {msat : List Int}
    {p : List Nat × List Int} (h : satLoop mem secSize nSecs seen msat = .ok p) : MoreSeen seen p.1 := by
  induction msat generalizing seen p with
  | nil => simp [satLoop] at h; subst h; exact .refl _
  | cons m msat ih =>
    rw [satLoop] at h
    split at h
    · exact ih h
    · split at h
      · exact ih h
      · split at h
        · simp at h
        · split at h
          · simp at h
          · rename_i seen1 hm
            dsimp only at h
            split at h
            · simp at h
            · split at h
              · simp at h
              · rename_i seen2 ys hr
                simp only [Except.ok.injEq] at h
                subst h
                have g := ih hr
                exact (moreSeen_mark (by decide) hm).1.trans g

theorem ssatLoop_length {mem : Bytes} {secSize : Nat} {sat : List Int} {n : Nat} {seen : List Nat} {sid : Int}
    {p : List Nat × List Int} (h : ssatLoop mem secSize sat n seen sid = .ok p) : p.1.length = seen.length := by
  induction n generalizing seen sid p with
  | zero =>
    rw [ssatLoop] at h
    simp at h
    split at h
    · simp at h; subst h; rfl
    · simp at h
  | succ n ih =>
    rw [ssatLoop] at h
    split at h
    · split at h
      · simp at h; subst h; rfl
      · simp at h
    · dsimp only at h
      split at h
      · simp at h
      · rename_i seen1 hm
        split at h
        · simp at h
        · split at h
          · simp at h
          · split at h
            · simp at h
            · rename_i seen2 ys hr
              simp only [Except.ok.injEq] at h
              subst h
              have g := ih hr
              exact g.trans (moreSeen_mark (by decide) hm).1.1

/-! ### _locate_stream -/

/-- The slices of the data. -/
def slicesOf (mem : Bytes) (l : List (Nat × Nat)) : Bytes := (l.map fun p => pySlice mem p.1 p.2).flatten

theorem slicesOf_append (mem : Bytes) (a b : List (Nat × Nat)) : slicesOf mem (a ++ b) = slicesOf mem a ++ slicesOf mem b := by
  simp [slicesOf]

theorem pySlice_split {α : Type} (l : List α) {a b c : Nat} (h1 : a ≤ b) (h2 : b ≤ c) :
    pySlice l a c = pySlice l a b ++ pySlice l b c := by
  unfold pySlice
  have : l.take c = l.take b ++ (l.take c).drop b := by
    have := (List.take_append_drop b (l.take c)).symm
    rw [List.take_take, Nat.min_eq_left h2] at this
    exact this
  rw [this, List.drop_append]
  congr 1
  by_cases hb : b ≤ l.length
  · have hl : (l.take b).length = b := by simp; omega
    rw [hl]
    have e1 : a - b = 0 := by omega
    have hd : (l.take b ++ (l.take c).drop b).drop b = (l.take c).drop b := by
      rw [List.drop_append, hl]
      simp
    rw [e1, hd]
    simp
  · have : (l.take c).drop b = [] := by
      apply List.drop_eq_nil_of_le
      simp
      omega
    rw [this]
    simp

theorem sector_slice (mem : Bytes) (base secSize s : Nat) :
    sector mem base secSize s = pySlice mem (base + s * secSize) (base + s * secSize + secSize) := by
  rw [pySlice_sector]; rfl

/-- The state of the loop after the sectors `done`. -/
structure LocInv (mem : Bytes) (base secSize : Nat) (st : LocState) (done : List Nat) : Prop where
  found : st.found = done.length
  first : done = [] → st.prev = none ∧ st.slices = []
  later : done ≠ [] → ∃ p, st.prev = some p ∧ st.stop = base + (p + 1) * secSize ∧ st.start ≤ st.stop ∧
    slicesOf mem (st.slices ++ [(st.start, st.stop)]) = done.flatMap (sector mem base secSize) ∧
    (st.slices = [] → st.stop = st.start + done.length * secSize)

theorem LocInv.step {mem : Bytes} {base secSize : Nat} {st : LocState} {done : List Nat} (h : LocInv mem base secSize st done)
    (s : Nat) : LocInv mem base secSize { st.add base secSize s with found := st.found + 1 } (done ++ [s]) := by
  have hmul : ∀ k, (k + 1) * secSize = k * secSize + secSize := fun k => by rw [Nat.add_mul]; simp
  refine ⟨by simp [h.found], by simp, fun _ => ?_⟩
  unfold LocState.add
  by_cases hd : done = []
  · obtain ⟨h1, h2⟩ := h.first hd
    rw [if_neg (by simp [h1])]
    subst hd
    refine ⟨s, rfl, ?_, ?_, ?_, ?_⟩
    · dsimp only; rw [hmul]; omega
    · dsimp only; omega
    · simp [h1, h2, slicesOf, sector_slice]
    · intro _; simp
  · obtain ⟨p, h1, h2, h3, h4, h5⟩ := h.later hd
    split
    · rename_i hc
      obtain ⟨hc1, hc2⟩ := hc
      have hp : s = p + 1 := by
        rw [h1] at hc1
        simp at hc1
        omega
      have hstop : st.stop = base + s * secSize := by rw [h2, hp]
      refine ⟨s, rfl, ?_, ?_, ?_, ?_⟩
      · dsimp only; rw [hmul]; omega
      · dsimp only; omega
      · dsimp only
        rw [slicesOf_append] at h4 ⊢
        rw [List.flatMap_append, ← h4, List.append_assoc]
        congr 1
        simp only [slicesOf, List.map_cons, List.map_nil, List.flatten_cons, List.flatten_nil, List.append_nil,
          List.flatMap_cons, List.flatMap_nil]
        rw [sector_slice, ← hstop]
        exact pySlice_split _ h3 (by omega)
      · intro hs
        dsimp only at hs ⊢
        rw [h5 hs]
        simp [Nat.add_mul]
        omega
    · refine ⟨s, rfl, ?_, ?_, ?_, ?_⟩
      · dsimp only; rw [hmul]; omega
      · dsimp only; omega
      · dsimp only
        rw [h1]
        simp only [reduceCtorEq, if_false]
        rw [slicesOf_append, List.flatMap_append, h4]
        congr 1
        simp [slicesOf, sector_slice]
      · intro hs
        dsimp only at hs
        rw [h1] at hs
        simp at hs

theorem locateLoop_sound {base : Nat} {sat : List Int} {secSize seenId : Nat} {limit : Int} {n : Nat}
    {seen seen' : List Nat} {s : Int} {st st' : LocState} (mem : Bytes) (done : List Nat) (hinv : LocInv mem base secSize st done)
    (h : locateLoop base sat secSize false seenId limit n seen s st = some (seen', .ok st')) :
    ∃ sids, Chain sat s sids ∧ (∀ x ∈ sids, seen[x]? = some 0 ∧ seenId ≤ 255) ∧ seen' = markAll seen seenId sids ∧
      LocInv mem base secSize st' (done ++ sids) ∧ (st'.found : Int) = limit := by
  induction n generalizing seen s st done with
  | zero => simp [locateLoop] at h
  | succ n ih =>
    rw [locateLoop] at h
    split at h
    · split at h
      · rename_i hs
        simp only [Option.some.injEq, Prod.mk.injEq, Except.ok.injEq] at h
        obtain ⟨rfl, rfl⟩ := h
        rw [hs.1]
        exact ⟨[], .stop, by simp, rfl, by simpa using hinv, hs.2⟩
      · simp at h
    · rename_i hpos
      split at h
      · simp at h
      · rename_i x hx
        split at h
        · simp at h
        · rename_i h0
          split at h
          · simp at h
          · rename_i hid
            dsimp only at h
            split at h
            · simp at h
            · split at h
              · simp at h
              · rename_i s' hs'
                obtain ⟨sids, h1, h2, h3, h4, h5⟩ := ih _ (hinv.step s.toNat) h
                obtain ⟨k, rfl⟩ : ∃ k : Nat, s = k := ⟨s.toNat, by omega⟩
                simp only [Int.toNat_natCast] at *
                have hx0 : x = 0 := by
                  by_cases hx0 : x = 0
                  · exact hx0
                  · exact absurd (And.intro hx0 trivial) h0
                subst hx0
                have hch : Chain sat (k : Int) (k :: sids) := .next hs' h1
                refine ⟨k :: sids, hch, ?_, by rw [h3, markAll], by simpa using h4, h5⟩
                intro y hy
                rcases List.mem_cons.1 hy with rfl | hy
                · exact ⟨hx, by omega⟩
                · have hne : k ≠ y := by
                    rintro rfl
                    exact (List.nodup_cons.1 (chain_nodup hch)).1 hy
                  have := h2 y hy
                  rw [List.getElem?_set, if_neg hne] at this
                  exact this

theorem locateLoop_complete {base : Nat} {sat : List Int} {secSize seenId : Nat} {ignore : Bool} {limit : Int}
    {seen : List Nat} {s : Int} {st : LocState} {sids : List Nat} (hc : Chain sat s sids)
    (hu : ∀ x ∈ sids, seen[x]? = some 0 ∧ seenId ≤ 255) (hl : (st.found : Int) + sids.length = limit) (k : Nat) :
    ∃ st', locateLoop base sat secSize ignore seenId limit (sids.length + 1 + k) seen s st =
      some (markAll seen seenId sids, .ok st') := by
  induction hc generalizing seen st with
  | stop =>
    rw [show ([] : List Nat).length + 1 + k = k + 1 by simp; omega, locateLoop]
    have : (st.found : Int) = limit := by simpa using hl
    simp [this, eocSid, markAll]
  | @next s u rest hs hc ih =>
    rw [show (s :: rest).length + 1 + k = (rest.length + 1 + k) + 1 by simp; omega, locateLoop]
    obtain ⟨h0, h1⟩ := hu s (by simp)
    rw [if_neg (by omega)]
    simp only [Int.toNat_natCast, h0]
    rw [if_neg (by simp), if_neg (by omega)]
    have hlt : ¬ (st.found : Int) + 1 > limit := by simp at hl; omega
    rw [if_neg hlt]
    simp only [hs]
    rw [markAll]
    apply ih
    · intro x hx
      have hne : s ≠ x := by
        rintro rfl
        exact (List.nodup_cons.1 (chain_nodup (.next hs hc))).1 hx
      rw [List.getElem?_set, if_neg hne]
      exact hu x (by simp [hx])
    · simp at hl ⊢; omega

theorem locateLoop_ends {base : Nat} {sat : List Int} {secSize seenId : Nat} {ignore : Bool} {limit : Int} {n : Nat}
    {seen : List Nat} {s : Int} {st : LocState} (hn : limit - st.found < n) (h0 : 0 < n):
    ∃ r, locateLoop base sat secSize ignore seenId limit n seen s st = some r := by
  induction n generalizing seen s st with
  | zero => omega
  | succ n ih =>
    rw [locateLoop]
    split
    · exact ⟨_, rfl⟩
    · split
      · exact ⟨_, rfl⟩
      · split
        · exact ⟨_, rfl⟩
        · split
          · exact ⟨_, rfl⟩
          · dsimp only
            split
            · exact ⟨_, rfl⟩
            · rename_i hl
              split
              · exact ⟨_, rfl⟩
              · apply ih
                · dsimp only; omega
                · omega

end CP
