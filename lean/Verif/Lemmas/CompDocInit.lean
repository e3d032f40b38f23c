import Verif.Lemmas.CompDocDir
/-!
# What `CompDoc.__init__` reads
-/

namespace CP

open Spec

/-! ### numbers -/

theorem leInt_at {b : Bytes} {p : Nat} (h : p + 4 ≤ b.length) : IntAt b p (leInt (pySlice b p (p + 4))) := by
  refine ⟨b[p], b[p + 1], b[p + 2], b[p + 3], by simp, by simp, by simp, by simp, ?_⟩
  have : pySlice b p (p + 4) = [b[p], b[p + 1], b[p + 2], b[p + 3]] := by
    apply List.ext_getElem?
    intro i
    unfold pySlice
    rw [List.getElem?_drop, List.getElem?_take]
    rcases i with _ | _ | _ | _ | i
    · simp
    · simp
    · simp
    · simp
    · rw [if_neg (by omega)]; simp
  rw [this]
  unfold leInt
  have e : leNat [b[p], b[p + 1], b[p + 2], b[p + 3]] =
      b[p].toNat + 256 * b[p + 1].toNat + 65536 * b[p + 2].toNat + 16777216 * b[p + 3].toNat := by
    simp [leNat]; omega
  rw [e]
  dsimp only
  generalize (b[p].toNat + 256 * b[p + 1].toNat + 65536 * b[p + 2].toNat + 16777216 * b[p + 3].toNat : Nat) = n
  by_cases hn : n < 2147483648
  · rw [if_pos hn, if_pos (by omega)]
  · rw [if_neg hn, if_neg (by omega)]

theorem leInts_length (n : Nat) (b : Bytes) : (leInts n b).length = n := by
  induction n generalizing b with
  | zero => rfl
  | succ n ih => simp [leInts, ih]

theorem leInts_get (n : Nat) (b : Bytes) (i : Nat) (hi : i < n) :
    (leInts n b)[i]? = some (leInt (pySlice b (4 * i) (4 * i + 4))) := by
  induction n generalizing b i with
  | zero => omega
  | succ n ih =>
    rw [leInts]
    cases i with
    | zero => simp [pySlice]
    | succ i =>
      rw [List.getElem?_cons_succ, ih _ _ (by omega)]
      congr 2
      unfold pySlice
      rw [List.take_drop, List.drop_drop]
      congr 1
      · omega
      · congr 1; omega

theorem leInts_of {n : Nat} {b : Bytes} (h : b.length = 4 * n) : IntsOf b (leInts n b) := by
  refine ⟨by rw [leInts_length, h], ?_⟩
  intro i v hv
  have hi : i < n := by
    have := (List.getElem?_eq_some_iff.1 hv).1
    rwa [leInts_length] at this
  rw [leInts_get n b i hi] at hv
  have hv := Option.some.inj hv
  rw [← hv]
  have hle : 4 * i + 4 ≤ b.length := by omega
  exact leInt_at hle

theorem unpackInts_ok {n : Nat} {b : Bytes} {xs : List Int} (h : unpackInts n b = .ok xs) : IntsOf b xs ∧ xs.length = n := by
  unfold unpackInts at h
  split at h
  · rename_i hl
    simp only [Except.ok.injEq] at h
    subst h
    exact ⟨leInts_of hl, leInts_length _ _⟩
  · simp at h

theorem intAt_append_left {a b : Bytes} {p : Nat} {v : Int} (h : IntAt a p v) : IntAt (a ++ b) p v := by
  obtain ⟨b0, b1, b2, b3, h0, h1, h2, h3, h4⟩ := h
  have key : ∀ {q : Nat} {x : UInt8}, a[q]? = some x → (a ++ b)[q]? = some x := by
    intro q x hq
    rw [List.getElem?_append_left (List.getElem?_eq_some_iff.1 hq).1]
    exact hq
  exact ⟨b0, b1, b2, b3, key h0, key h1, key h2, key h3, h4⟩

theorem intAt_append_right {a b : Bytes} {p : Nat} {v : Int} (h : IntAt b p v) : IntAt (a ++ b) (a.length + p) v := by
  obtain ⟨b0, b1, b2, b3, h0, h1, h2, h3, h4⟩ := h
  have key : ∀ {q : Nat} {x : UInt8}, b[q]? = some x → (a ++ b)[a.length + q]? = some x := by
    intro q x hq
    rw [List.getElem?_append_right (by omega)]
    rw [show a.length + q - a.length = q by omega]
    exact hq
  exact ⟨b0, b1, b2, b3, key h0, key h1, key h2, key h3, h4⟩

theorem intsOf_append {a b : Bytes} {xs ys : List Int} (ha : IntsOf a xs) (hb : IntsOf b ys) : IntsOf (a ++ b) (xs ++ ys) := by
  refine ⟨?_, ?_⟩
  · have := ha.1; have := hb.1; simp; omega
  · intro i v hv
    by_cases hi : i < xs.length
    · rw [List.getElem?_append_left hi] at hv
      exact intAt_append_left (ha.2 i v hv)
    · rw [List.getElem?_append_right (by omega)] at hv
      have := intAt_append_right (a := a) (hb.2 _ v hv)
      rw [← ha.1, show 4 * xs.length + 4 * (i - xs.length) = 4 * i by omega] at this
      exact this

theorem intsOf_nil : IntsOf [] [] := ⟨rfl, by simp⟩

/-! ### marks -/

theorem marks_nil (a : List Nat) : Marks a a [] := ⟨rfl, List.nodup_nil, by simp, by simp⟩

theorem marks_append {a b c s t : List Nat} (h : Marks a b s) (g : Marks b c t) : Marks a c (s ++ t) := by
  obtain ⟨h1, h2, h3, h4⟩ := h
  obtain ⟨g1, g2, g3, g4⟩ := g
  have hdis : ∀ x ∈ s, x ∉ t := fun x hx ht => (h3 x hx).2 (g3 x ht).1
  refine ⟨g1.trans h1, ?_, ?_, ?_⟩
  · rw [List.nodup_append]
    exact ⟨h2, g2, fun x hx y hy hxy => hdis x hx (hxy ▸ hy)⟩
  · intro x hx
    rcases List.mem_append.1 hx with hx | hx
    · refine ⟨(h3 x hx).1, ?_⟩
      rw [g4 x (hdis x hx)]
      exact (h3 x hx).2
    · have hs : x ∉ s := fun hs => hdis x hs hx
      refine ⟨?_, (g3 x hx).2⟩
      rw [← h4 x hs]
      exact (g3 x hx).1
  · intro x hx
    simp at hx
    rw [g4 x hx.2, h4 x hx.1]

theorem marks_one {a b : List Nat} {s i : Nat} (hi : i ≠ 0) (h : markSeen a s i = .ok b) : Marks a b [s] := by
  obtain ⟨h1, h2, rfl⟩ := markSeen_ok h
  have hlt := (List.getElem?_eq_some_iff.1 h1).1
  refine ⟨by simp, by simp, ?_, ?_⟩
  · intro x hx
    simp at hx
    subst hx
    exact ⟨h1, by simp [hlt, hi]⟩
  · intro x hx
    simp at hx
    rw [List.getElem?_set, if_neg (fun h => hx h.symm)]

theorem marks_all {seen sids : List Nat} {i : Nat} (hi : i ≠ 0) (hn : sids.Nodup) (hu : ∀ x ∈ sids, seen[x]? = some 0) :
    Marks seen (markAll seen i sids) sids := by
  refine ⟨markAll_length _ _ _, hn, ?_, ?_⟩
  · intro x hx
    refine ⟨hu x hx, ?_⟩
    rw [markAll_get, if_pos hx, if_pos (List.getElem?_eq_some_iff.1 (hu x hx)).1]
    simp [hi]
  · intro x hx
    rw [markAll_get, if_neg hx]

theorem streamLoop_marks {mem : Bytes} {base : Nat} {sat : List Int} {secSize i : Nat} (hi : i ≠ 0) {n : Nat}
    {seen seen' : List Nat} {s : Int} {todo : Option Int} {ss : List Bytes}
    (h : streamLoop mem base sat secSize (some i) n seen s todo = some (seen', .ok ss)) :
    ∃ sids, Chain sat s sids ∧ ss = pieces mem base secSize todo sids ∧ Marks seen seen' sids := by
  obtain ⟨sids, h1, h2, h3, rfl⟩ := streamLoop_sound h
  exact ⟨sids, h1, h2, marks_all hi (chain_nodup h1) (fun x hx => (h3 i rfl x hx).1)⟩

/-! ### the tables -/

theorem sector_offset (mem : Bytes) (secSize s : Nat) :
    pySlice mem (512 + secSize * s) (512 + secSize * s + secSize) = sector mem 512 secSize s := by
  rw [sector_slice, Nat.mul_comm]

theorem msatLoop_sound {mem : Bytes} {secSize nSecs n : Nat} (h2 : 0 < secSize / 4) {seen seen' : List Nat}
    {msat msat' : List Int} {sid : Int} (h : msatLoop mem secSize nSecs n seen msat sid = some (.ok (seen', msat'))) :
    ∃ sids m, MsatChain mem secSize sid sids m ∧ msat' = msat ++ m ∧ Marks seen seen' sids := by
  induction n generalizing seen msat sid with
  | zero => simp [msatLoop] at h
  | succ n ih =>
    rw [msatLoop] at h
    split at h
    · rename_i hs
      simp only [Option.some.injEq, Except.ok.injEq, Prod.mk.injEq] at h
      obtain ⟨rfl, rfl⟩ := h
      refine ⟨[], [], .stop ?_, by simp, marks_nil _⟩
      unfold eocSid freeSid msatSid at hs
      omega
    · split at h
      · simp at h
      · split at h
        · simp at h
        · rename_i hpos
          split at h
          · simp at h
          · rename_i seen1 hm
            dsimp only at h
            split at h
            · simp at h
            · rename_i xs hx
              obtain ⟨sids, m, g1, g2, g3⟩ := ih h
              obtain ⟨k, rfl⟩ : ∃ k : Nat, sid = k := ⟨sid.toNat, by omega⟩
              simp only [Int.toNat_natCast] at hm hx
              rw [sector_offset] at hx
              obtain ⟨hx1, hx2⟩ := unpackInts_ok hx
              have hne : xs ≠ [] := by rintro rfl; simp at hx2; omega
              have hxs : xs.dropLast ++ [xs.getLast?.getD 0] = xs := by
                rw [List.getLast?_eq_some_getLast hne]
                exact List.dropLast_concat_getLast hne
              refine ⟨k :: sids, xs.dropLast ++ m, .next (by rw [hxs]; exact hx1) g1, by rw [g2]; simp, ?_⟩
              exact marks_append (marks_one (by decide) hm) g3

theorem satLoop_sound {mem : Bytes} {secSize nSecs : Nat} {seen seen' : List Nat} {msat : List Int} {sat : List Int}
    (h : satLoop mem secSize nSecs seen msat = .ok (seen', sat)) :
    ∃ sats : List Nat, sats.map Int.ofNat = msat.filter (fun e : Int => 0 ≤ e ∧ e < nSecs) ∧ Marks seen seen' sats ∧
      TableIn mem secSize sats sat := by
  induction msat generalizing seen sat with
  | nil =>
    simp [satLoop] at h
    obtain ⟨rfl, rfl⟩ := h
    exact ⟨[], rfl, marks_nil _, intsOf_nil⟩
  | cons m msat ih =>
    rw [satLoop] at h
    split at h
    · rename_i hm
      obtain ⟨sats, h1, h2, h3⟩ := ih h
      refine ⟨sats, ?_, h2, h3⟩
      rw [List.filter_cons_of_neg, h1]
      unfold freeSid eocSid at hm
      simp
      omega
    · split at h
      · rename_i hm
        obtain ⟨sats, h1, h2, h3⟩ := ih h
        refine ⟨sats, ?_, h2, h3⟩
        rw [List.filter_cons_of_neg, h1]
        simp
        omega
      · split at h
        · simp at h
        · rename_i g1 g2 g3
          unfold freeSid eocSid at g1
          split at h
          · simp at h
          · rename_i seen1 hm
            dsimp only at h
            split at h
            · simp at h
            · rename_i xs hx
              split at h
              · simp at h
              · rename_i seen2 ys hr
                simp only [Except.ok.injEq, Prod.mk.injEq] at h
                obtain ⟨rfl, rfl⟩ := h
                obtain ⟨sats, h1, h2, h3⟩ := ih hr
                rw [sector_offset] at hx
                refine ⟨m.toNat :: sats, ?_, marks_append (marks_one (by decide) hm) h2, ?_⟩
                · rw [List.filter_cons_of_pos (by simp; omega), ← h1]
                  simp
                  omega
                · exact intsOf_append (unpackInts_ok hx).1 h3

theorem ssatLoop_sound {mem : Bytes} {secSize : Nat} {sat : List Int} {n : Nat} {seen seen' : List Nat} {sid : Int}
    {ssat : List Int} (h : ssatLoop mem secSize sat n seen sid = .ok (seen', ssat)) :
    ∃ sids, Chain sat sid sids ∧ sids.length = n ∧ Marks seen seen' sids ∧ TableIn mem secSize sids ssat := by
  induction n generalizing seen sid ssat with
  | zero =>
    rw [ssatLoop] at h
    simp at h
    split at h
    · rename_i hs
      simp at h
      obtain ⟨rfl, rfl⟩ := h
      rw [hs]
      exact ⟨[], .stop, rfl, marks_nil _, intsOf_nil⟩
    · simp at h
  | succ n ih =>
    rw [ssatLoop] at h
    split at h
    · rw [if_neg (by omega)] at h
      simp at h
    · rename_i hpos
      dsimp only at h
      split at h
      · simp at h
      · rename_i seen1 hm
        split at h
        · simp at h
        · rename_i xs hx
          split at h
          · simp at h
          · rename_i t ht
            split at h
            · simp at h
            · rename_i seen2 ys hr
              simp only [Except.ok.injEq, Prod.mk.injEq] at h
              obtain ⟨rfl, rfl⟩ := h
              obtain ⟨sids, h1, h2, h3, h4⟩ := ih hr
              obtain ⟨k, rfl⟩ : ∃ k : Nat, sid = k := ⟨sid.toNat, by omega⟩
              simp only [Int.toNat_natCast] at hm hx ht
              rw [← sector_slice] at hx
              exact ⟨k :: sids, .next ht h1, by simp [h2], marks_append (marks_one (by decide) hm) h3,
                intsOf_append (unpackInts_ok hx).1 h4⟩

/-! ### the directory -/

theorem intAt_slice {b : Bytes} {p q r e x : Nat} (he : e = q + 4) (hx : x = p + q) (h : p + q + 4 ≤ b.length)
    (hq : p + q + 4 ≤ r) : IntAt b x (leInt (pySlice (pySlice b p r) q e)) := by
  subst he hx
  have : pySlice (pySlice b p r) q (q + 4) = pySlice b (p + q) (p + q + 4) := by
    unfold pySlice
    rw [List.drop_take, List.drop_take, List.drop_take, List.take_take, List.drop_drop, List.drop_take]
    congr 1
    omega
  rw [this]
  exact leInt_at h

theorem dirNode_sound {utf16 : Bytes → Except Exc (List Char)} {b : Bytes} {d : DirNode} (h : dirNode utf16 b = .ok d) :
    DirBytes utf16 b d := by
  unfold dirNode at h
  dsimp only at h
  split at h
  · simp at h
  · rename_i hl
    have h1 : (pySlice b 64 80).length = 16 := by omega
    have h2 : (pySlice b 116 124).length = 8 := by omega
    have hlen : 124 ≤ b.length := by
      unfold pySlice at h2
      simp at h2
      omega
    split at h
    · simp at h
    · rename_i name hname
      simp only [Except.ok.injEq] at h
      subst h
      have hcb : leNat ((pySlice b 64 80).take 2) = b[64].toNat + 256 * b[65].toNat := by
        have : (pySlice b 64 80).take 2 = [b[64], b[65]] := by
          apply List.ext_getElem?
          intro i
          unfold pySlice
          rw [List.getElem?_take, List.getElem?_drop, List.getElem?_take]
          rcases i with _ | _ | i
          · simp
          · simp
          · rw [if_neg (by omega)]; simp
        rw [this]
        simp [leNat]
      refine ⟨?_, ?_, ?_, ?_, ?_, ?_, b[64], b[65], by simp, by simp, ?_, ?_⟩
      · have : pySlice (pySlice b 64 80) 2 3 = [b[66]] := by
          apply List.ext_getElem?
          intro i
          unfold pySlice
          rw [List.getElem?_drop, List.getElem?_take, List.getElem?_drop, List.getElem?_take]
          rcases i with _ | i
          · simp
          · rw [if_neg (by omega)]; simp
        rw [this, List.getElem?_eq_getElem (by omega)]
        simp [leNat]
      · dsimp only
        have hle : 64 + 4 + 4 ≤ b.length := by omega
        exact intAt_slice rfl rfl hle (by decide)
      · dsimp only
        have hle : 64 + 8 + 4 ≤ b.length := by omega
        exact intAt_slice rfl rfl hle (by decide)
      · dsimp only
        have hle : 64 + 12 + 4 ≤ b.length := by omega
        exact intAt_slice rfl rfl hle (by decide)
      · dsimp only
        have hle : 116 + 0 + 4 ≤ b.length := by omega
        exact intAt_slice rfl rfl hle (by decide)
      · dsimp only
        have hle : 116 + 4 + 4 ≤ b.length := by omega
        exact intAt_slice rfl rfl hle (by decide)
      · intro h0
        rw [hcb, if_pos h0] at hname
        simpa using hname.symm
      · intro h0
        rw [hcb, if_neg (by omega)] at hname
        have e : ((b[64].toNat + 256 * b[65].toNat : Nat) : Int) - (2 : Int) = ((b[64].toNat + 256 * b[65].toNat - 2 : Nat) : Int) := by
          omega
        rw [e] at hname
        have := pySliceI_nat b 0 (b[64].toNat + 256 * b[65].toNat - 2)
        simp only [Int.natCast_zero] at this
        rw [this] at hname
        unfold pySlice at hname
        simpa using hname

theorem dirNodes_sound {utf16 : Bytes → Except Exc (List Char)} {n : Nat} {b : Bytes} {ds : List DirNode}
    (h : dirNodes utf16 n b = .ok ds) (hn : b.length ≤ 128 * n) :
    (∀ (i : Nat) (d : DirNode), ds[i]? = some d → DirBytes utf16 ((b.drop (128 * i)).take 128) d) ∧
      b.length ≤ 128 * ds.length := by
  induction n generalizing b ds with
  | zero =>
    simp [dirNodes] at h
    subst h
    simp
    simpa using hn
  | succ n ih =>
    rw [dirNodes] at h
    split at h
    · simp at h
      subst h
      subst b
      simp
    · split at h
      · simp at h
      · rename_i d hd
        split at h
        · simp at h
        · rename_i ds' hr
          simp only [Except.ok.injEq] at h
          subst h
          obtain ⟨h1, h2⟩ := ih hr (by simp; omega)
          refine ⟨?_, ?_⟩
          · intro i d' hi
            cases i with
            | zero =>
              simp at hi
              subst hi
              simpa using dirNode_sound hd
            | succ i =>
              have := h1 i d' (by simpa using hi)
              rw [List.drop_drop] at this
              rw [show 128 * (i + 1) = 128 + 128 * i by omega]
              exact this
          · simp at h2 ⊢
            omega

/-! ### all of it -/

theorem pySlice_eq {α : Type} (l : List α) (a b : Nat) : pySlice l a b = (l.take b).drop a := rfl

attribute [local irreducible] leInt pySlice leNat leInts

theorem lt_dataSecs {len secSize e : Nat} (hs : 0 < secSize) (hl : 512 ≤ len) :
    e < dataSecs len secSize ↔ 512 + e * secSize < len := by
  unfold dataSecs
  rw [Nat.lt_iff_add_one_le, Nat.le_div_iff_mul_le hs, Nat.add_mul]
  omega

theorem readMsat_ok {mem : Bytes} {secSize nSecs fuel : Nat} {p : List Nat × List Int}
    (h : readMsat mem secSize nSecs fuel = some (.ok p)) :
    p = (List.replicate nSecs 0, leInts 109 (pySlice mem 76 512)) ∨
      msatLoop mem secSize nSecs fuel (List.replicate nSecs 0) (leInts 109 (pySlice mem 76 512)) (headInt mem 68) =
        some (.ok p) := by
  unfold readMsat at h
  split at h
  · left
    simpa using h.symm
  · exact .inr h

theorem initSized_ok {utf16 : Bytes → Except Exc (List Char)} {depth fuel : Nat} {mem : Bytes} {ignore : Bool}
    {secSize short nSecs : Nat} {cd : CompDoc} (h : CompDoc.initSized utf16 depth fuel mem ignore secSize short nSecs = some (.ok cd)) :
    ∃ seen0 msat seen sat, readMsat mem secSize nSecs fuel = some (.ok (seen0, msat)) ∧
      satLoop mem secSize nSecs seen0 msat = .ok (seen, sat) ∧
      CompDoc.finish utf16 depth fuel (CompDoc.start mem secSize short sat seen ignore)
        (headInt mem 48) (headInt mem 60) (headInt mem 64) = some (.ok cd) := by
  unfold CompDoc.initSized at h
  split at h
  · simp at h
  · simp at h
  · rename_i seen0 msat hm
    split at h
    · simp at h
    · rename_i seen sat hs
      exact ⟨seen0, msat, seen, sat, hm, hs, h⟩

theorem init_ok {utf16 : Bytes → Except Exc (List Char)} {depth fuel : Nat} {mem : Bytes} {ignore : Bool} {cd : CompDoc}
    (h : CompDoc.init utf16 depth fuel mem ignore = some (.ok cd)) :
    512 ≤ mem.length ∧ ∃ secSize short,
      (secSize, short) = sectorSizes (leNat (pySlice mem 30 32)) (leNat (pySlice mem 32 34)) ∧ 2 ≤ secSize / 4 ∧
      CompDoc.initSized utf16 depth fuel mem ignore secSize short (dataSecs mem.length secSize) = some (.ok cd) := by
  unfold CompDoc.init at h
  split at h
  · simp at h
  · split at h
    · simp at h
    · split at h
      · simp at h
      · rename_i hlen
        refine ⟨by omega, ?_⟩
        generalize sectorSizes (leNat (pySlice mem 30 32)) (leNat (pySlice mem 32 34)) = S at h ⊢
        dsimp only at h
        split at h
        · simp at h
        · exact ⟨S.1, S.2, rfl, by omega, h⟩

theorem readMsat_ends {mem : Bytes} {secSize nSecs fuel : Nat} (hf : nSecs < fuel) :
    ∃ r, readMsat mem secSize nSecs fuel = some r ∧ ∀ p, r = .ok p → MoreSeen (List.replicate nSecs 0) p.1 := by
  unfold readMsat
  split
  · exact ⟨_, rfl, by rintro p ⟨⟩; exact .refl _⟩
  · exact msatLoop_ends (by simpa using hf) _ _

theorem initSized_ends {utf16 : Bytes → Except Exc (List Char)} {depth fuel : Nat} {mem : Bytes} {ignore : Bool}
    {secSize short nSecs : Nat} (hf : nSecs < fuel) :
    ∃ r, CompDoc.initSized utf16 depth fuel mem ignore secSize short nSecs = some r := by
  unfold CompDoc.initSized
  obtain ⟨r, hr, hm⟩ := readMsat_ends (mem := mem) (secSize := secSize) hf
  rw [hr]
  cases r with
  | error e => exact ⟨_, rfl⟩
  | ok p =>
    obtain ⟨seen0, msat⟩ := p
    dsimp only
    cases hsat : satLoop mem secSize nSecs seen0 msat with
    | error e => exact ⟨_, rfl⟩
    | ok q =>
      obtain ⟨seen1, sat⟩ := q
      dsimp only
      apply finish_ends
      have h1 := (hm _ rfl).2
      have h2 := (satLoop_moreSeen hsat).2
      have h3 : (List.replicate nSecs 0).count 0 = nSecs := by simp
      dsimp only [CompDoc.start] at h1 h2 ⊢
      omega

theorem init_ends {utf16 : Bytes → Except Exc (List Char)} {depth fuel : Nat} {mem : Bytes} {ignore : Bool}
    (hf : mem.length < fuel) : ∃ r, CompDoc.init utf16 depth fuel mem ignore = some r := by
  unfold CompDoc.init
  split
  · exact ⟨_, rfl⟩
  · split
    · exact ⟨_, rfl⟩
    · split
      · exact ⟨_, rfl⟩
      · rename_i hlen
        generalize sectorSizes (leNat (pySlice mem 30 32)) (leNat (pySlice mem 32 34)) = S
        dsimp only
        split
        · exact ⟨_, rfl⟩
        · rename_i hsec
          have hpos : 0 < S.1 := by
            rcases Nat.eq_zero_or_pos S.1 with h0 | h0
            · rw [h0] at hsec; omega
            · exact h0
          apply initSized_ends
          apply Nat.lt_of_le_of_lt _ hf
          apply Nat.le_of_not_lt
          intro hlt
          rw [lt_dataSecs hpos (by omega)] at hlt
          have := Nat.le_mul_of_pos_right mem.length hpos
          omega

theorem headInt_at {mem : Bytes} {p : Nat} (h : p + 4 ≤ mem.length) : IntAt mem p (headInt mem p) := leInt_at h

theorem marks_replicate {n : Nat} {b sids : List Nat} (h : Marks (List.replicate n 0) b sids) : b.length = n := by
  simpa using h.1

theorem init_layout {utf16 : Bytes → Except Exc (List Char)} {depth fuel : Nat} {mem : Bytes} {ignore : Bool} {cd : CompDoc}
    (h : CompDoc.init utf16 depth fuel mem ignore = some (.ok cd)) :
    ∃ msatx sats dir sscs ssats, Layout utf16 mem cd msatx sats dir sscs ssats ∧
      Marks (List.replicate (dataSecs mem.length cd.secSize) 0) cd.seen (msatx ++ sats ++ dir ++ sscs ++ ssats) := by
  obtain ⟨hlen, secSize, short, _, hsec, hi⟩ := init_ok h
  obtain ⟨seen0, msat, seen, sat, hms, hsat, hfin⟩ := initSized_ok hi
  obtain ⟨seen1, ds, root, others, kids, seen2, sscs, seen3, ssat, h1, h2, h3, h4, h5, h6, rfl⟩ := finish_ok hfin
  dsimp only [CompDoc.start] at h1 h5 h6 ⊢
  have hpos : 0 < secSize := by
    rcases Nat.eq_zero_or_pos secSize with h0 | h0
    · rw [h0] at hsec; omega
    · exact h0
  -- the master table
  have hh : IntsOf ((mem.drop 76).take 436) (leInts 109 (pySlice mem 76 512)) := by
    have : pySlice mem 76 512 = (mem.drop 76).take 436 := by
      rw [pySlice_eq, List.drop_take]
    rw [this]
    exact leInts_of (by simp; omega)
  obtain ⟨msatx, m, hmx, hmsat, hmarks⟩ : ∃ (msatx : List Nat) (m : List Int),
      (msatx = [] ∧ m = [] ∨ ∃ first, IntAt mem 68 first ∧ MsatChain mem secSize first msatx m) ∧
      msat = leInts 109 (pySlice mem 76 512) ++ m ∧
      Marks (List.replicate (dataSecs mem.length secSize) 0) seen0 msatx := by
    rcases readMsat_ok hms with hms | hms
    · cases hms
      exact ⟨[], [], .inl ⟨rfl, rfl⟩, by simp, marks_nil _⟩
    · obtain ⟨sids, m, g1, g2, g3⟩ := msatLoop_sound (by omega) hms
      exact ⟨sids, m, .inr ⟨_, headInt_at (p := 68) (by omega), g1⟩, g2, g3⟩
  obtain ⟨sats, hs1, hs2, hs3⟩ := satLoop_sound hsat
  obtain ⟨dir, hd1, hd2, hd3⟩ := streamLoop_marks (by decide) h1
  have hflat : ds.flatten = dir.flatMap (sector mem 512 secSize) := by
    rw [hd2, pieces_none, List.flatMap_def]
  rw [hflat] at h2
  obtain ⟨hn1, hn2⟩ := dirNodes_sound h2 (by omega)
  obtain ⟨sscsSids, hc1, hc2, hc3⟩ : ∃ sscsSids, Marks seen1 seen2 sscsSids ∧
      (sscs = none → sscsSids = [] ∧ (root.first < 0 ∨ root.size = 0)) ∧
      (∀ b, sscs = some b → Chain sat root.first sscsSids ∧
        (0 ≤ root.size → (∀ x ∈ sscsSids.dropLast, Whole mem 512 secSize x) →
          b = (sscsSids.flatMap (sector mem 512 secSize)).take root.size.toNat)) := by
    rcases h5 with ⟨g1, rfl, rfl⟩ | ⟨g1, ss, g2, rfl⟩
    · exact ⟨[], marks_nil _, fun _ => ⟨rfl, g1⟩, by simp⟩
    · obtain ⟨sids, k1, k2, k3⟩ := streamLoop_marks (by decide) g2
      refine ⟨sids, k3, by simp, ?_⟩
      intro b hb
      simp only [Option.some.injEq] at hb
      subst hb
      refine ⟨k1, fun hsz hw => ?_⟩
      rw [k2]
      have := pieces_take mem 512 secSize sids root.size.toNat hw
      rw [show ((root.size.toNat : Nat) : Int) = root.size by omega] at this
      exact this
  obtain ⟨ssats, ht1, ht2, ht3, ht4⟩ : ∃ ssats, Marks seen2 seen3 ssats ∧ TableIn mem secSize ssats ssat ∧
      (root.size ≤ 0 → ssats = []) ∧
      (0 < root.size → ∃ first, IntAt mem 60 first ∧ IntAt mem 64 ssats.length ∧ Chain sat first ssats) := by
    rcases h6 with ⟨g1, g2, g3⟩ | ⟨g1, rfl, rfl⟩
    · obtain ⟨sids, k1, k2, k3, k4⟩ := ssatLoop_sound g3
      refine ⟨sids, k3, k4, by omega, fun _ => ⟨_, headInt_at (p := 60) (by omega), ?_, k1⟩⟩
      have := headInt_at (mem := mem) (p := 64) (by omega)
      rw [k2]
      have e : ((((headInt mem 64).toNat : Nat)) : Int) = headInt mem 64 :=
        Int.toNat_of_nonneg g2
      rw [e]
      exact this
    · exact ⟨[], marks_nil _, intsOf_nil, fun _ => rfl, fun hlt => absurd hlt g1⟩
  have hall := marks_append (marks_append (marks_append (marks_append hmarks hs2) hd3) hc1) ht1
  refine ⟨msatx, sats, dir, sscsSids, ssats, ⟨hall.2.1, ?_, hs3, ?_, hn1, hn2, ?_, ht2⟩, hall⟩
  · refine ⟨_, m, hh, hmx, ?_⟩
    rw [hs1, hmsat]
    apply List.filter_congr
    intro e _
    simp only [decide_eq_decide]
    constructor
    · rintro ⟨g1, g2⟩
      obtain ⟨k, rfl⟩ : ∃ k : Nat, e = k := ⟨e.toNat, by omega⟩
      have := (lt_dataSecs hpos hlen).1 (show k < _ by omega)
      refine ⟨by omega, ?_⟩
      have e1 : ((512 + k * secSize : Nat) : Int) = 512 + (k : Int) * (secSize : Int) := by simp
      omega
    · rintro ⟨g1, g2⟩
      obtain ⟨k, rfl⟩ : ∃ k : Nat, e = k := ⟨e.toNat, by omega⟩
      have e1 : ((512 + k * secSize : Nat) : Int) = 512 + (k : Int) * (secSize : Int) := by simp
      have := (lt_dataSecs hpos hlen).2 (show 512 + k * secSize < _ by omega)
      exact ⟨by omega, by omega⟩
  · exact ⟨_, headInt_at (p := 48) (by omega), hd1⟩
  · exact ⟨root, rfl, h4, hc2, hc3, ht3, ht4⟩

end CP
