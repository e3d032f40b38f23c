import Verif.Props.CompDocExamples
/-!
# C49: exactly which streams are located as they are read

The example in Props/CompDocExamples.lean meets the hypotheses.
-/

namespace CP
open CP.Spec

theorem sector_le (mem : Bytes) (base secSize x : Nat) : (sector mem base secSize x).length ≤ secSize := by
  unfold sector
  simp
  omega

theorem sector_whole {mem : Bytes} {base secSize x : Nat} (h0 : 0 < secSize) (h : (sector mem base secSize x).length = secSize) :
    Whole mem base secSize x := by
  unfold sector at h
  unfold Whole
  simp at h
  have : (x + 1) * secSize = x * secSize + secSize := by rw [Nat.add_mul]; simp
  omega

theorem sectors_length (mem : Bytes) (base : Nat) {secSize : Nat} (h0 : 0 < secSize) (l : List Nat) :
    (l.flatMap (sector mem base secSize)).length ≤ l.length * secSize ∧
    ((l.flatMap (sector mem base secSize)).length = l.length * secSize ↔ ∀ x ∈ l, Whole mem base secSize x) := by
  induction l with
  | nil => simp
  | cons x xs ih =>
    obtain ⟨h1, h2⟩ := ih
    have h3 := sector_le mem base secSize x
    have e : (x :: xs).length * secSize = xs.length * secSize + secSize := by simp [Nat.add_mul]
    rw [List.flatMap_cons, List.length_append, e]
    refine ⟨by omega, ?_, ?_⟩
    · intro h y hy
      rcases List.mem_cons.1 hy with rfl | hy
      · exact sector_whole h0 (by omega)
      · exact h2.1 (by omega) y hy
    · intro h
      have a := sector_length (h x (by simp))
      have b := h2.2 fun y hy => h y (by simp [hy])
      omega

theorem pieces_last (mem : Bytes) (base secSize : Nat) (init : List Nat) (x t : Nat) (h : init.length * secSize ≤ t) :
    (pieces mem base secSize (some (t : Int)) (init ++ [x])).flatten =
      init.flatMap (sector mem base secSize) ++ (sector mem base secSize x).take (t - init.length * secSize) := by
  induction init generalizing t with
  | nil => simp [pieces, grab_some]
  | cons s ss ih =>
    have e : (s :: ss).length * secSize = ss.length * secSize + secSize := by simp [Nat.add_mul]
    rw [e] at h
    have h3 := sector_le mem base secSize s
    rw [List.cons_append, pieces, grab_some, List.flatten_cons, ih _ (by omega), List.flatMap_cons, List.take_of_length_le (by omega), e,
      List.append_assoc, show t - (ss.length * secSize + secSize) = t - secSize - ss.length * secSize by omega]

/-- The two ways to cut a list of sectors. -/
theorem cut_iff {mem : Bytes} {secSize : Nat} (h0 : 0 < secSize) (hl : 512 ≤ mem.length) {init : List Nat} {x t : Nat}
    (hd : (init ++ [x]).Nodup) (hs : ∀ y ∈ init ++ [x], y < dataSecs mem.length secSize)
    (h1 : init.length * secSize < t) (h2 : t ≤ (init ++ [x]).length * secSize) :
    ((init ++ [x]).flatMap (sector mem 512 secSize)).take t = (pieces mem 512 secSize (some (t : Int)) (init ++ [x])).flatten ↔
      (∀ y ∈ init, Whole mem 512 secSize y) ∨ t = (init ++ [x]).length * secSize := by
  obtain ⟨a1, a2⟩ := sectors_length mem 512 h0 init
  have a3 := sector_le mem 512 secSize x
  have e : (init ++ [x]).length * secSize = init.length * secSize + secSize := by simp [Nat.add_mul]
  rw [e] at h2 ⊢
  rw [pieces_last _ _ _ _ _ _ (by omega), List.flatMap_append, List.take_append, List.take_of_length_le (by omega),
    List.append_cancel_left_eq, show [x].flatMap (sector mem 512 secSize) = sector mem 512 secSize x by simp, ← a2]
  constructor
  · intro h
    by_cases hw : (init.flatMap (sector mem 512 secSize)).length = init.length * secSize
    · exact .inl hw
    · refine .inr ?_
      have hlen := congrArg List.length h
      rw [List.length_take, List.length_take] at hlen
      have hx : Whole mem 512 secSize x := by
        have : ∃ y ∈ init, ¬ Whole mem 512 secSize y := by
          refine Classical.byContradiction fun k => hw (a2.2 fun y hy => Classical.byContradiction fun k' => k ⟨y, hy, k'⟩)
        obtain ⟨y, hy, hyw⟩ := this
        have hne : y ≠ x := by
          rintro rfl
          have := (List.nodup_append.1 hd).2.2 y hy y (by simp)
          exact this rfl
        have k1 := (lt_dataSecs h0 hl).1 (hs y (by simp [hy]))
        have k2 := (lt_dataSecs h0 hl).1 (hs x (by simp))
        unfold Whole at hyw ⊢
        rcases Nat.lt_or_gt_of_ne hne with k | k
        · have := Nat.mul_le_mul_right secSize (show y + 1 ≤ x by omega)
          omega
        · have := Nat.mul_le_mul_right secSize (show x + 1 ≤ y by omega)
          omega
      have := sector_length hx
      omega
  · rintro (h | h)
    · rw [h]
    · rw [List.take_of_length_le (by omega), List.take_of_length_le (by omega)]

/-- C49: exactly which streams that are located are the same when they are read (and corruption is not ignored): all in short sectors; those
in other sectors if an incomplete sector of the file is none of theirs before the last one, or their sectors have no bytes left over. -/
theorem C49_exact (low : List Char → List Char) {utf16 : Bytes → Except Exc (List Char)} {mem : Bytes}
    {cd : CompDoc} (ho : Opened utf16 mem cd) (hi : cd.ignoreCorruption = false) {fuel : Nat} {qname : List Char} {seen' : List Nat} {l : Located}
    (hlen : 0 ≤ l.len) (h : cd.locateNamedStream low fuel qname = some (seen', .ok (some l))) :
    ∃ c d b fuel', StreamAt low cd.dirlist (splitChar '/' qname) 0 c d ∧ l.len = d.size ∧
      (∀ k, cd.getNamedStream low (fuel' + k) qname = some (seen', .ok (some b))) ∧
      (d.size < cd.minSizeStd → (l.data.drop l.offset).take l.len.toNat = b) ∧
      (cd.minSizeStd ≤ d.size → ∃ sids, Chain cd.sat d.first sids ∧
        ((l.data.drop l.offset).take l.len.toNat = b ↔
          (∀ x ∈ sids.dropLast, Whole mem 512 cd.secSize x) ∨ l.len.toNat = sids.length * cd.secSize)) := by
  obtain ⟨ht, hmem, h512, hsec, hdat, hseen⟩ := opened_facts ho
  unfold CompDoc.locateNamedStream at h
  split at h
  · simp at h
  · simp at h
  · rename_i c d hs
    split at h
    · simp at h
    · rename_i hbig
      split at h
      · rename_i hsz
        split at h
        · simp at h
        · simp at h
        · rename_i seen1 l1 hl
          simp only [Option.some.injEq, Prod.mk.injEq, Except.ok.injEq] at h
          obtain ⟨rfl, rfl⟩ := h
          unfold CompDoc.locateStream at hl
          split at hl
          · simp at hl
          · rename_i hneg
            rw [hi] at hl
            split at hl
            · simp at hl
            · simp at hl
            · rename_i seen2 st hloop
              obtain ⟨sids, h1, h2, h3, h4, h5⟩ := locateLoop_sound mem [] ⟨rfl, fun _ => ⟨rfl, rfl⟩, fun h => absurd rfl h⟩ hloop
              rw [List.nil_append] at h4
              have hne : sids ≠ [] := by
                rintro rfl
                generalize d.first = z at h1 hneg
                cases h1
                omega
              obtain ⟨p, g1, g2, g3, g4, g5⟩ := h4.later hne
              have hsl : seen1 = seen2 ∧ l1.len = d.size := by
                split at hl
                · simp only [Option.some.injEq, Prod.mk.injEq, Except.ok.injEq] at hl
                  obtain ⟨rfl, rfl⟩ := hl
                  exact ⟨rfl, rfl⟩
                · simp only [Option.some.injEq, Prod.mk.injEq, Except.ok.injEq] at hl
                  obtain ⟨rfl, rfl⟩ := hl
                  exact ⟨rfl, rfl⟩
              obtain ⟨rfl, hlen'⟩ := hsl
              have hs0 : (0 : Int) < cd.secSize := by omega
              have hfit : d.size.toNat ≤ sids.length * cd.secSize := by
                rw [h4.found] at h5
                have hle : (d.size + cd.secSize - 1) / cd.secSize < ((sids.length + 1 : Nat) : Int) := by omega
                have hlt := (Int.ediv_lt_iff_lt_mul hs0).1 hle
                have e : ((sids.length + 1 : Nat) : Int) * (cd.secSize : Int) = ((sids.length * cd.secSize + cd.secSize : Nat) : Int) := by
                  rw [← Int.natCast_mul, Nat.add_mul, Nat.one_mul]
                rw [e] at hlt
                omega
              have hlow : (sids.length - 1) * cd.secSize < d.size.toNat := by
                rw [h4.found] at h5
                have hle : ((sids.length : Nat) : Int) ≤ (d.size + cd.secSize - 1) / cd.secSize := by omega
                have hlt := (Int.le_ediv_iff_mul_le hs0).1 hle
                have hpos := List.length_pos_iff.2 hne
                have e : ((sids.length : Nat) : Int) * (cd.secSize : Int) = (((sids.length - 1) * cd.secSize + cd.secSize : Nat) : Int) := by
                  rw [← Int.natCast_mul, Nat.sub_mul, Nat.one_mul]
                  have := Nat.mul_le_mul_right cd.secSize hpos
                  rw [Nat.sub_add_cancel (by simpa using this)]
                rw [e] at hlt
                omega
              have hdata : (l1.data.drop l1.offset).take d.size.toNat = (sids.flatMap (sector mem 512 cd.secSize)).take d.size.toNat := by
                split at hl
                · rename_i hcont
                  simp only [Option.some.injEq, Prod.mk.injEq, Except.ok.injEq] at hl
                  obtain ⟨_, rfl⟩ := hl
                  dsimp only
                  rw [hcont] at g4
                  rw [← g4, hmem]
                  simp only [slicesOf, List.nil_append, List.map_cons, List.map_nil, List.flatten_cons, List.flatten_nil,
                    List.append_nil]
                  have hmin : d.size.toNat ≤ st.start + sids.length * cd.secSize - st.start := by omega
                  rw [pySlice_eq, g5 hcont, List.drop_take, List.take_take, Nat.min_eq_left hmin]
                · simp only [Option.some.injEq, Prod.mk.injEq, Except.ok.injEq] at hl
                  obtain ⟨_, rfl⟩ := hl
                  dsimp only
                  rw [List.drop_zero, ← g4, hmem]
                  rfl
              refine ⟨c, d, (pieces mem 512 cd.secSize (some d.size) sids).flatten, sids.length + 1, dirSearch_sound ht hs, hlen', ?_,
                fun k => by omega, fun _ => ⟨sids, h1, ?_⟩⟩
              · intro k
                unfold CompDoc.getNamedStream
                rw [hs]
                dsimp only
                rw [if_pos hsz, streamLoop_complete h1 (by
                  intro i hi x hx
                  simp only [Option.some.injEq] at hi
                  subst hi
                  exact h2 x hx)]
                dsimp only
                rw [h3, hmem]
                rfl
              · rw [hlen', hdata]
                have hd := chain_nodup h1
                have hin : ∀ y ∈ sids, y < dataSecs mem.length cd.secSize := by
                  intro x hx
                  rw [← hseen]
                  exact (List.getElem?_eq_some_iff.1 (h2 x hx).1).1
                rw [hlen'] at hlen
                obtain ⟨init, x, rfl⟩ : ∃ init x, sids = init ++ [x] := ⟨_, _, (List.dropLast_concat_getLast hne).symm⟩
                have := cut_iff hsec h512 hd hin (t := d.size.toNat) (by simpa using hlow) hfit
                rw [show ((d.size.toNat : Nat) : Int) = d.size by omega] at this
                rw [this, List.dropLast_concat]
      · rename_i hsz
        split at h
        · simp at h
        · simp at h
        · rename_i b hl
          simp only [Option.some.injEq, Prod.mk.injEq, Except.ok.injEq] at h
          obtain ⟨rfl, rfl⟩ := h
          dsimp only at hlen ⊢
          refine ⟨c, d, b, fuel, dirSearch_sound ht hs, rfl, ?_, ?_, fun k => absurd k hsz⟩
          · intro k
            unfold CompDoc.getNamedStream
            rw [hs]
            dsimp only
            rw [if_neg hsz]
            have : cd.shortStream (fuel + k) d = some (.ok b) := by
              unfold CompDoc.shortStream at hl ⊢
              split at hl
              · simp at hl
              · simp at hl
              · rename_i hl'
                rw [streamLoop_mono hl' k]
                exact hl
            rw [this]
          · intro _
            rw [List.drop_zero]
            apply List.take_of_length_le
            unfold CompDoc.shortStream at hl
            split at hl
            · simp at hl
            · simp at hl
            · rename_i s ss hl'
              split at hl
              · simp at hl
              · simp only [Option.some.injEq, Except.ok.injEq] at hl
                subst hl
                obtain ⟨sids, _, k2, _⟩ := streamLoop_sound hl'
                rw [k2]
                have hb : ∀ (t : Nat) (sids : List Nat),
                    (pieces (cd.sscs.getD []) 0 cd.shortSecSize (some (t : Int)) sids).flatten.length ≤ t := by
                  intro t sids
                  induction sids generalizing t with
                  | nil => simp [pieces]
                  | cons x xs ih =>
                    rw [pieces, grab_some]
                    have := ih (t - cd.shortSecSize)
                    have h2 := sector_le (cd.sscs.getD []) 0 cd.shortSecSize x
                    simp only [List.flatten_cons, List.length_append, List.length_take] at this ⊢
                    omega
                have := hb d.size.toNat sids
                rwa [show ((d.size.toNat : Nat) : Int) = d.size by omega] at this

end CP
