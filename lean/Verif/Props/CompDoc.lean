import Verif.Lemmas.CompDocInit
/-!
# Compound documents: C47, C48, C49, C58, C59
-/

namespace CP

open Spec

/-- The document has been opened from `mem`; since then sectors may have been marked (by
calls of `get_named_stream` and `locate_named_stream`). -/
def Opened (utf16 : Bytes → Except Exc (List Char)) (mem : Bytes) (cd : CompDoc) : Prop :=
  ∃ depth fuel ignore cd0, CompDoc.init utf16 depth fuel mem ignore = some (.ok cd0) ∧
    cd = { cd0 with seen := cd.seen } ∧ cd.seen.length = cd0.seen.length

theorem opened_facts {utf16 : Bytes → Except Exc (List Char)} {mem : Bytes} {cd : CompDoc} (h : Opened utf16 mem cd) :
    cd.HasTree ∧ cd.mem = mem ∧ 512 ≤ mem.length ∧ 0 < cd.secSize ∧ cd.memDataLen = mem.length - 512 ∧
      cd.seen.length = dataSecs mem.length cd.secSize := by
  obtain ⟨depth, fuel, ignore, cd0, h0, h1, h2⟩ := h
  obtain ⟨hlen, secSize, short, _, hsec, hi⟩ := init_ok h0
  obtain ⟨seen0, msat, seen, sat, hms, hsat, hfin⟩ := initSized_ok hi
  obtain ⟨_, _, root, others, kids, _, _, _, _, _, _, h3, _, _, _, h4⟩ := finish_ok hfin
  obtain ⟨_, _, _, _, _, _, hm⟩ := init_layout h0
  have hl := marks_replicate hm
  have hsec0 : cd0.secSize = secSize := by rw [h4]; rfl
  have hmem0 : cd0.mem = mem := by rw [h4]; rfl
  have hdat0 : cd0.memDataLen = mem.length - 512 := by rw [h4]; rfl
  have hpos : 0 < secSize := by
    rcases Nat.eq_zero_or_pos secSize with h0 | h0
    · rw [h0] at hsec; omega
    · exact h0
  refine ⟨?_, by rw [h1]; exact hmem0, hlen, by rw [h1, hsec0]; exact hpos, by rw [h1]; exact hdat0, ?_⟩
  · rw [h1, h4]
    exact ⟨depth, root, rfl, h3⟩
  · rw [h2, hl, h1]

/-! ### C47 -/

/-- C47: what `get_named_stream` returns is the content of a stream with that path: the
sectors on its chain, joined and cut to its size (if no data is missing within).  A stream of
at least the minimum size is in the sectors of the file; its sectors were in no use before
and are marked now.  A smaller one is in the short stream container. -/
theorem C47_stream_content (low : List Char → List Char) {utf16 : Bytes → Except Exc (List Char)} {mem : Bytes}
    {cd : CompDoc} (ho : Opened utf16 mem cd) {fuel : Nat} {qname : List Char} {seen' : List Nat} {b : Bytes}
    (h : cd.getNamedStream low fuel qname = some (seen', .ok (some b))) :
    ∃ c d, StreamAt low cd.dirlist (splitChar '/' qname) 0 c d ∧
      (cd.minSizeStd ≤ d.size → ∃ sids, Chain cd.sat d.first sids ∧ Marks cd.seen seen' sids ∧
        (0 ≤ d.size → (∀ x ∈ sids.dropLast, Whole mem 512 cd.secSize x) →
          b = (sids.flatMap (sector mem 512 cd.secSize)).take d.size.toNat)) ∧
      (d.size < cd.minSizeStd → ∃ sids, Chain cd.ssat d.first sids ∧ seen' = cd.seen ∧
        (0 ≤ d.size → (∀ x ∈ sids.dropLast, Whole (cd.sscs.getD []) 0 cd.shortSecSize x) →
          b = (sids.flatMap (sector (cd.sscs.getD []) 0 cd.shortSecSize)).take d.size.toNat)) := by
  obtain ⟨ht, hmem, _⟩ := opened_facts ho
  unfold CompDoc.getNamedStream at h
  split at h
  · simp at h
  · simp at h
  · rename_i c d hs
    refine ⟨c, d, dirSearch_sound ht hs, ?_, ?_⟩
    · intro hsz
      rw [if_pos hsz] at h
      split at h
      · simp at h
      · simp at h
      · rename_i s ss hl
        simp only [Option.some.injEq, Prod.mk.injEq, Except.ok.injEq] at h
        obtain ⟨rfl, rfl⟩ := h
        obtain ⟨sids, h1, h2, h3⟩ := streamLoop_marks (by omega) hl
        refine ⟨sids, h1, h3, fun h0 hw => ?_⟩
        rw [h2, hmem]
        have := pieces_take mem 512 cd.secSize sids d.size.toNat hw
        rwa [show ((d.size.toNat : Nat) : Int) = d.size by omega] at this
    · intro hsz
      rw [if_neg (by omega)] at h
      split at h
      · simp at h
      · simp at h
      · rename_i b' hl
        simp only [Option.some.injEq, Prod.mk.injEq, Except.ok.injEq] at h
        obtain ⟨rfl, rfl⟩ := h
        unfold CompDoc.shortStream at hl
        split at hl
        · simp at hl
        · simp at hl
        · rename_i s ss hl'
          split at hl
          · simp at hl
          · simp only [Option.some.injEq, Except.ok.injEq] at hl
            subst hl
            obtain ⟨sids, h1, h2, _, _⟩ := streamLoop_sound hl'
            refine ⟨sids, h1, rfl, fun h0 hw => ?_⟩
            rw [h2]
            have := pieces_take (cd.sscs.getD []) 0 cd.shortSecSize sids d.size.toNat hw
            rwa [show ((d.size.toNat : Nat) : Int) = d.size by omega] at this

/-- C47: a stream whose chain is in order can be read.  (The number of its entry has to be
less than 250, as marks are bytes.) -/
theorem C47_stream_readable (low : List Char → List Char) {utf16 : Bytes → Except Exc (List Char)} {mem : Bytes}
    {cd : CompDoc} (ho : Opened utf16 mem cd) (hn : NamesDiffer low cd.dirlist) {qname : List Char} {c : Nat} {d : DirNode}
    (hs : StreamAt low cd.dirlist (splitChar '/' qname) 0 c d) {sids : List Nat}
    (hc : cd.minSizeStd ≤ d.size ∧ Chain cd.sat d.first sids ∧ (∀ x ∈ sids, cd.seen[x]? = some 0) ∧ c < 250 ∨
      d.size < cd.minSizeStd ∧ Chain cd.ssat d.first sids ∧ (cd.sscs = none → sids = [])) {fuel : Nat}
    (hf : sids.length < fuel) : ∃ seen' b, cd.getNamedStream low fuel qname = some (seen', .ok (some b)) := by
  obtain ⟨ht, _⟩ := opened_facts ho
  obtain ⟨k, rfl⟩ : ∃ k, fuel = sids.length + 1 + k := ⟨fuel - (sids.length + 1), by omega⟩
  unfold CompDoc.getNamedStream
  rw [dirSearch_complete ht hn (.inl rfl) hs]
  dsimp only
  rcases hc with ⟨h1, h2, h3, h4⟩ | ⟨h1, h2, h3⟩
  · rw [if_pos h1, streamLoop_complete h2 (by
      intro i hi x hx
      simp only [Option.some.injEq] at hi
      exact ⟨h3 x hx, by omega⟩)]
    exact ⟨_, _, rfl⟩
  · rw [if_neg (by omega)]
    unfold CompDoc.shortStream
    rw [streamLoop_complete h2 (by simp)]
    dsimp only
    have hno : ¬ (cd.sscs = none ∧ pieces (cd.sscs.getD []) 0 cd.shortSecSize (some d.size) sids ≠ []) := by
      rintro ⟨g1, g2⟩
      rw [h3 g1] at g2
      exact g2 rfl
    rw [if_neg hno]
    exact ⟨_, _, rfl⟩

/-- A second `get_named_stream` of a stream that is not short and not empty raises
CompDocError: its sectors are marked by then. -/
theorem get_twice_raises (low : List Char → List Char) {utf16 : Bytes → Except Exc (List Char)} {mem : Bytes}
    {cd : CompDoc} (ho : Opened utf16 mem cd) (hn : NamesDiffer low cd.dirlist) {fuel : Nat} {qname : List Char}
    {seen' : List Nat} {b : Bytes} (h : cd.getNamedStream low fuel qname = some (seen', .ok (some b))) {c : Nat} {d : DirNode}
    (hs : StreamAt low cd.dirlist (splitChar '/' qname) 0 c d) (hsz : cd.minSizeStd ≤ d.size) (h0 : 0 ≤ d.first) (n : Nat) :
    { cd with seen := seen' }.getNamedStream low (n + 1) qname = some (seen', .error .compDocError) := by
  have hd := (dirSearch_complete (opened_facts ho).1 hn (.inl rfl) hs)
  have hd' : { cd with seen := seen' }.dirSearch low (splitChar '/' qname) 0 = .ok (some (c, d)) := by
    have ht : { cd with seen := seen' }.HasTree := (opened_facts ho).1
    exact dirSearch_complete ht hn (.inl rfl) hs
  unfold CompDoc.getNamedStream at h ⊢
  rw [hd] at h
  rw [hd']
  dsimp only at h ⊢
  rw [if_pos hsz] at h ⊢
  split at h
  · simp at h
  · simp at h
  · rename_i s ss hl
    simp only [Option.some.injEq, Prod.mk.injEq, Except.ok.injEq] at h
    obtain ⟨rfl, rfl⟩ := h
    obtain ⟨sids, h1, _, h3⟩ := streamLoop_marks (by omega) hl
    have hm : ∃ k : Nat, d.first = k ∧ k ∈ sids := by
      generalize d.first = z at h1 h0
      cases h1 with
      | stop => omega
      | @next k _ _ _ _ => exact ⟨k, rfl, by simp⟩
    obtain ⟨k, hk, hkm⟩ := hm
    have hbad := h3.2.2.1 k hkm
    have hlt : k < s.length := by rw [h3.1]; exact (List.getElem?_eq_some_iff.1 hbad.1).1
    have : markSeen s k (c + 6) = .error .compDocError := by
      unfold markSeen
      rw [List.getElem?_eq_getElem hlt] at hbad ⊢
      dsimp only
      rw [if_pos (by intro h0; exact hbad.2 (by rw [h0]))]
    rw [streamLoop, if_neg (by omega), hk]
    simp only [Int.toNat_natCast, markOpt, this]

/-! ### C48 -/

/-- C48: opening a document ends, whatever the bytes are: with a result or an exception,
after less rounds of any loop along a chain than the file has bytes. -/
theorem C48_open_ends (utf16 : Bytes → Except Exc (List Char)) (depth : Nat) (mem : Bytes) (ignore : Bool) {fuel : Nat}
    (hf : mem.length < fuel) : ∃ r, CompDoc.init utf16 depth fuel mem ignore = some r := init_ends hf

/-- C48: `get_named_stream` ends, unless the stream is a short one and the short sector
table leads on endlessly. -/
theorem C48_get_ends_iff (low : List Char → List Char) (cd : CompDoc) (qname : List Char) :
    (∃ fuel r, cd.getNamedStream low fuel qname = some r) ↔
      ¬ ∃ c d, cd.dirSearch low (splitChar '/' qname) 0 = .ok (some (c, d)) ∧ d.size < cd.minSizeStd ∧
        Endless cd.ssat d.first := by
  unfold CompDoc.getNamedStream
  cases hs : cd.dirSearch low (splitChar '/' qname) 0 with
  | error e => exact ⟨(by rintro _ ⟨c, d, h, _⟩; cases h), fun _ => ⟨0, _, rfl⟩⟩
  | ok o =>
    cases o with
    | none => exact ⟨(by rintro _ ⟨c, d, h, _⟩; cases h), fun _ => ⟨0, _, rfl⟩⟩
    | some p =>
      obtain ⟨c, d⟩ := p
      dsimp only
      by_cases hsz : d.size ≥ cd.minSizeStd
      · simp only [if_pos hsz]
        constructor
        · rintro _ ⟨c', d', h, h1, _⟩
          cases h
          omega
        · intro _
          obtain ⟨⟨s, r⟩, h⟩ := streamLoop_ends (mem := cd.mem) (base := 512) (sat := cd.sat) (secSize := cd.secSize)
            (i := c + 6) (by omega) (n := cd.seen.count 0 + 1) (seen := cd.seen) (by omega) d.first (some d.size)
          refine ⟨cd.seen.count 0 + 1, ?_⟩
          rw [h]
          cases r <;> exact ⟨_, rfl⟩
      · simp only [if_neg hsz]
        have key : (∃ fuel r, streamLoop (cd.sscs.getD []) 0 cd.ssat cd.shortSecSize none fuel cd.seen d.first (some d.size) =
            some r) ↔ ¬ Endless cd.ssat d.first := streamLoop_ends_iff
        constructor
        · rintro ⟨fuel, r, h⟩ ⟨c', d', h', h1, h2⟩
          cases h'
          refine key.1 ?_ h2
          unfold CompDoc.shortStream at h
          cases hl : streamLoop (cd.sscs.getD []) 0 cd.ssat cd.shortSecSize none fuel cd.seen d.first (some d.size) with
          | none => rw [hl] at h; simp at h
          | some r => exact ⟨fuel, r, hl⟩
        · intro hno
          obtain ⟨fuel, ⟨s, r⟩, h⟩ := key.2 (fun he => hno ⟨c, d, rfl, by omega, he⟩)
          refine ⟨fuel, ?_⟩
          unfold CompDoc.shortStream
          rw [h]
          cases r with
          | error e => exact ⟨_, rfl⟩
          | ok ss =>
            dsimp only
            by_cases hx : cd.sscs = none ∧ ss ≠ []
            · rw [if_pos hx]; exact ⟨_, rfl⟩
            · rw [if_neg hx]; exact ⟨_, rfl⟩

/-- C48: likewise `locate_named_stream`, also with `ignore_workbook_corruption`. -/
theorem C48_locate_ends_iff (low : List Char → List Char) (cd : CompDoc) (qname : List Char) :
    (∃ fuel r, cd.locateNamedStream low fuel qname = some r) ↔
      ¬ ∃ c d, cd.dirSearch low (splitChar '/' qname) 0 = .ok (some (c, d)) ∧ d.size ≤ cd.memDataLen ∧
        d.size < cd.minSizeStd ∧ Endless cd.ssat d.first := by
  unfold CompDoc.locateNamedStream
  cases hs : cd.dirSearch low (splitChar '/' qname) 0 with
  | error e => exact ⟨(by rintro _ ⟨c, d, h, _⟩; cases h), fun _ => ⟨0, _, rfl⟩⟩
  | ok o =>
    cases o with
    | none => exact ⟨(by rintro _ ⟨c, d, h, _⟩; cases h), fun _ => ⟨0, _, rfl⟩⟩
    | some p =>
      obtain ⟨c, d⟩ := p
      dsimp only
      by_cases hlen : d.size > cd.memDataLen
      · simp only [if_pos hlen]
        constructor
        · rintro _ ⟨c', d', h, h1, _⟩
          cases h
          omega
        · exact fun _ => ⟨0, _, rfl⟩
      · simp only [if_neg hlen]
        by_cases hsz : d.size ≥ cd.minSizeStd
        · simp only [if_pos hsz]
          constructor
          · rintro _ ⟨c', d', h, _, h1, _⟩
            cases h
            omega
          · intro _
            unfold CompDoc.locateStream
            by_cases hneg : d.first < 0
            · simp only [if_pos hneg]
              exact ⟨0, _, rfl⟩
            · simp only [if_neg hneg]
              obtain ⟨⟨s, r⟩, h⟩ := locateLoop_ends (base := 512) (sat := cd.sat) (secSize := cd.secSize) (seenId := c + 6)
                (ignore := cd.ignoreCorruption) (limit := (d.size + cd.secSize - 1) / cd.secSize)
                (n := ((d.size + cd.secSize - 1) / cd.secSize).toNat + 1) (seen := cd.seen) (s := d.first)
                (st := { prev := none, start := 0, stop := 0, slices := [], found := 0 }) (by dsimp only; omega) (by omega)
              refine ⟨((d.size + cd.secSize - 1) / cd.secSize).toNat + 1, ?_⟩
              rw [h]
              cases r with
              | error e => exact ⟨_, rfl⟩
              | ok st =>
                dsimp only
                by_cases hx : st.slices = []
                · rw [if_pos hx]; exact ⟨_, rfl⟩
                · rw [if_neg hx]; exact ⟨_, rfl⟩
        · simp only [if_neg hsz]
          have key : (∃ fuel r, streamLoop (cd.sscs.getD []) 0 cd.ssat cd.shortSecSize none fuel cd.seen d.first
              (some d.size) = some r) ↔ ¬ Endless cd.ssat d.first := streamLoop_ends_iff
          constructor
          · rintro ⟨fuel, r, h⟩ ⟨c', d', h', _, h1, h2⟩
            cases h'
            refine key.1 ?_ h2
            unfold CompDoc.shortStream at h
            cases hl : streamLoop (cd.sscs.getD []) 0 cd.ssat cd.shortSecSize none fuel cd.seen d.first (some d.size) with
            | none => rw [hl] at h; simp at h
            | some r => exact ⟨fuel, r, hl⟩
          · intro hno
            obtain ⟨fuel, ⟨s, r⟩, h⟩ := key.2 (fun he => hno ⟨c, d, rfl, by omega, by omega, he⟩)
            refine ⟨fuel, ?_⟩
            unfold CompDoc.shortStream
            rw [h]
            cases r with
            | error e => exact ⟨_, rfl⟩
            | ok ss =>
              dsimp only
              by_cases hx : cd.sscs = none ∧ ss ≠ []
              · rw [if_pos hx]; exact ⟨_, rfl⟩
              · rw [if_neg hx]; exact ⟨_, rfl⟩

/-! ### C49 -/

theorem whole_of_lt {mem : Bytes} {secSize x : Nat} (hs : 0 < secSize) (hl : 512 ≤ mem.length)
    (hm : (mem.length - 512) % secSize = 0) (hx : x < dataSecs mem.length secSize) : Whole mem 512 secSize x := by
  rw [lt_dataSecs hs hl] at hx
  obtain ⟨q, hq⟩ := Nat.dvd_of_mod_eq_zero hm
  have hlt : x * secSize < q * secSize := by rw [Nat.mul_comm q]; omega
  have hlt := Nat.lt_of_mul_lt_mul_right hlt
  have := Nat.mul_le_mul_right secSize (show x + 1 ≤ q by omega)
  unfold Whole
  rw [Nat.mul_comm q] at this
  omega

/-- C49 in part: if `locate_named_stream` gives a stream (and corruption is not ignored),
`get_named_stream` gives the same bytes, if the file has a whole number of sectors.  The
condition is needed (`C49_counterexample`). -/
theorem C49_locate_agrees_partial (low : List Char → List Char) {utf16 : Bytes → Except Exc (List Char)} {mem : Bytes}
    {cd : CompDoc} (ho : Opened utf16 mem cd) (hi : cd.ignoreCorruption = false)
    (hm : (mem.length - 512) % cd.secSize = 0) {fuel : Nat} {qname : List Char} {seen' : List Nat} {l : Located}
    (hlen : 0 ≤ l.len) (h : cd.locateNamedStream low fuel qname = some (seen', .ok (some l))) :
    ∃ fuel', ∀ k, ∃ b, cd.getNamedStream low (fuel' + k) qname = some (seen', .ok (some b)) ∧
      (l.data.drop l.offset).take l.len.toNat = b.take l.len.toNat ∧ b.length ≤ l.len.toNat := by
  obtain ⟨ht, hmem, h512, hsec, hdat, hseen⟩ := opened_facts ho
  unfold CompDoc.locateNamedStream at h
  split at h
  · simp at h
  · simp at h
  · rename_i c d hs
    split at h
    · simp at h
    · rename_i hbig
      split at h
      · rename_i hsz
        split at h
        · simp at h
        · simp at h
        · rename_i seen1 l1 hl
          simp only [Option.some.injEq, Prod.mk.injEq, Except.ok.injEq] at h
          obtain ⟨rfl, rfl⟩ := h
          unfold CompDoc.locateStream at hl
          split at hl
          · simp at hl
          · rename_i hneg
            rw [hi] at hl
            split at hl
            · simp at hl
            · simp at hl
            · rename_i seen2 st hloop
              obtain ⟨sids, h1, h2, h3, h4, h5⟩ := locateLoop_sound mem [] ⟨rfl, fun _ => ⟨rfl, rfl⟩, fun h => absurd rfl h⟩ hloop
              rw [List.nil_append] at h4
              have hne : sids ≠ [] := by
                rintro rfl
                generalize d.first = z at h1 hneg
                cases h1
                omega
              obtain ⟨p, g1, g2, g3, g4, g5⟩ := h4.later hne
              have hsl : seen1 = seen2 ∧ l1.len = d.size := by
                split at hl
                · simp only [Option.some.injEq, Prod.mk.injEq, Except.ok.injEq] at hl
                  obtain ⟨rfl, rfl⟩ := hl
                  exact ⟨rfl, rfl⟩
                · simp only [Option.some.injEq, Prod.mk.injEq, Except.ok.injEq] at hl
                  obtain ⟨rfl, rfl⟩ := hl
                  exact ⟨rfl, rfl⟩
              obtain ⟨rfl, hlen'⟩ := hsl
              have hw : ∀ x ∈ sids, Whole mem 512 cd.secSize x := by
                intro x hx
                apply whole_of_lt hsec h512 hm
                rw [← hseen]
                exact (List.getElem?_eq_some_iff.1 (h2 x hx).1).1
              refine ⟨sids.length + 1, fun k => ?_⟩
              unfold CompDoc.getNamedStream
              rw [hs]
              dsimp only
              rw [if_pos hsz, streamLoop_complete h1 (by
                intro i hi x hx
                simp only [Option.some.injEq] at hi
                subst hi
                exact h2 x hx)]
              dsimp only
              refine ⟨_, by rw [h3]; rfl, ?_⟩
              rw [hmem]
              have hp := pieces_take mem 512 cd.secSize sids d.size.toNat
                (fun x hx => hw x (List.dropLast_subset _ hx))
              rw [show ((d.size.toNat : Nat) : Int) = d.size by omega] at hp
              rw [hp, hlen']
              have hfit : d.size.toNat ≤ sids.length * cd.secSize := by
                rw [h4.found] at h5
                have hs0 : (0 : Int) < cd.secSize := by omega
                have hle : (d.size + cd.secSize - 1) / cd.secSize < ((sids.length + 1 : Nat) : Int) := by omega
                have hlt := (Int.ediv_lt_iff_lt_mul hs0).1 hle
                have e : ((sids.length + 1 : Nat) : Int) * (cd.secSize : Int) = ((sids.length * cd.secSize + cd.secSize : Nat) : Int) := by
                  rw [← Int.natCast_mul, Nat.add_mul, Nat.one_mul]
                rw [e] at hlt
                omega
              refine ⟨?_, by simp; omega⟩
              rw [List.take_take, Nat.min_self]
              split at hl
              · rename_i hcont
                simp only [Option.some.injEq, Prod.mk.injEq, Except.ok.injEq] at hl
                obtain ⟨_, rfl⟩ := hl
                dsimp only
                rw [hcont] at g4
                rw [← g4, hmem]
                simp only [slicesOf, List.nil_append, List.map_cons, List.map_nil, List.flatten_cons, List.flatten_nil,
                  List.append_nil]
                have hmin : d.size.toNat ≤ st.start + sids.length * cd.secSize - st.start := by omega
                rw [pySlice_eq, g5 hcont, List.drop_take, List.take_take, Nat.min_eq_left hmin]
              · simp only [Option.some.injEq, Prod.mk.injEq, Except.ok.injEq] at hl
                obtain ⟨_, rfl⟩ := hl
                dsimp only
                rw [List.drop_zero, ← g4, hmem]
                rfl
      · rename_i hsz
        split at h
        · simp at h
        · simp at h
        · rename_i b hl
          simp only [Option.some.injEq, Prod.mk.injEq, Except.ok.injEq] at h
          obtain ⟨rfl, rfl⟩ := h
          dsimp only at hlen ⊢
          refine ⟨fuel, fun k => ⟨b, ?_, by rw [List.drop_zero], ?_⟩⟩
          · unfold CompDoc.getNamedStream
            rw [hs]
            dsimp only
            rw [if_neg hsz]
            have : cd.shortStream (fuel + k) d = some (.ok b) := by
              unfold CompDoc.shortStream at hl ⊢
              split at hl
              · simp at hl
              · simp at hl
              · rename_i hl'
                rw [streamLoop_mono hl' k]
                exact hl
            rw [this]
          · unfold CompDoc.shortStream at hl
            split at hl
            · simp at hl
            · simp at hl
            · rename_i s ss hl'
              split at hl
              · simp at hl
              · simp only [Option.some.injEq, Except.ok.injEq] at hl
                subst hl
                obtain ⟨sids, _, k2, _⟩ := streamLoop_sound hl'
                rw [k2]
                have hb : ∀ (t : Nat) (sids : List Nat),
                    (pieces (cd.sscs.getD []) 0 cd.shortSecSize (some (t : Int)) sids).flatten.length ≤ t := by
                  intro t sids
                  induction sids generalizing t with
                  | nil => simp [pieces]
                  | cons x xs ih =>
                    rw [pieces, grab_some]
                    have := ih (t - cd.shortSecSize)
                    have h2 : (sector (cd.sscs.getD []) 0 cd.shortSecSize x).length ≤ cd.shortSecSize := by
                      unfold sector; simp; omega
                    simp only [List.flatten_cons, List.length_append, List.length_take] at this ⊢
                    omega
                have := hb d.size.toNat sids
                rwa [show ((d.size.toNat : Nat) : Int) = d.size by omega] at this

/-- C49: a stream whose chain is in order and has as many sectors as its size needs can be
located. -/
theorem C49_locate_works (low : List Char → List Char) {utf16 : Bytes → Except Exc (List Char)} {mem : Bytes}
    {cd : CompDoc} (ho : Opened utf16 mem cd) (hn : NamesDiffer low cd.dirlist) {qname : List Char} {c : Nat} {d : DirNode}
    (hs : StreamAt low cd.dirlist (splitChar '/' qname) 0 c d) (hfit : d.size ≤ mem.length - 512) {sids : List Nat}
    (hc : cd.minSizeStd ≤ d.size ∧ 0 < d.size ∧ Chain cd.sat d.first sids ∧ (∀ x ∈ sids, cd.seen[x]? = some 0) ∧ c < 250 ∧
        (sids.length - 1) * cd.secSize < d.size ∧ d.size ≤ sids.length * cd.secSize ∨
      d.size < cd.minSizeStd ∧ Chain cd.ssat d.first sids ∧ (cd.sscs = none → sids = [])) {fuel : Nat}
    (hf : sids.length < fuel) :
    ∃ seen' l, cd.locateNamedStream low fuel qname = some (seen', .ok (some l)) ∧ l.len = d.size := by
  obtain ⟨ht, _, h512, hsec, hdat, _⟩ := opened_facts ho
  obtain ⟨k, rfl⟩ : ∃ k, fuel = sids.length + 1 + k := ⟨fuel - (sids.length + 1), by omega⟩
  unfold CompDoc.locateNamedStream
  rw [dirSearch_complete ht hn (.inl rfl) hs]
  dsimp only
  rw [if_neg (by rw [hdat]; omega)]
  rcases hc with ⟨h1, h0, h2, h3, h4, h5, h6⟩ | ⟨h1, h2, h3⟩
  · rw [if_pos h1]
    unfold CompDoc.locateStream
    have hne : sids ≠ [] := by
      rintro rfl
      simp at h6
      omega
    have hpos : 0 ≤ d.first := by
      generalize d.first = z at h2
      cases h2 with
      | stop => exact absurd rfl hne
      | next => omega
    have hlen : 0 < sids.length := List.length_pos_iff.2 hne
    have hs0 : (0 : Int) < cd.secSize := by omega
    have hlim : (d.size + cd.secSize - 1) / cd.secSize = (sids.length : Int) := by
      have e1 : ((sids.length : Int) - 1) * cd.secSize = (sids.length : Int) * cd.secSize - cd.secSize := by
        rw [Int.sub_mul, Int.one_mul]
      have e2 : ((sids.length : Int) + 1) * cd.secSize = (sids.length : Int) * cd.secSize + cd.secSize := by
        rw [Int.add_mul, Int.one_mul]
      have a : (d.size + cd.secSize - 1) / cd.secSize < (sids.length : Int) + 1 := by
        rw [Int.ediv_lt_iff_lt_mul hs0, e2]
        omega
      have b : (sids.length : Int) ≤ (d.size + cd.secSize - 1) / cd.secSize := by
        rw [Int.le_ediv_iff_mul_le hs0]
        omega
      omega
    rw [if_neg (by omega), hlim]
    obtain ⟨st', hst⟩ := locateLoop_complete (base := 512) (secSize := cd.secSize) (seenId := c + 6)
      (ignore := cd.ignoreCorruption) (limit := (sids.length : Int)) (seen := cd.seen)
      (st := { prev := none, start := 0, stop := 0, slices := [], found := 0 }) h2
      (fun x hx => ⟨h3 x hx, by omega⟩) (by simp) k
    rw [hst]
    dsimp only
    by_cases hx : st'.slices = []
    · rw [if_pos hx]; exact ⟨_, _, rfl, rfl⟩
    · rw [if_neg hx]; exact ⟨_, _, rfl, rfl⟩
  · rw [if_neg (by omega)]
    unfold CompDoc.shortStream
    rw [streamLoop_complete h2 (by simp)]
    dsimp only
    have hno : ¬ (cd.sscs = none ∧ pieces (cd.sscs.getD []) 0 cd.shortSecSize (some d.size) sids ≠ []) := by
      rintro ⟨g1, g2⟩
      rw [h3 g1] at g2
      exact g2 rfl
    rw [if_neg hno]
    exact ⟨_, _, rfl, rfl⟩

/-! ### C58 -/

/-- C58: in a document whose storages have no two entries of the same name, the search for a
path finds the stream that is there and no other. -/
theorem C58_search (low : List Char → List Char) {utf16 : Bytes → Except Exc (List Char)} {mem : Bytes}
    {cd : CompDoc} (ho : Opened utf16 mem cd) (hn : NamesDiffer low cd.dirlist) (path : List (List Char)) (c : Nat)
    (d : DirNode) :
    cd.dirSearch low path 0 = .ok (some (c, d)) ↔ StreamAt low cd.dirlist path 0 c d :=
  ⟨dirSearch_sound (opened_facts ho).1, dirSearch_complete (opened_facts ho).1 hn (.inl rfl)⟩

/-- C58: without such a stream `get_named_stream` gives no bytes. -/
theorem C58_no_stream (low : List Char → List Char) {utf16 : Bytes → Except Exc (List Char)} {mem : Bytes}
    {cd : CompDoc} (ho : Opened utf16 mem cd) (qname : List Char)
    (hno : ¬ ∃ c d, StreamAt low cd.dirlist (splitChar '/' qname) 0 c d) (fuel : Nat) :
    cd.getNamedStream low fuel qname = some (cd.seen, .ok none) ∨
      ∃ e, cd.getNamedStream low fuel qname = some (cd.seen, .error e) := by
  unfold CompDoc.getNamedStream
  split
  · exact .inr ⟨_, rfl⟩
  · exact .inl rfl
  · rename_i c d hs
    exact absurd ⟨c, d, dirSearch_sound (opened_facts ho).1 hs⟩ hno

/-! ### C59 -/

/-- C59: an opened document has been read from the bytes as the format says, and no sector
serves two parts of it; the sectors in use are those marked. -/
theorem C59_layout {utf16 : Bytes → Except Exc (List Char)} {depth fuel : Nat} {mem : Bytes} {ignore : Bool} {cd : CompDoc}
    (h : CompDoc.init utf16 depth fuel mem ignore = some (.ok cd)) :
    ∃ msatx sats dir sscs ssats, Layout utf16 mem cd msatx sats dir sscs ssats ∧
      (∀ x : Nat, 512 + x * cd.secSize < mem.length →
        ((∃ i, cd.seen[x]? = some i ∧ i ≠ 0) ↔ x ∈ msatx ++ sats ++ dir ++ sscs ++ ssats)) := by
  obtain ⟨msatx, sats, dir, sscs, ssats, h1, h2⟩ := init_layout h
  refine ⟨msatx, sats, dir, sscs, ssats, h1, ?_⟩
  intro x hx
  have ho : Opened utf16 mem cd := ⟨depth, fuel, ignore, cd, h, rfl, rfl⟩
  obtain ⟨_, _, h512, hsec, _, hseen⟩ := opened_facts ho
  have hlt : x < dataSecs mem.length cd.secSize := (lt_dataSecs hsec h512).2 hx
  constructor
  · rintro ⟨i, g1, g2⟩
    apply Classical.byContradiction
    intro hno
    rw [h2.2.2.2 x hno] at g1
    simp [hlt] at g1
    omega
  · intro hm
    refine ⟨cd.seen[x]'(by omega), by simp, ?_⟩
    intro h0
    apply (h2.2.2.1 x hm).2
    rw [List.getElem?_eq_getElem (by omega), h0]

end CP
