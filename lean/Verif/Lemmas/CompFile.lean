import Verif.Lemmas.CompDocInit
import Verif.Lemmas.Dbf
import Verif.Spec.CompFile
/-!
# Lemmas: compound documents in order can be opened
-/

namespace CP

open Spec

/-! ### numbers -/

theorem intAt_unique {b : Bytes} {p : Nat} {v w : Int} (hv : IntAt b p v) (hw : IntAt b p w) : v = w := by
  obtain ⟨a0, a1, a2, a3, h0, h1, h2, h3, h4⟩ := hv
  obtain ⟨b0, b1, b2, b3, g0, g1, g2, g3, g4⟩ := hw
  rw [h0] at g0; rw [h1] at g1; rw [h2] at g2; rw [h3] at g3
  cases g0; cases g1; cases g2; cases g3
  rw [h4, g4]

theorem intAt_len {b : Bytes} {p : Nat} {v : Int} (h : IntAt b p v) : p + 4 ≤ b.length := by
  obtain ⟨_, _, _, _, _, _, _, h, _⟩ := h
  have := (List.getElem?_eq_some_iff.1 h).1
  omega

theorem headInt_of {mem : Bytes} {p : Nat} {v : Int} (h : IntAt mem p v) : headInt mem p = v :=
  intAt_unique (leInt_at (intAt_len h)) h

theorem intsOf_leInts {b : Bytes} {n : Nat} {xs : List Int} (h : IntsOf b xs) (hn : b.length = 4 * n) : xs = leInts n b := by
  have hl : xs.length = n := by have := h.1; omega
  apply List.ext_getElem?
  intro i
  by_cases hi : i < n
  · have hx : xs[i]? = some xs[i] := by simp
    rw [hx, leInts_get n b i hi]
    congr 1
    exact intAt_unique (h.2 i _ hx) (leInt_at (by omega))
  · rw [List.getElem?_eq_none (by omega), List.getElem?_eq_none (by rw [leInts_length]; omega)]

theorem leInts_append (n m : Nat) (a b : Bytes) (h : a.length = 4 * n) : leInts (n + m) (a ++ b) = leInts n a ++ leInts m b := by
  induction n generalizing a with
  | zero =>
    have : a = [] := List.length_eq_zero_iff.1 (by omega)
    subst this
    simp [leInts]
  | succ n ih =>
    rw [show n + 1 + m = (n + m) + 1 by omega, leInts, leInts, List.take_append_of_le_length (by omega),
      List.drop_append_of_le_length (by omega), ih _ (by simp; omega)]
    rfl

/-! ### marks -/

/-- Of `n` sectors those not in `used` are unmarked. -/
def FreeOut (n : Nat) (seen used : List Nat) : Prop := seen.length = n ∧ ∀ x, x < n → x ∉ used → seen[x]? = some 0

theorem freeOut_start (n : Nat) : FreeOut n (List.replicate n 0) [] :=
  ⟨by simp, fun x hx _ => by simp [hx]⟩

theorem FreeOut.mark {n : Nat} {seen used : List Nat} (h : FreeOut n seen used) (i : Nat) (ss : List Nat) :
    FreeOut n (markAll seen i ss) (used ++ ss) := by
  refine ⟨by rw [markAll_length, h.1], fun x hx hm => ?_⟩
  rw [List.mem_append, not_or] at hm
  rw [markAll_get, if_neg hm.2]
  exact h.2 x hx hm.1

theorem FreeOut.free {n : Nat} {seen used ss : List Nat} (h : FreeOut n seen used) (hn : (used ++ ss).Nodup)
    (hs : ∀ x ∈ ss, x < n) : ∀ x ∈ ss, seen[x]? = some 0 := by
  intro x hx
  refine h.2 x (hs x hx) fun hu => ?_
  exact (List.nodup_append.1 hn).2.2 x hu x hx rfl

/-! ### the tables -/

theorem unpackInts_sector {mem : Bytes} {secSize x : Nat} (h4 : 4 * (secSize / 4) = secSize) (hw : Whole mem 512 secSize x) :
    unpackInts (secSize / 4) (sector mem 512 secSize x) = .ok (leInts (secSize / 4) (sector mem 512 secSize x)) := by
  unfold unpackInts
  rw [if_pos (by rw [sector_length hw, h4])]

theorem whole_lt {mem : Bytes} {secSize x : Nat} (hs : 0 < secSize) (hl : 512 ≤ mem.length) (hw : Whole mem 512 secSize x) :
    x < dataSecs mem.length secSize := by
  rw [lt_dataSecs hs hl]
  unfold Whole at hw
  rw [Nat.add_mul] at hw
  omega

theorem msatLoop_complete {mem : Bytes} {secSize nSecs : Nat} (h4 : 4 * (secSize / 4) = secSize) (hs : 2 ≤ secSize / 4)
    {sid : Int} {sids : List Nat} {m : List Int} (h : MsatChain mem secSize sid sids m) :
    ∀ (seen : List Nat) (msat : List Int), (∀ x ∈ sids, x < nSecs ∧ Whole mem 512 secSize x ∧ seen[x]? = some 0) → sids.Nodup →
      ∀ k, msatLoop mem secSize nSecs (sids.length + 1 + k) seen msat sid = some (.ok (markAll seen 1 sids, msat ++ m)) := by
  induction h with
  | @stop s h =>
    intro seen msat _ _ k
    rw [show ([] : List Nat).length + 1 + k = k + 1 by simp; omega, msatLoop,
      if_pos (by unfold eocSid freeSid msatSid; omega)]
    simp [markAll]
  | @next s t xs more rest h _ ih =>
    intro seen msat hx hn k
    obtain ⟨h1, h2, h3⟩ := hx s (by simp)
    rw [show (s :: rest).length + 1 + k = (rest.length + 1 + k) + 1 by simp; omega, msatLoop,
      if_neg (by unfold eocSid freeSid msatSid; omega), if_neg (by omega), if_neg (by omega)]
    simp only [Int.toNat_natCast]
    rw [markSeen_free h3 (by decide)]
    dsimp only
    rw [sector_offset, unpackInts_sector h4 h2, ← intsOf_leInts h (by rw [sector_length h2, h4])]
    dsimp only
    rw [List.dropLast_concat, List.getLast?_concat, Option.getD_some, ih _ _ ?_ (List.nodup_cons.1 hn).2, List.append_assoc]
    · rfl
    · intro x hm
      obtain ⟨g1, g2, g3⟩ := hx x (by simp [hm])
      refine ⟨g1, g2, ?_⟩
      rw [List.getElem?_set, if_neg ?_]
      · exact g3
      · rintro rfl
        exact (List.nodup_cons.1 hn).1 hm

theorem satLoop_complete {mem : Bytes} {secSize nSecs : Nat} (h4 : 4 * (secSize / 4) = secSize) :
    ∀ (msat : List Int) (sats : List Nat) (seen : List Nat), (∀ e ∈ msat, e = -1 ∨ e = -2 ∨ 0 ≤ e) →
      sats.map Int.ofNat = msat.filter (fun e : Int => 0 ≤ e) →
      (∀ x ∈ sats, x < nSecs ∧ Whole mem 512 secSize x ∧ seen[x]? = some 0) → sats.Nodup →
      satLoop mem secSize nSecs seen msat =
        .ok (markAll seen 2 sats, leInts (sats.length * (secSize / 4)) (sats.flatMap (sector mem 512 secSize)))
  | [], sats, seen, _, h2, _, _ => by
    have : sats = [] := by simpa using h2
    subst this
    rw [satLoop]
    simp [markAll, leInts]
  | e :: msat, sats, seen, h1, h2, h3, hn => by
    rw [satLoop]
    by_cases he : 0 ≤ e
    · rw [List.filter_cons_of_pos (by simpa using he)] at h2
      obtain ⟨s, rest, rfl, hs, hr⟩ := List.map_eq_cons_iff.1 h2
      have hs' : e = (s : Int) := hs.symm
      obtain ⟨g1, g2, g3⟩ := h3 s (by simp)
      rw [if_neg (by unfold eocSid freeSid; omega), if_neg (by omega), if_neg (by omega), hs']
      simp only [Int.toNat_natCast]
      rw [markSeen_free g3 (by decide)]
      dsimp only
      rw [sector_offset, unpackInts_sector h4 g2]
      dsimp only
      rw [satLoop_complete h4 msat rest _ (fun x hx => h1 x (by simp [hx])) hr ?_ (List.nodup_cons.1 hn).2]
      · dsimp only
        rw [List.length_cons, Nat.add_comm rest.length, Nat.add_mul, Nat.one_mul, List.flatMap_cons,
          leInts_append _ _ _ _ (by rw [sector_length g2, h4])]
        rfl
      · intro x hm
        obtain ⟨k1, k2, k3⟩ := h3 x (by simp [hm])
        refine ⟨k1, k2, ?_⟩
        rw [List.getElem?_set, if_neg ?_]
        · exact k3
        · rintro rfl
          exact (List.nodup_cons.1 hn).1 hm
    · rw [List.filter_cons_of_neg (by simpa using he)] at h2
      have := h1 e (by simp)
      rw [if_pos (by unfold eocSid freeSid; omega)]
      exact satLoop_complete h4 msat sats seen (fun x hx => h1 x (by simp [hx])) h2 h3 hn

theorem flatMap_sector_length {mem : Bytes} {secSize : Nat} {sids : List Nat} (hw : ∀ x ∈ sids, Whole mem 512 secSize x) :
    (sids.flatMap (sector mem 512 secSize)).length = sids.length * secSize := by
  induction sids with
  | nil => simp
  | cons s ss ih =>
    rw [List.flatMap_cons, List.length_append, sector_length (hw s (by simp)), ih (fun x hx => hw x (by simp [hx])),
      List.length_cons, Nat.add_mul, Nat.one_mul, Nat.add_comm]

theorem tableIn_leInts {mem : Bytes} {secSize : Nat} {sids : List Nat} {table : List Int} (h4 : 4 * (secSize / 4) = secSize)
    (hw : ∀ x ∈ sids, Whole mem 512 secSize x) (h : TableIn mem secSize sids table) :
    table = leInts (sids.length * (secSize / 4)) (sids.flatMap (sector mem 512 secSize)) := by
  refine intsOf_leInts h ?_
  rw [flatMap_sector_length hw]
  conv => lhs; rw [← h4]
  rw [Nat.mul_left_comm]

theorem ssatLoop_complete {mem : Bytes} {secSize : Nat} {sat : List Int} (h4 : 4 * (secSize / 4) = secSize) {sid : Int}
    {sids : List Nat} (h : Chain sat sid sids) :
    ∀ seen : List Nat, (∀ x ∈ sids, Whole mem 512 secSize x ∧ seen[x]? = some 0) →
      ssatLoop mem secSize sat sids.length seen sid =
        .ok (markAll seen 5 sids, leInts (sids.length * (secSize / 4)) (sids.flatMap (sector mem 512 secSize))) := by
  induction h with
  | stop =>
    intro seen _
    rw [List.length_nil, ssatLoop]
    simp [eocSid, markAll, leInts]
  | @next s t rest hs hc ih =>
    intro seen hx
    obtain ⟨h1, h2⟩ := hx s (by simp)
    have hn := chain_nodup (.next hs hc)
    rw [List.length_cons, ssatLoop, if_neg (by omega)]
    simp only [Int.toNat_natCast]
    rw [markSeen_free h2 (by decide)]
    dsimp only
    rw [← sector_slice, unpackInts_sector h4 h1]
    dsimp only
    rw [hs]
    dsimp only
    rw [ih]
    · dsimp only
      rw [Nat.add_comm rest.length, Nat.add_mul, Nat.one_mul, List.flatMap_cons,
        leInts_append _ _ _ _ (by rw [sector_length h1, h4])]
      rfl
    · intro x hm
      obtain ⟨g1, g2⟩ := hx x (by simp [hm])
      refine ⟨g1, ?_⟩
      rw [List.getElem?_set, if_neg ?_]
      · exact g2
      · rintro rfl
        exact (List.nodup_cons.1 hn).1 hm

/-! ### the directory -/

theorem dirBytes_unique {utf16 : Bytes → Except Exc (List Char)} {b : Bytes} {d e : DirNode} (hd : DirBytes utf16 b d)
    (he : DirBytes utf16 b e) (hn : b[64]? = some 1 → b[65]? ≠ some 0) : d = e := by
  have h1 : d.etype = e.etype := Option.some.inj (hd.etype.symm.trans he.etype)
  have h2 := intAt_unique hd.left he.left
  have h3 := intAt_unique hd.right he.right
  have h4 := intAt_unique hd.root he.root
  have h5 := intAt_unique hd.first he.first
  have h6 := intAt_unique hd.size he.size
  have h7 : d.name = e.name := by
    obtain ⟨n0, n1, a0, a1, a2, a3⟩ := hd.name
    obtain ⟨m0, m1, b0, b1, b2, b3⟩ := he.name
    rw [a0] at b0; rw [a1] at b1
    cases b0; cases b1
    rcases Nat.lt_or_ge (n0.toNat + 256 * n1.toNat) 2 with hlt | hge
    · have h0 : n0.toNat + 256 * n1.toNat = 0 := by
        rcases Nat.eq_zero_or_pos (n0.toNat + 256 * n1.toNat) with h | h
        · exact h
        · have e0 : n0 = 1 := UInt8.toNat_inj.1 (show n0.toNat = 1 by omega)
          have e1 : n1 = 0 := UInt8.toNat_inj.1 (show n1.toNat = 0 by omega)
          rw [e0] at a0
          rw [e1] at a1
          exact absurd a1 (hn a0)
      rw [a2 h0, b2 h0]
    · exact Except.ok.inj ((a3 hge).symm.trans (b3 hge))
  cases d; cases e
  simp only at *
  subst h1 h2 h3 h4 h5 h6 h7
  rfl

theorem dirNode_complete {utf16 : Bytes → Except Exc (List Char)} {b : Bytes} {d : DirNode} (hl : b.length = 128)
    (hd : DirBytes utf16 b d) (hn : b[64]? = some 1 → b[65]? ≠ some 0) : dirNode utf16 b = .ok d := by
  cases h : dirNode utf16 b with
  | ok e => rw [dirBytes_unique hd (dirNode_sound h) hn]
  | error e =>
    exfalso
    unfold dirNode at h
    dsimp only at h
    split at h
    · rename_i hlen
      unfold pySlice at hlen
      simp at hlen
      omega
    · split at h
      · rename_i x hx
        obtain ⟨n0, n1, a0, a1, a2, a3⟩ := hd.name
        have hcb : leNat ((pySlice b 64 80).take 2) = n0.toNat + 256 * n1.toNat := by
          have : (pySlice b 64 80).take 2 = [n0, n1] := by
            apply List.ext_getElem?
            intro i
            unfold pySlice
            rw [List.getElem?_take, List.getElem?_drop, List.getElem?_take]
            rcases i with _ | _ | i
            · simpa using a0
            · simpa using a1
            · rw [if_neg (by omega)]; simp
          rw [this]
          simp [leNat]
        rw [hcb] at hx
        split at hx
        · cases hx
        · rename_i h0
          have hge : 2 ≤ n0.toNat + 256 * n1.toNat := by
            apply Classical.byContradiction
            intro h
            have e0 : n0 = 1 := UInt8.toNat_inj.1 (show n0.toNat = 1 by omega)
            have e1 : n1 = 0 := UInt8.toNat_inj.1 (show n1.toNat = 0 by omega)
            rw [e0] at a0
            rw [e1] at a1
            exact hn a0 a1
          have e : ((n0.toNat + 256 * n1.toNat : Nat) : Int) - (2 : Int) = ((n0.toNat + 256 * n1.toNat - 2 : Nat) : Int) := by
            omega
          rw [e] at hx
          have := pySliceI_nat b 0 (n0.toNat + 256 * n1.toNat - 2)
          simp only [Int.natCast_zero] at this
          rw [this, pySlice_eq, List.drop_zero, a3 hge] at hx
          cases hx
      · cases h

theorem dirNodes_complete {utf16 : Bytes → Except Exc (List Char)} {parts : List Bytes} {ds : List DirNode}
    (h : Each2 (fun (b : Bytes) (d : DirNode) => b.length = 128 ∧ DirBytes utf16 b d ∧ (b[64]? = some 1 → b[65]? ≠ some 0)) parts ds) :
    ∀ n, parts.length ≤ n → dirNodes utf16 n parts.flatten = .ok ds := by
  induction h with
  | nil =>
    intro n _
    cases n <;> simp [dirNodes]
  | @cons b d bs ds h _ ih =>
    intro n hn
    obtain ⟨h1, h2, h3⟩ := h
    cases n with
    | zero => simp at hn
    | succ n =>
      rw [dirNodes, if_neg (by
        intro h0
        rw [List.flatten_cons, List.append_eq_nil_iff] at h0
        rw [h0.1] at h1
        simp at h1), List.flatten_cons, List.take_left' h1, List.drop_left' h1, dirNode_complete h1 h2 h3]
      dsimp only
      rw [ih n (by simpa using hn)]

theorem each_length {α β : Type} {P : α → β → Prop} {as : List α} {bs : List β} (h : Each2 P as bs) : as.length = bs.length := by
  induction h with
  | nil => rfl
  | cons _ _ ih => simp [ih]

theorem familyTree_complete {dir : List DirNode} {n : Nat} {c : Int} (h : TreeOf dir n c) :
    ∀ (parent k : Nat), ∃ l, familyTree dir (n + 1 + k) parent c = .ok l := by
  induction h with
  | @none n c hc =>
    intro parent k
    rw [show n + 1 + k = (n + k) + 1 by omega, familyTree, if_pos hc]
    exact ⟨_, rfl⟩
  | @node n c d hd _ _ _ ih1 ih2 ih3 =>
    intro parent k
    obtain ⟨l, hl⟩ := ih1 parent k
    obtain ⟨r, hr⟩ := ih2 parent k
    rw [show n + 1 + 1 + k = (n + 1 + k) + 1 by omega, familyTree, if_neg (by omega)]
    simp only [Int.toNat_natCast]
    rw [hd]
    dsimp only
    rw [hl]
    dsimp only
    rw [hr]
    dsimp only
    by_cases h1 : d.etype = 1
    · obtain ⟨x, hx⟩ := ih3 h1 c k
      rw [if_pos h1, hx]
      exact ⟨_, rfl⟩
    · rw [if_neg h1]
      exact ⟨_, rfl⟩

/-! ### opening -/

/-- What has been read is the document: `seen` marks the sectors that its parts take. -/
structure ReadsDoc (file : Bytes) (D : Doc) (ignore : Bool) (cd : CompDoc) : Prop where
  mem : cd.mem = file
  secSize : cd.secSize = D.secSize
  shortSize : cd.shortSecSize = D.shortSize
  minSize : cd.minSizeStd = D.minSize
  dataLen : cd.memDataLen = file.length - 512
  sat : cd.sat = D.sat
  ssat : cd.ssat = D.ssat
  sscs : cd.sscs = if D.container = [] then none else some D.container
  dir : cd.dirlist = D.dir
  seen : FreeOut (dataSecs file.length D.secSize) cd.seen D.used
  ignore : cd.ignoreCorruption = ignore

theorem pow_four {k : Nat} (h : 3 ≤ k) : 4 * (2 ^ k / 4) = 2 ^ k ∧ 2 ≤ 2 ^ k / 4 := by
  obtain ⟨j, rfl⟩ : ∃ j, k = j + 3 := ⟨k - 3, by omega⟩
  have : 2 ^ (j + 3) = 2 ^ j * 8 := by rw [Nat.pow_add]
  have h0 : 0 < 2 ^ j := Nat.pow_pos (by decide)
  omega

theorem leNat_two {b : Bytes} {p k : Nat} (hk : k < 65536) (h : (b.drop p).take 2 = leBytes 2 k) : leNat (pySlice b p (p + 2)) = k := by
  unfold pySlice
  rw [List.drop_take, Nat.add_sub_cancel_left, h, leNat_leBytes (by simpa using hk)]

theorem init_complete {utf16 : Bytes → Except Exc (List Char)} {height : Nat} {mem : Bytes} {D : Doc}
    {msatx sats dirs conts ssats : List Nat} (h : DocIn utf16 height mem D msatx sats dirs conts ssats)
    {depth : Nat} (hd : height < depth) (ignore : Bool) {fuel : Nat}
    (hf : msatx.length + dirs.length + conts.length < fuel) :
    ∃ cd, CompDoc.init utf16 depth fuel mem ignore = some (.ok cd) ∧ ReadsDoc mem D ignore cd := by
  obtain ⟨k, j, hk3, hk20, hjk, hkj, hsec, hshort⟩ := h.sizes
  obtain ⟨hm, m, mfirst, hh, hh109, hfirst, hcount, hmaster, hents, hsats⟩ := h.master
  obtain ⟨dfirst, hdf, hdc⟩ := h.dirChain
  obtain ⟨parts, hparts, heach⟩ := h.entries
  obtain ⟨root, hroot, h5, htree, hcont⟩ := h.root
  obtain ⟨h4, h2⟩ := pow_four hk3
  rw [← hsec] at h4 h2
  have hpos : 0 < D.secSize := by omega
  have h512 : 512 ≤ mem.length := by
    have := hh.1
    rw [List.length_take, List.length_drop] at this
    omega
  have hlen4 : ((mem.drop 30).take 4).length = 4 := by rw [hkj]; simp [leBytes_length]
  have e30 : leNat (pySlice mem 30 32) = k := by
    refine leNat_two (p := 30) (by omega) ?_
    have : (mem.drop 30).take 2 = ((mem.drop 30).take 4).take 2 := by rw [List.take_take]; rfl
    rw [this, hkj, List.take_left' (leBytes_length 2 k)]
  have e32 : leNat (pySlice mem 32 34) = j := by
    refine leNat_two (p := 32) (by omega) ?_
    have : (mem.drop 32).take 2 = ((mem.drop 30).take 4).drop 2 := by rw [List.drop_take, List.drop_drop]
    rw [this, hkj, List.drop_left' (leBytes_length 2 k)]
  have esz : sectorSizes (leNat (pySlice mem 30 32)) (leNat (pySlice mem 32 34)) = (D.secSize, D.shortSize) := by
    rw [e30, e32, hsec, hshort]
    unfold sectorSizes
    dsimp only
    rw [if_neg (by omega), if_neg (by omega)]
  unfold CompDoc.init
  dsimp only
  rw [if_neg (by
      intro hx
      apply hx
      unfold pySlice
      rw [List.drop_zero, h.signature]
      rfl), if_neg (by
      intro hx
      apply hx
      unfold pySlice
      rw [List.drop_take, h.order]), if_neg (by omega), esz]
  dsimp only
  rw [if_neg (by omega)]
  unfold CompDoc.initSized
  -- the master table
  have hn1 : (msatx ++ sats ++ dirs ++ conts).Nodup := (List.nodup_append.1 h.once).1
  have hn2 : (msatx ++ sats ++ dirs).Nodup := (List.nodup_append.1 hn1).1
  have hn3 : (msatx ++ sats).Nodup := (List.nodup_append.1 hn2).1
  have hn4 : msatx.Nodup := (List.nodup_append.1 hn3).1
  have hlt : ∀ x ∈ msatx ++ sats ++ ssats, x < dataSecs mem.length D.secSize :=
    fun x hx => whole_lt hpos h512 (h.tables x hx)
  have hlt' : ∀ x ∈ dirs ++ conts, x < dataSecs mem.length D.secSize :=
    fun x hx => (lt_dataSecs hpos h512).2 (h.present x hx)
  generalize hnS : dataSecs mem.length D.secSize = nS at hlt hlt'
  have eh : leInts 109 (pySlice mem 76 512) = hm := by
    have e : pySlice mem 76 512 = (mem.drop 76).take 436 := by unfold pySlice; rw [List.drop_take]
    rw [e]
    refine (intsOf_leInts hh ?_).symm
    rw [← hh.1, hh109]
  have S0 := freeOut_start nS
  have emsat : readMsat mem D.secSize nS fuel = some (.ok (markAll (List.replicate nS 0) 1 msatx, hm ++ m)) := by
    unfold readMsat
    rw [headInt_of hfirst, headInt_of hcount, eh]
    rcases hmaster with ⟨hx, rfl, hf3⟩ | ⟨hx, hchain⟩
    · subst hx
      rw [if_pos (by unfold eocSid freeSid; refine ⟨rfl, ?_⟩; omega)]
      simp [markAll]
    · have : 0 < msatx.length := List.length_pos_iff.2 hx
      rw [if_neg (by omega)]
      obtain ⟨r, rfl⟩ : ∃ r, fuel = msatx.length + 1 + r := ⟨fuel - (msatx.length + 1), by omega⟩
      exact msatLoop_complete h4 h2 hchain _ _ (fun x hx => ⟨hlt x (by simp [hx]), h.tables x (by simp [hx]),
        S0.free (by simpa using hn4) (fun x hx => hlt x (by simp [hx])) x hx⟩) hn4 r
  have S1 := S0.mark 1 msatx
  rw [List.nil_append] at S1
  have esat : satLoop mem D.secSize nS (markAll (List.replicate nS 0) 1 msatx) (hm ++ m) =
      .ok (markAll (markAll (List.replicate nS 0) 1 msatx) 2 sats, D.sat) := by
    rw [satLoop_complete h4 _ _ _ hents hsats (fun x hx => ⟨hlt x (by simp [hx]), h.tables x (by simp [hx]),
      S1.free hn3 (fun x hx => hlt x (by simp [hx])) x hx⟩) (List.nodup_append.1 hn3).2.1,
      ← tableIn_leInts h4 (fun x hx => h.tables x (by simp [hx])) h.sat]
  have S2 := S1.mark 2 sats
  generalize markAll (List.replicate nS 0) 1 msatx = s1 at *
  generalize markAll s1 2 sats = s2 at *
  rw [emsat]
  dsimp only
  rw [esat]
  dsimp only
  -- the directory
  unfold CompDoc.finish CompDoc.start
  dsimp only
  rw [headInt_of hdf]
  obtain ⟨r, hr⟩ : ∃ r, fuel = dirs.length + 1 + r := ⟨fuel - (dirs.length + 1), by omega⟩
  have edir := streamLoop_complete (mem := mem) (base := 512) (secSize := D.secSize) (seenId := some 3) (seen := s2) (todo := none)
    hdc (fun i hi x hx => ⟨S2.free hn2 (fun x hx => hlt' x (by simp [hx])) x hx, by cases hi; decide⟩) r
  rw [← hr, pieces_none] at edir
  have S3 : FreeOut nS (seenAfter (some 3) s2 dirs) (msatx ++ sats ++ dirs) := S2.mark 3 dirs
  rw [edir]
  generalize seenAfter (some 3) s2 dirs = s3 at *
  dsimp only
  have efl : (dirs.map (sector mem 512 D.secSize)).flatten = parts.flatten := by rw [← hparts, List.flatMap_def]
  have eparts : ∀ ps : List Bytes, ∀ ds, Each2 (fun (b : Bytes) (d : DirNode) => b.length = 128 ∧ DirBytes utf16 b d ∧
      (b[64]? = some 1 → b[65]? ≠ some 0)) ps ds → ps.length ≤ ps.flatten.length := by
    intro ps ds he
    induction he with
    | nil => simp
    | cons h _ ih =>
      rw [List.flatten_cons, List.length_append, List.length_cons]
      omega
  rw [efl, dirNodes_complete heach _ (eparts _ _ heach)]
  obtain ⟨others, hothers⟩ : ∃ others, D.dir = root :: others := by
    cases hD : D.dir with
    | nil => rw [hD] at hroot; simp at hroot
    | cons a l =>
      rw [hD] at hroot
      simp at hroot
      exact ⟨l, by rw [hroot]⟩
  obtain ⟨r2, hr2⟩ : ∃ r2, depth = height + 1 + r2 := ⟨depth - (height + 1), by omega⟩
  obtain ⟨kids, hkids⟩ := familyTree_complete htree 0 r2
  rw [← hr2, hothers] at hkids
  rw [hothers]
  dsimp only
  rw [hkids]
  dsimp only
  rw [if_neg (by simp [h5])]
  rcases hcont with ⟨c1, c2, c3, c4, c5⟩ | ⟨c1, c2, ⟨c3, c4, c5⟩, sfirst, c6, c7, c8, c9⟩
  · rw [if_pos (.inr c1)]
    dsimp only
    rw [if_neg (by omega)]
    refine ⟨_, rfl, rfl, rfl, rfl, headInt_of h.minSize, rfl, rfl, c5.symm, by simp [c3], hothers.symm, ?_, rfl⟩
    rw [h.used, c2, c4, hnS]
    simpa using S3
  · have hne : conts ≠ [] := by
      rintro rfl
      simp at c4
      rw [c4] at c5
      simp at c5
      omega
    have hfi : 0 ≤ root.first := by
      generalize root.first = z at c2
      cases c2 with
      | stop => exact absurd rfl hne
      | next => omega
    rw [if_neg (by omega)]
    obtain ⟨r3, hr3⟩ : ∃ r3, fuel = conts.length + 1 + r3 := ⟨fuel - (conts.length + 1), by omega⟩
    have econt := streamLoop_complete (mem := mem) (base := 512) (secSize := D.secSize) (seenId := some 4) (seen := s3)
      (todo := some root.size) c2
      (fun i hi x hx => ⟨S3.free hn1 (fun x hx => hlt' x (by simp [hx])) x hx, by cases hi; decide⟩) r3
    rw [← hr3] at econt
    have S4 : FreeOut nS (seenAfter (some 4) s3 conts) (msatx ++ sats ++ dirs ++ conts) := S3.mark 4 conts
    rw [econt]
    generalize seenAfter (some 4) s3 conts = s4 at *
    dsimp only
    have ep := pieces_take mem 512 D.secSize conts root.size.toNat c3
    rw [show ((root.size.toNat : Nat) : Int) = root.size by omega, ← c4] at ep
    rw [ep, if_pos c1, headInt_of c6, headInt_of c7, if_neg (by omega), Int.toNat_natCast,
      ssatLoop_complete h4 c8 _ (fun x hx => ⟨h.tables x (by simp [hx]),
        S4.free h.once (fun x hx => hlt x (by simp [hx])) x hx⟩),
      ← tableIn_leInts h4 (fun x hx => h.tables x (by simp [hx])) c9]
    dsimp only
    refine ⟨_, rfl, rfl, rfl, rfl, headInt_of h.minSize, rfl, rfl, rfl, ?_, hothers.symm, ?_, rfl⟩
    · rw [if_neg]
      rintro h0
      rw [h0] at c5
      simp at c5
      omega
    · rw [h.used, hnS]
      exact S4.mark 5 ssats

/-! ### streams -/

theorem locateLoop_reads {sat : List Int} {base secSize seenId : Nat} {ignore : Bool} {limit : Int} (mem : Bytes)
    {seen : List Nat} {s : Int} {st : LocState} {sids done : List Nat} (hc : Chain sat s sids)
    (hu : ∀ x ∈ sids, seen[x]? = some 0 ∧ seenId ≤ 255) (hl : (st.found : Int) + sids.length = limit)
    (hinv : LocInv mem base secSize st done) (k : Nat) :
    ∃ st', locateLoop base sat secSize ignore seenId limit (sids.length + 1 + k) seen s st =
      some (markAll seen seenId sids, .ok st') ∧ LocInv mem base secSize st' (done ++ sids) := by
  induction hc generalizing seen st done with
  | stop =>
    rw [show ([] : List Nat).length + 1 + k = k + 1 by simp; omega, locateLoop]
    have : (st.found : Int) = limit := by simpa using hl
    refine ⟨st, ?_, by simpa using hinv⟩
    simp [this, eocSid, markAll]
  | @next s u rest hs hc ih =>
    rw [show (s :: rest).length + 1 + k = (rest.length + 1 + k) + 1 by simp; omega, locateLoop]
    obtain ⟨h0, h1⟩ := hu s (by simp)
    rw [if_neg (by omega)]
    simp only [Int.toNat_natCast, h0]
    rw [if_neg (by simp), if_neg (by omega)]
    have hlt : ¬ (st.found : Int) + 1 > limit := by simp at hl; omega
    rw [if_neg hlt]
    simp only [hs]
    rw [markAll, show done ++ s :: rest = (done ++ [s]) ++ rest by simp]
    refine ih ?_ ?_ (hinv.step s)
    · intro x hx
      have hne : s ≠ x := by
        rintro rfl
        exact (List.nodup_cons.1 (chain_nodup (.next hs hc))).1 hx
      rw [List.getElem?_set, if_neg hne]
      exact hu x (by simp [hx])
    · simp at hl ⊢; omega

/-- The two ways to read a stream, in a document just opened. -/
theorem streams_complete {low : List Char → List Char} {mem : Bytes} {D : Doc} (hn : NamesDiffer low D.dir)
    (h512 : 512 ≤ mem.length) (hpos : 0 < D.secSize) {qname : List Char} {b : Bytes}
    (hs : StreamIs low mem D (splitChar '/' qname) b) :
    ∃ fuel0, ∀ (ignore : Bool) (cd : CompDoc), ReadsDoc mem D ignore cd → cd.HasTree → ∀ fuel, fuel0 ≤ fuel →
      (∃ seen', cd.getNamedStream low fuel qname = some (seen', .ok (some b))) ∧
      ∃ seen' l, cd.locateNamedStream low fuel qname = some (seen', .ok (some l)) ∧
        (l.data.drop l.offset).take b.length = b ∧ l.len = b.length := by
  obtain ⟨c, d, sids, hat, hc, hfit, hsz⟩ := hs
  refine ⟨sids.length + 1, fun ignore cd hr ht fuel hfuel => ?_⟩
  obtain ⟨k, rfl⟩ : ∃ k, fuel = sids.length + 1 + k := ⟨fuel - (sids.length + 1), by omega⟩
  have hfound : cd.dirSearch low (splitChar '/' qname) 0 = .ok (some (c, d)) :=
    dirSearch_complete ht (by rw [hr.dir]; exact hn) (.inl rfl) (by rw [hr.dir]; exact hat)
  unfold CompDoc.getNamedStream CompDoc.locateNamedStream
  rw [hfound]
  dsimp only
  rw [if_neg (show ¬ d.size > cd.memDataLen by rw [hr.dataLen]; omega), hr.minSize]
  rcases hsz with ⟨h1, h2, h3, ⟨h4, h5, h6⟩, h7⟩ | ⟨h1, h2, h3, h4, h5, h6⟩
  · have hfree : ∀ x ∈ sids, cd.seen[x]? = some 0 ∧ c + 6 ≤ 255 := fun x hx =>
      ⟨hr.seen.2 x ((lt_dataSecs hpos h512).2 (h3 x hx).1) (h3 x hx).2, by omega⟩
    have hblen : 0 < b.length := by omega
    have hne : sids ≠ [] := by
      rintro rfl
      rw [h5] at hblen
      simp at hblen
    have hfi : 0 ≤ d.first := by
      generalize d.first = z at h2
      cases h2 with
      | stop => exact absurd rfl hne
      | next => omega
    constructor
    · rw [if_pos h1, hr.mem, hr.sat, hr.secSize, streamLoop_complete h2 (fun i hi x hx => by
        cases hi
        exact hfree x hx)]
      dsimp only
      have := pieces_take mem 512 D.secSize sids d.size.toNat h4
      rw [show ((d.size.toNat : Nat) : Int) = d.size by omega, ← h5] at this
      rw [this]
      exact ⟨_, rfl⟩
    · rw [if_pos h1]
      unfold CompDoc.locateStream
      rw [if_neg (by omega), hr.sat, hr.secSize, hr.mem]
      have hlen : 0 < sids.length := List.length_pos_iff.2 hne
      have hup : b.length ≤ sids.length * D.secSize := by
        rw [h5, List.length_take]
        refine Nat.le_trans (Nat.min_le_right _ _) ?_
        clear h2 h3 h4 h5 h7 hfree hne hlen hfuel hfi
        induction sids with
        | nil => simp
        | cons s ss ih =>
          rw [List.flatMap_cons, List.length_append, List.length_cons, Nat.add_mul, Nat.one_mul]
          have : (sector mem 512 D.secSize s).length ≤ D.secSize := by unfold sector; rw [List.length_take]; omega
          omega
      have hlim : (d.size + D.secSize - 1) / D.secSize = (sids.length : Int) := by
        have hs0 : (0 : Int) < D.secSize := by omega
        have e1 : ((sids.length : Int) - 1) * D.secSize = (sids.length : Int) * D.secSize - D.secSize := by
          rw [Int.sub_mul, Int.one_mul]
        have e2 : ((sids.length : Int) + 1) * D.secSize = (sids.length : Int) * D.secSize + D.secSize := by
          rw [Int.add_mul, Int.one_mul]
        have e3 : (((sids.length - 1) * D.secSize : Nat) : Int) = ((sids.length : Int) - 1) * D.secSize := by
          rw [Int.natCast_mul, Int.natCast_sub (by omega)]
          rfl
        have e4 : ((sids.length * D.secSize : Nat) : Int) = (sids.length : Int) * D.secSize := Int.natCast_mul _ _
        have a : (d.size + D.secSize - 1) / D.secSize < (sids.length : Int) + 1 := by
          rw [Int.ediv_lt_iff_lt_mul hs0, e2]
          omega
        have b : (sids.length : Int) ≤ (d.size + D.secSize - 1) / D.secSize := by
          rw [Int.le_ediv_iff_mul_le hs0]
          omega
        omega
      rw [hlim]
      obtain ⟨st, est, hinv⟩ := locateLoop_reads (base := 512) (secSize := D.secSize) (seenId := c + 6)
        (ignore := cd.ignoreCorruption) (limit := (sids.length : Int)) mem (seen := cd.seen)
        (st := { prev := none, start := 0, stop := 0, slices := [], found := 0 }) (done := []) h2 hfree (by simp)
        ⟨rfl, fun _ => ⟨rfl, rfl⟩, fun h => absurd rfl h⟩ k
      rw [List.nil_append] at hinv
      obtain ⟨p, g1, g2, g3, g4, g5⟩ := hinv.later hne
      rw [est]
      dsimp only
      have hb : b.length = d.size.toNat := by omega
      by_cases hx : st.slices = []
      · rw [if_pos hx]
        refine ⟨_, _, rfl, ?_, h6.symm⟩
        dsimp only
        rw [hx] at g4
        simp only [slicesOf, List.nil_append, List.map_cons, List.map_nil, List.flatten_cons, List.flatten_nil,
          List.append_nil] at g4
        rw [g5 hx, pySlice_eq, List.drop_take, Nat.add_sub_cancel_left] at g4
        rw [← g4, List.take_take, ← hb, Nat.min_eq_left hup] at h5
        exact h5.symm
      · rw [if_neg hx]
        refine ⟨_, _, rfl, ?_, h6.symm⟩
        dsimp only
        rw [List.drop_zero, hb]
        conv => rhs; rw [h5, ← g4]
        rfl
  · have hshort : cd.shortStream (sids.length + 1 + k) d = some (.ok b) := by
      have hget : cd.sscs.getD [] = D.container := by
        rw [hr.sscs]
        split <;> simp [*]
      unfold CompDoc.shortStream
      rw [hget, hr.ssat, hr.shortSize, streamLoop_complete h2 (by simp)]
      dsimp only
      rw [if_neg (by
        rintro ⟨e1, e2⟩
        rw [hr.sscs] at e1
        split at e1
        · rename_i h0
          rw [h3 h0] at e2
          exact e2 rfl
        · cases e1)]
      have := pieces_take D.container 0 D.shortSize sids d.size.toNat h4
      rw [show ((d.size.toNat : Nat) : Int) = d.size by omega, ← h5] at this
      rw [this]
    rw [if_neg (by omega), if_neg (by omega), hshort]
    refine ⟨⟨_, rfl⟩, _, _, rfl, ?_, h6.symm⟩
    dsimp only
    rw [List.drop_zero, List.take_length]

end CP
