import Verif.Spec.MaskData
import Verif.Props.World
/-!
# C86: masking leaves the data alone
-/

namespace CP
open Spec

/-- The statement of C86: what is done about the mask of a pack leaves the data of all packs as they are.
`all`: in all programs; otherwise if the mask that the pack has afterwards is no channel. -/
def MaskingKeepsData (all : Bool) : Prop :=
  ∀ (E : NpEnv) (w : World) (i : Nat) (a : Act), AllPrograms E w → There w (.act i a) → MaskStep a →
    (all = false → ¬ IsChannel w ((w.step E (.act i a)).1.packs i).mask) →
    ∀ j, j < w.n → (World.view (w.step E (.act i a)).1 j).data = (World.view w j).data

/-! ### Only the array of the mask is written to -/

/-- Dicts are the same, and arrays but for `l`. -/
structure OnlyArr (h h' : Heap) (l : Nat) : Prop where
  dicts : h'.dicts = h.dicts
  nDicts : h'.nDicts = h.nDicts
  nArrs : h.nArrs ≤ h'.nArrs
  arrs : ∀ x, x < h.nArrs → x ≠ l → h'.arrs x = h.arrs x

theorem onlyArr_refl (h : Heap) (l : Nat) : OnlyArr h h l := ⟨rfl, rfl, Nat.le_refl _, fun _ _ _ => rfl⟩

theorem onlyArr_duration (h : Heap) (o : PObj) (q : Rat) (m : Bool) :
    OnlyArr h (o.duration h q m).1 o.mask ∧ (o.duration h q m).2.mask = o.mask ∧ (o.duration h q m).2.data = o.data :=
  ⟨⟨rfl, rfl, Nat.le_refl _, fun _ _ hx => updAt_ne _ _ hx⟩, rfl, rfl⟩

theorem onlyArr_mindur (h : Heap) (o : PObj) :
    OnlyArr h (o.applyMindur h).1 o.mask ∧ (o.applyMindur h).2.mask = o.mask ∧ (o.applyMindur h).2.data = o.data := by
  unfold PObj.applyMindur
  cases o.mindur with
  | none => exact ⟨onlyArr_refl .., rfl, rfl⟩
  | some m => exact onlyArr_duration ..

theorem onlyArr_setMask (h : Heap) (o : PObj) (l : Nat) :
    OnlyArr h (o.setMask h l).1 l ∧ (o.setMask h l).2.mask = l ∧ (o.setMask h l).2.data = o.data :=
  onlyArr_mindur h _

/-- Setting the mask to an array that is new. -/
theorem onlyArr_newMask (h : Heap) (o : PObj) (a : Arr) :
    OnlyArr h (o.setMask (h.newArr a).1 (h.newArr a).2).1 (o.setMask (h.newArr a).1 (h.newArr a).2).2.mask ∧
      (o.setMask (h.newArr a).1 (h.newArr a).2).2.data = o.data := by
  obtain ⟨h1, h2, h3⟩ := onlyArr_setMask (h.newArr a).1 o (h.newArr a).2
  rw [h2]
  refine ⟨⟨h1.dicts, h1.nDicts, Nat.le_of_succ_le h1.nArrs, fun x hx hl => ?_⟩, h3⟩
  rw [h1.arrs x (Nat.lt_succ_of_lt hx) hl]
  exact updAt_ne _ _ hl

/-- C86, what is written to: dicts stay, and all arrays but the one that is the mask of the pack afterwards. -/
theorem C86_only_mask (E : NpEnv) (ps : Nat → PObj) (h : Heap) (o : PObj) (a : Act) (ha : MaskStep a) :
    OnlyArr h (o.act E ps h a).1 (o.act E ps h a).2.1.mask ∧ (o.act E ps h a).2.1.data = o.data := by
  cases a with
  | setMask s =>
    cases s with
    | new b => exact onlyArr_newMask h o b
    | old l =>
      obtain ⟨h1, h2, h3⟩ := onlyArr_setMask h o l
      refine ⟨?_, h3⟩
      show OnlyArr h (o.setMask h l).1 (o.setMask h l).2.mask
      rw [h2]; exact h1
  | setMindur m =>
    obtain ⟨h1, h2, h3⟩ := onlyArr_mindur h { o with mindur := m }
    refine ⟨?_, h3⟩
    show OnlyArr h (({ o with mindur := m } : PObj).applyMindur h).1 (({ o with mindur := m } : PObj).applyMindur h).2.mask
    rw [h2]; exact h1
  | duration q m => exact ⟨(onlyArr_duration h o q m).1, rfl⟩
  | maskReset =>
    show OnlyArr h (o.maskReset h).1 (o.maskReset h).2.mask ∧ (o.maskReset h).2.data = o.data
    unfold PObj.maskReset
    split
    · exact onlyArr_newMask h o _
    · split
      · exact onlyArr_newMask h o _
      · exact ⟨onlyArr_refl .., rfl⟩
  | startstop b c ap =>
    show OnlyArr h (o.startstop h b c ap).1 (o.startstop h b c ap).2.1.mask ∧ (o.startstop h b c ap).2.1.data = o.data
    unfold PObj.startstop
    cases ap with
    | false => exact ⟨onlyArr_refl .., rfl⟩
    | true =>
      rw [if_pos rfl]
      cases npIand (h.arrs o.mask).toMask (startstopBool b c) with
      | error e => exact ⟨onlyArr_refl .., rfl⟩
      | ok m =>
        dsimp only
        obtain ⟨h1, h2, h3⟩ := onlyArr_setMask { h with arrs := updAt h.arrs o.mask ⟨.b, m.bits.map .bool⟩ } o o.mask
        rw [h2]
        exact ⟨⟨h1.dicts, h1.nDicts, h1.nArrs, fun x hx hl => (h1.arrs x hx hl).trans (updAt_ne _ _ hl)⟩, h3⟩
  | _ => exact absurd ha id

/-! ### All dicts and arrays in use are there -/

/-- Dicts of packs exist, and so do the arrays in dicts. -/
structure AllThere (w : World) : Prop where
  dicts : DInv w.heap Nowhere
  data : ∀ i, i < w.n → (w.packs i).data < w.heap.nDicts

theorem OnlyArr.dinv {h h' : Heap} {l : Nat} (k : OnlyArr h h' l) (hi : DInv h Nowhere) : DInv h' Nowhere := by
  refine ⟨fun d hd p hp => ?_, fun d hd => ?_, fun _ h => h.elim⟩
  · rw [k.nDicts] at hd
    rw [k.dicts] at hp
    exact ⟨Nat.lt_of_lt_of_le (hi.arr d hd p hp).1 k.nArrs, id⟩
  · rw [k.nDicts] at hd
    rw [k.dicts]
    exact hi.keys d hd

theorem onlyArr_maskReset (h : Heap) (o : PObj) :
    OnlyArr h (o.maskReset h).1 (o.maskReset h).2.mask ∧ (o.maskReset h).2.data = o.data :=
  C86_only_mask ⟨fun _ _ => none, fun _ v => v⟩ (fun _ => o) h o .maskReset trivial

theorem appendLoopH_dinv (E : NpEnv) (d od : Nat) (ks : List Int) : ∀ (h : Heap), DInv h Nowhere →
    DInv (appendLoopH E d od h ks).1 Nowhere ∧ (appendLoopH E d od h ks).1.nDicts = h.nDicts := by
  induction ks with
  | nil => exact fun h hi => ⟨hi, rfl⟩
  | cons k ks ih =>
    intro h hi
    rw [appendLoopH]
    split
    · split
      · exact ⟨hi, rfl⟩
      · rename_i c _
        have := (setItem_ok (d := d) (newArr_dinv hi c) k (l := h.nArrs) (Nat.lt_succ_self _) id).1
        obtain ⟨h1, h2⟩ := ih _ this
        exact ⟨h1, h2⟩
    · exact ⟨hi, rfl⟩

theorem act_there {E : NpEnv} {ps : Nat → PObj} {h : Heap} {o : PObj} {a : Act} {n : Nat} (hi : DInv h Nowhere)
    (ho : o.data < h.nDicts) (hp : ∀ j, j < n → (ps j).data < h.nDicts) (i : Nat)
    (ht : There ⟨h, ps, n⟩ (.act i a)) :
    DInv (o.act E ps h a).1 Nowhere ∧ h.nDicts ≤ (o.act E ps h a).1.nDicts ∧
      (o.act E ps h a).2.1.data < (o.act E ps h a).1.nDicts := by
  have src : ∀ s, There.SrcThere ⟨h, ps, n⟩ s → SrcOk h Nowhere s := by
    intro s hs
    cases s with
    | new a => trivial
    | old l => exact ⟨hs, id⟩
  by_cases hm : MaskStep a
  · obtain ⟨k, e⟩ := C86_only_mask E ps h o a hm
    exact ⟨k.dinv hi, Nat.le_of_eq k.nDicts.symm, by rw [e, k.nDicts]; exact ho⟩
  · have same : DInv h Nowhere ∧ h.nDicts ≤ h.nDicts ∧ o.data < h.nDicts := ⟨hi, Nat.le_refl _, ho⟩
    cases a with
    | setMask | setMindur | duration | startstop | maskReset => exact absurd trivial hm
    | setMaskBad | setMindurBad | setDataBad | setFnBad | setPrefixBad | setFn | setPrefix => exact same
    | setNof v => unfold PObj.act; dsimp only; split <;> exact same
    | setData d =>
      obtain ⟨t1, -, t3, t4, -⟩ := newNpDict_ok hi (fun p hp => src p.2 (ht.2 p hp))
      obtain ⟨k, e⟩ := onlyArr_maskReset (newNpDict h d).1 { o with data := (newNpDict h d).2 }
      refine ⟨k.dinv t1, ?_, ?_⟩
      · exact Nat.le_trans (Nat.le_of_lt t4) (Nat.le_of_eq k.nDicts.symm)
      · show (PObj.maskReset (newNpDict h d).1 { o with data := (newNpDict h d).2 }).2.data < _
        rw [e]
        show (newNpDict h d).2 < (PObj.maskReset (newNpDict h d).1 { o with data := (newNpDict h d).2 }).1.nDicts
        rw [k.nDicts, t3]; exact t4
    | setDataNp d =>
      obtain ⟨t1, -, t3, t4, -⟩ := newNpDict_ok hi (fun p hp => src p.2 (ht.2 p hp))
      refine ⟨t1, Nat.le_of_lt t4, ?_⟩
      show (newNpDict h d).2 < _
      rw [t3]; exact t4
    | setNames m => exact ⟨⟨hi.arr, hi.keys, hi.masks⟩, Nat.le_refl _, ho⟩
    | nameItem k v => exact ⟨⟨hi.arr, hi.keys, hi.masks⟩, Nat.le_refl _, ho⟩
    | dataItem k s =>
      obtain ⟨t1, -, t3, t4, -, t6, t7, -⟩ := take_ok hi (src s ht.2)
      refine ⟨(setItem_ok (d := o.data) t1 k t3 t4).1, Nat.le_of_eq t7.symm, ?_⟩
      show o.data < (s.take h).1.nDicts
      rw [t7]; exact ho
    | dataDel k =>
      unfold PObj.act
      dsimp only
      split
      · refine ⟨⟨fun d hd p hp => ?_, fun d hd => ?_, fun _ h => h.elim⟩, Nat.le_refl _, ho⟩
        · by_cases e : d = o.data
          · subst e
            simp only [updAt_same] at hp
            exact hi.arr _ hd p (List.mem_filter.1 hp).1
          · simp only [updAt_ne _ _ e] at hp
            exact hi.arr d hd p hp
        · by_cases e : d = o.data
          · subst e
            simp only [updAt_same]
            exact (hi.keys _ hd).sublist ((List.filter_sublist).map _)
          · simp only [updAt_ne _ _ e]
            exact hi.keys d hd
      · exact same
    | shareData j => exact ⟨hi, Nat.le_refl _, hp j ht.2⟩
    | shareNames j => exact same
    | append j =>
      have hj := hp j ht.2
      show DInv (PObj.append E h o (ps j)).1 _ ∧ _ ≤ (PObj.append E h o (ps j)).1.nDicts ∧
        (PObj.append E h o (ps j)).2.1.data < (PObj.append E h o (ps j)).1.nDicts
      have hd : DInv (appendDataH E h o (ps j)).1 Nowhere ∧ (appendDataH E h o (ps j)).1.nDicts = h.nDicts ∧
          (appendDataH E h o (ps j)).2.1.data < h.nDicts := by
        unfold appendDataH
        split
        · exact ⟨hi, rfl, hj⟩
        · split
          · exact ⟨hi, rfl, ho⟩
          · split
            · obtain ⟨g1, g2⟩ := appendLoopH_dinv E o.data (ps j).data (dkeys (h.dicts (ps j).data)) h hi
              exact ⟨g1, g2, ho⟩
            · exact ⟨hi, rfl, ho⟩
      unfold PObj.append
      revert hd
      cases hx : appendDataH E h o (ps j) with
      | mk h1 r =>
        cases r with
        | mk o1 e1 =>
          rintro ⟨g1, g2, g3⟩
          dsimp only at g1 g2 g3 ⊢
          cases e1 with
          | some e => exact ⟨g1, Nat.le_of_eq g2.symm, by rw [g2]; exact g3⟩
          | none =>
            dsimp only
            have hn : (appendNamesH h1 o1 (ps j)).1.data = o1.data := by
              unfold appendNamesH
              repeat' split
              all_goals rfl
            cases hy : appendNamesH h1 o1 (ps j) with
            | mk o2 e2 =>
              rw [hy] at hn
              dsimp only at hn
              cases e2 with
              | some e => exact ⟨g1, Nat.le_of_eq g2.symm, by rw [hn, g2]; exact g3⟩
              | none =>
                dsimp only
                obtain ⟨k, e⟩ := onlyArr_maskReset h1 { o2 with filenames := o2.filenames ++ (ps j).filenames }
                refine ⟨k.dinv g1, ?_, ?_⟩
                · exact Nat.le_of_eq (k.nDicts.trans g2).symm
                · rw [e, k.nDicts, g2]
                  show o2.data < _
                  rw [hn]; exact g3

/-- In every program the dicts of packs and the arrays in them are there. -/
theorem allPrograms_there {E : NpEnv} {w : World} (hw : AllPrograms E w) : AllThere w := by
  induction hw with
  | start =>
    exact ⟨⟨fun d hd => absurd hd (Nat.not_lt_zero _), fun d hd => absurd hd (Nat.not_lt_zero _), fun _ h => h.elim⟩,
      fun i hi => absurd hi (Nat.not_lt_zero _)⟩
  | @next w op _ ht ih =>
    cases op with
    | make d n =>
      have hs : ∀ p ∈ d, SrcOk w.heap Nowhere p.2 := by
        intro p hp
        have := ht p hp
        revert this
        cases p.2 with
        | new a => exact fun _ => trivial
        | old l => exact fun h => ⟨h, id⟩
      obtain ⟨t1, -, t3, t4, -⟩ := newNpDict_ok ih.dicts hs
      let o0 : PObj :=
        ⟨['c', 'h'], (newNpDict w.heap d).2, ((newNpDict w.heap d).1.newTab (dictOf n)).2, [], [[]], none, none, 0, []⟩
      have e0 : World.step E w (.make d n) =
          (⟨(o0.maskReset ((newNpDict w.heap d).1.newTab (dictOf n)).1).1,
            updAt w.packs w.n (o0.maskReset ((newNpDict w.heap d).1.newTab (dictOf n)).1).2, w.n + 1⟩, none) := rfl
      obtain ⟨k, e⟩ := onlyArr_maskReset ((newNpDict w.heap d).1.newTab (dictOf n)).1 o0
      have t4' : w.heap.nDicts < ((newNpDict w.heap d).1.newTab (dictOf n)).1.nDicts := t4
      rw [e0]
      refine ⟨k.dinv ⟨t1.arr, t1.keys, t1.masks⟩, fun i hi => ?_⟩
      dsimp only
      rw [k.nDicts]
      by_cases ei : i = w.n
      · rw [ei, updAt_same, e]
        show (newNpDict w.heap d).2 < _
        rw [t3]; exact t4'
      · rw [updAt_ne _ _ ei]
        have hi : i < w.n + 1 := hi
        exact Nat.lt_trans (ih.data i (by omega)) t4'
    | act i a =>
      obtain ⟨g1, g2, g3⟩ := act_there (E := E) (ps := w.packs) (n := w.n) ih.dicts (ih.data i ht.1) ih.data i ht
      refine ⟨g1, fun j hj => ?_⟩
      show (updAt w.packs i ((w.packs i).act E w.packs w.heap a).2.1 j).data < _
      by_cases e : j = i
      · subst e; rw [updAt_same]; exact g3
      · rw [updAt_ne _ _ e]; exact Nat.lt_of_lt_of_le (ih.data j hj) g2

/-! ### The theorems -/

/-- C86: masking leaves the data of all packs alone, unless the mask is itself a channel.

The full statement is `MaskingKeepsData true`, without that exception; it is false (`C86_counterexample`). -/
theorem C86_masking_keeps_data_partial : MaskingKeepsData false := by
  intro E w i a hw ht hm hc j hj
  have hi := allPrograms_there hw
  obtain ⟨k, e⟩ := C86_only_mask E w.packs w.heap (w.packs i) a hm
  have hc := hc rfl
  have e1 : (w.step E (.act i a)).1 = ⟨((w.packs i).act E w.packs w.heap a).1,
    updAt w.packs i ((w.packs i).act E w.packs w.heap a).2.1, w.n⟩ := rfl
  rw [e1] at hc ⊢
  dsimp only at hc
  rw [updAt_same] at hc
  have ed : (updAt w.packs i ((w.packs i).act E w.packs w.heap a).2.1 j).data = (w.packs j).data := by
    by_cases ej : j = i
    · subst ej; rw [updAt_same, e]
    · rw [updAt_ne _ _ ej]
  unfold World.view view
  dsimp only
  rw [ed, k.dicts]
  apply List.map_congr_left
  intro p hp
  rw [k.arrs p.2 (hi.dicts.arr _ (hi.data j hj) p hp).1 (fun h => hc ⟨_, hi.data j hj, p.1, h ▸ hp⟩)]

/-- What can change: only channels whose array is the mask, and of these only the values. -/
theorem C86_exact (E : NpEnv) (w : World) (i : Nat) (a : Act) (hw : AllPrograms E w) (hm : MaskStep a)
    (j : Nat) (hj : j < w.n) :
    dkeys (World.view (w.step E (.act i a)).1 j).data = dkeys (World.view w j).data ∧
    ∀ key l, dget (w.heap.dicts (w.packs j).data) key = some l →
      l ≠ ((w.step E (.act i a)).1.packs i).mask →
      dget (World.view (w.step E (.act i a)).1 j).data key = dget (World.view w j).data key := by
  have hi := allPrograms_there hw
  obtain ⟨k, e⟩ := C86_only_mask E w.packs w.heap (w.packs i) a hm
  have e1 : (w.step E (.act i a)).1 = ⟨((w.packs i).act E w.packs w.heap a).1,
    updAt w.packs i ((w.packs i).act E w.packs w.heap a).2.1, w.n⟩ := rfl
  rw [e1]
  have ed : (updAt w.packs i ((w.packs i).act E w.packs w.heap a).2.1 j).data = (w.packs j).data := by
    by_cases ej : j = i
    · subst ej; rw [updAt_same, e]
    · rw [updAt_ne _ _ ej]
  unfold World.view view
  dsimp only
  rw [ed, k.dicts, updAt_same]
  refine ⟨by simp [dkeys], fun key l hl hne => ?_⟩
  rw [dget_map, dget_map, hl, Option.map_some, Option.map_some,
    k.arrs l (hi.dicts.arr _ (hi.data j hj) (key, l) (dget_mem hl)).1 hne]

theorem sensible_there {w : World} {op : WOp} (hs : Sensible w op) : There w op := by
  have src : ∀ s, ChannelSrc w s → There.SrcThere w s := by
    intro s h
    cases s with
    | new a => trivial
    | old l => exact h.1
  cases op with
  | make d n => exact fun p hp => src _ (hs p hp)
  | act i a =>
    refine ⟨hs.1, ?_⟩
    have h2 := hs.2
    cases a with
    | setMask s =>
      cases s with
      | new a => trivial
      | old l => exact h2.1
    | setData d => exact fun p hp => src _ (h2 p hp)
    | setDataNp d => exact fun p hp => src _ (h2 p hp)
    | dataItem k s => exact src _ h2
    | append j => exact h2
    | shareData j => exact h2
    | shareNames j => exact h2
    | _ => trivial

theorem programs_all {E : NpEnv} {w : World} (hw : Programs E w) : AllPrograms E w := by
  induction hw with
  | start => exact .start
  | next _ hs ih => exact .next ih (sensible_there hs)

/-- In programs that use no array both as a mask and for something else, masking leaves all data alone. -/
theorem C86_sensible (E : NpEnv) (w : World) (i : Nat) (a : Act) (hw : Programs E w) (hs : Sensible w (.act i a))
    (hm : MaskStep a) (j : Nat) (hj : j < w.n) :
    (World.view (w.step E (.act i a)).1 j).data = (World.view w j).data := by
  have hi := programs_inv hw
  obtain ⟨h', o', e, h1, -, h2⟩ := act_step (E := E) hi hs
  refine C86_masking_keeps_data_partial E w i a (programs_all hw) (sensible_there hs) hm (fun _ => ?_) j hj
  rintro ⟨d, hd, k, hk⟩
  obtain ⟨ko, -⟩ := C86_only_mask E w.packs w.heap (w.packs i) a hm
  have eh : h' = ((w.packs i).act E w.packs w.heap a).1 := congrArg (fun x => x.1.heap) h1.symm
  rw [h1] at hk
  dsimp only at hk
  rw [updAt_same] at hk
  rw [← eh] at ko
  refine (h2.dicts.arr d ?_ (k, o'.mask) ?_).2 ⟨i, hs.1, by dsimp only; rw [updAt_same]⟩
  · show d < h'.nDicts
    rw [ko.nDicts]; exact hd
  · show _ ∈ h'.dicts d
    rw [ko.dicts]; exact hk

/-! ### The counterexample -/

/-- `p = ChannelPack({0: [7, 8, 9], 1: [True, True, False]}); p.mask = p(1)` -/
def exFlag : List WOp :=
  [.make [(0, .new ⟨.i, [.int 7, .int 8, .int 9]⟩), (1, .new ⟨.b, [.bool true, .bool true, .bool false]⟩)] [],
   .act 0 (.setMask (.old 1))]

theorem exFlag_programs (E : NpEnv) : AllPrograms E (runWorld E World.empty exFlag) := by
  refine .next (.next .start ?_) ?_
  · intro p hp
    simp only [List.mem_cons, List.not_mem_nil, or_false] at hp
    rcases hp with rfl | rfl <;> trivial
  · exact ⟨by show 0 < 1; omega, by show 1 < 3; omega⟩

/-- The mask is a channel: `p.mindur = 3` wipes out the channel that was used as the mask. -/
theorem C86_counterexample : ¬ MaskingKeepsData true := by
  intro h
  have := h exEnv _ 0 (.setMindur (some 3)) (exFlag_programs exEnv) ⟨by show 0 < 1; omega, trivial⟩ trivial
    (fun h => nomatch h) 0 (by show 0 < 1; omega)
  revert this
  decide +kernel

/-- What becomes of the channel, by `p.mindur = 3`, by `p.duration(3)` and by
`p.startstop([True, False, False], [False, True, False])`; the other channel is as before. -/
theorem C86_what_happens :
    let w := runWorld exEnv World.empty exFlag
    let after := fun a => World.view (w.step exEnv (.act 0 a)).1 0
    (World.view w 0).call (.int 1) none none = .ok ⟨.b, [.bool true, .bool true, .bool false]⟩ ∧
    (after (.setMindur (some 3))).call (.int 1) none none = .ok ⟨.b, [.bool false, .bool false, .bool false]⟩ ∧
    (after (.duration 3 true)).call (.int 1) none none = .ok ⟨.b, [.bool false, .bool false, .bool false]⟩ ∧
    (after (.startstop [true, false, false] [false, true, false] true)).call (.int 1) none none =
      .ok ⟨.b, [.bool true, .bool false, .bool false]⟩ ∧
    (after (.setMindur (some 3))).call (.int 0) none none = (World.view w 0).call (.int 0) none none :=
  ⟨by decide +kernel, by decide +kernel, by decide +kernel, by decide +kernel, by decide +kernel⟩

/-- Hypotheses can be met: a new array as the mask, and a step that changes it. -/
example :
    let w := runWorld exEnv World.empty
      [.make [(0, .new ⟨.b, [.bool true, .bool true, .bool false]⟩)] [],
       .act 0 (.setMask (.new ⟨.b, [.bool true, .bool true, .bool false]⟩))]
    AllPrograms exEnv w ∧ Programs exEnv w ∧ Sensible w (.act 0 (.duration 3 true)) ∧
    MaskStep (.duration 3 true) ∧ ¬ IsChannel w ((w.step exEnv (.act 0 (.duration 3 true))).1.packs 0).mask ∧
    (World.view (w.step exEnv (.act 0 (.duration 3 true))).1 0).mask ≠ (World.view w 0).mask := by
  have hp : Programs exEnv (runWorld exEnv World.empty
      [.make [(0, .new ⟨.b, [.bool true, .bool true, .bool false]⟩)] [],
       .act 0 (.setMask (.new ⟨.b, [.bool true, .bool true, .bool false]⟩))]) := by
    refine .next (.next .start ?_) ⟨by show 0 < 1; omega, trivial⟩
    intro p hp; simp at hp; rw [hp]; trivial
  refine ⟨programs_all hp, hp, ⟨by show 0 < 1; omega, trivial⟩, trivial, ?_, by decide +kernel⟩
  rintro ⟨d, hd, k, hk⟩
  have hd : d < 1 := hd
  have e : d = 0 := by omega
  subst e
  have hk : (k, 2) ∈ [((0 : Int), 0)] := hk
  simp at hk

end CP
