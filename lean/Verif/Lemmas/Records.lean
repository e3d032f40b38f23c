import Verif.Spec.Records
import Verif.Props.Views
import Verif.Props.MaskData
/-!
# Generators of records
-/

namespace CP
open Spec

/-! ### Arrays that no step changes -/

theorem take_below (s : Src) (h : Heap) :
    h.nArrs ≤ (s.take h).1.nArrs ∧ ∀ x, x < h.nArrs → (s.take h).1.arrs x = h.arrs x := by
  cases s with
  | new a => exact ⟨Nat.le_succ _, fun x hx => updAt_ne _ _ (Nat.ne_of_lt hx)⟩
  | old l => exact ⟨Nat.le_refl _, fun _ _ => rfl⟩

theorem takeAll_below (d : List (Int × Src)) : ∀ h : Heap,
    h.nArrs ≤ (takeAll h d).1.nArrs ∧ ∀ x, x < h.nArrs → (takeAll h d).1.arrs x = h.arrs x := by
  induction d with
  | nil => exact fun h => ⟨Nat.le_refl _, fun _ _ => rfl⟩
  | cons p d ih =>
    intro h
    obtain ⟨a1, a2⟩ := take_below p.2 h
    obtain ⟨b1, b2⟩ := ih (p.2.take h).1
    exact ⟨Nat.le_trans a1 b1, fun x hx => (b2 x (Nat.lt_of_lt_of_le hx a1)).trans (a2 x hx)⟩

theorem appendLoopH_below (E : NpEnv) (d od : Nat) (ks : List Int) : ∀ h : Heap,
    h.nArrs ≤ (appendLoopH E d od h ks).1.nArrs ∧
      ∀ x, x < h.nArrs → (appendLoopH E d od h ks).1.arrs x = h.arrs x := by
  induction ks with
  | nil => exact fun h => ⟨Nat.le_refl _, fun _ _ => rfl⟩
  | cons k ks ih =>
    intro h
    rw [appendLoopH]
    split
    · split
      · exact ⟨Nat.le_refl _, fun _ _ => rfl⟩
      · rename_i c _
        obtain ⟨b1, b2⟩ := ih { (h.newArr c).1 with dicts := updAt h.dicts d (dset (h.dicts d) k (h.newArr c).2) }
        exact ⟨Nat.le_trans (Nat.le_succ _) b1,
          fun x hx => (b2 x (Nat.lt_succ_of_lt hx)).trans (updAt_ne _ _ (Nat.ne_of_lt hx))⟩
    · exact ⟨Nat.le_refl _, fun _ _ => rfl⟩

/-- An array that is not the mask stays as it is and does not become the mask. -/
structure Spares (x : Nat) (h h' : Heap) (m' : Nat) : Prop where
  nArrs : h.nArrs ≤ h'.nArrs
  same : h'.arrs x = h.arrs x
  mask : m' ≠ x

theorem spares_maskReset {x : Nat} {h : Heap} {o : PObj} (hx : x < h.nArrs) (hm : o.mask ≠ x) :
    Spares x h (o.maskReset h).1 (o.maskReset h).2.mask := by
  have : (o.maskReset h).2.mask ≠ x := by
    unfold PObj.maskReset
    split
    · rw [(onlyArr_setMask _ _ _).2.1]; exact fun e => absurd hx (by rw [← e]; exact Nat.lt_irrefl _)
    · split
      · rw [(onlyArr_setMask _ _ _).2.1]; exact fun e => absurd hx (by rw [← e]; exact Nat.lt_irrefl _)
      · exact hm
  obtain ⟨k, -⟩ := onlyArr_maskReset h o
  exact ⟨k.nArrs, k.arrs x hx (Ne.symm this), this⟩

theorem spares_act {E : NpEnv} {ps : Nat → PObj} {h : Heap} {o : PObj} {a : Act} {x : Nat} (i : Nat)
    (hx : x < h.nArrs) (hm : o.mask ≠ x) (hg : ¬ MakesMask x (.hands (.world (.act i a)))) :
    Spares x h (o.act E ps h a).1 (o.act E ps h a).2.1.mask := by
  have same : Spares x h h o.mask := ⟨Nat.le_refl _, rfl, hm⟩
  by_cases hM : MaskStep a
  · obtain ⟨k, -⟩ := C86_only_mask E ps h o a hM
    have : (o.act E ps h a).2.1.mask ≠ x := by
      cases a with
      | setMask s =>
        show (o.setMask (s.take h).1 (s.take h).2).2.mask ≠ x
        rw [(onlyArr_setMask _ _ _).2.1]
        cases s with
        | new b => exact fun e => absurd hx (by rw [← e]; exact Nat.lt_irrefl _)
        | old l => exact hg
      | setMindur m =>
        show (({ o with mindur := m } : PObj).applyMindur h).2.mask ≠ x
        rw [(onlyArr_mindur _ _).2.1]; exact hm
      | duration q m => exact hm
      | maskReset => exact (spares_maskReset hx hm).mask
      | startstop b c ap =>
        show (o.startstop h b c ap).2.1.mask ≠ x
        unfold PObj.startstop
        cases ap with
        | false => exact hm
        | true =>
          rw [if_pos rfl]
          cases npIand (h.arrs o.mask).toMask (startstopBool b c) with
          | error e => exact hm
          | ok m =>
            dsimp only
            rw [(onlyArr_setMask _ _ _).2.1]; exact hm
      | _ => exact absurd hM id
    exact ⟨k.nArrs, k.arrs x hx (Ne.symm this), this⟩
  · cases a with
    | setMask | setMindur | duration | startstop | maskReset => exact absurd trivial hM
    | setMaskBad | setMindurBad | setDataBad | setFnBad | setPrefixBad | setFn | setPrefix => exact same
    | shareData | shareNames | setNames | nameItem => exact ⟨Nat.le_refl _, rfl, hm⟩
    | setNof v => unfold PObj.act; dsimp only; split <;> exact same
    | setData d =>
      obtain ⟨b1, b2⟩ := takeAll_below d h
      have k := spares_maskReset (x := x) (h := (newNpDict h d).1) (o := { o with data := (newNpDict h d).2 })
        (Nat.lt_of_lt_of_le hx b1) hm
      exact ⟨Nat.le_trans b1 k.nArrs, k.same.trans (b2 x hx), k.mask⟩
    | setDataNp d =>
      obtain ⟨b1, b2⟩ := takeAll_below d h
      exact ⟨b1, b2 x hx, hm⟩
    | dataItem k s =>
      obtain ⟨b1, b2⟩ := take_below s h
      exact ⟨b1, b2 x hx, hm⟩
    | dataDel k => unfold PObj.act; dsimp only; split <;> exact ⟨Nat.le_refl _, rfl, hm⟩
    | append j =>
      show Spares x h (PObj.append E h o (ps j)).1 (PObj.append E h o (ps j)).2.1.mask
      have hd : h.nArrs ≤ (appendDataH E h o (ps j)).1.nArrs ∧
          (appendDataH E h o (ps j)).1.arrs x = h.arrs x ∧ (appendDataH E h o (ps j)).2.1.mask = o.mask := by
        unfold appendDataH
        split
        · exact ⟨Nat.le_refl _, rfl, rfl⟩
        · split
          · exact ⟨Nat.le_refl _, rfl, rfl⟩
          · split
            · obtain ⟨g1, g2⟩ := appendLoopH_below E o.data (ps j).data (dkeys (h.dicts (ps j).data)) h
              exact ⟨g1, g2 x hx, rfl⟩
            · exact ⟨Nat.le_refl _, rfl, rfl⟩
      unfold PObj.append
      revert hd
      cases hx' : appendDataH E h o (ps j) with
      | mk h1 r =>
        cases r with
        | mk o1 e1 =>
          rintro ⟨g1, g2, g3⟩
          dsimp only at g1 g2 g3 ⊢
          cases e1 with
          | some e => exact ⟨g1, g2, by rw [g3]; exact hm⟩
          | none =>
            dsimp only
            have hn : (appendNamesH h1 o1 (ps j)).1.mask = o1.mask := by
              unfold appendNamesH
              repeat' split
              all_goals rfl
            cases hy : appendNamesH h1 o1 (ps j) with
            | mk o2 e2 =>
              rw [hy] at hn
              dsimp only at hn
              cases e2 with
              | some e => exact ⟨g1, g2, by rw [hn, g3]; exact hm⟩
              | none =>
                dsimp only
                have k := spares_maskReset (x := x) (h := h1)
                  (o := { o2 with filenames := o2.filenames ++ (ps j).filenames }) (Nat.lt_of_lt_of_le hx g1)
                  (by show o2.mask ≠ x; rw [hn, g3]; exact hm)
                exact ⟨Nat.le_trans g1 k.nArrs, k.same.trans g2, k.mask⟩

/-- An array that is no mask, is not made one and not written to stays as it is and no mask. -/
theorem unwritten_step {E : NpEnv} {S : Store} {s : Hands} {op : HOp} {l : Nat} (hs : HandsOk s)
    (ho : SensibleH s op) (hl : l < s.world.heap.nArrs) (hm : ¬ IsMask s.world l)
    (hg : ¬ MakesMask l (.hands op)) (hw : ¬ Writes l s op) :
    (s.step E S op).1.world.heap.arrs l = s.world.heap.arrs l ∧ ¬ IsMask (s.step E S op).1.world l := by
  cases op with
  | world op =>
    cases op with
    | make d n =>
      obtain ⟨h', o', h1, h2, -, -, -, -, h3⟩ := make_step_mask (E := E) hs.inv ho
      show (s.world.step E (.make d n)).1.heap.arrs l = _ ∧ ¬ IsMask (s.world.step E (.make d n)).1 l
      rw [h1]
      refine ⟨h2.arrs l hl id, ?_⟩
      rintro ⟨j, hj, he⟩
      dsimp only at hj he
      by_cases e : j = s.world.n
      · rw [e, updAt_same] at he; omega
      · rw [updAt_ne _ _ e] at he
        exact hm ⟨j, by omega, he⟩
    | act i a =>
      have ho : i < s.world.n := ho.1
      have k := spares_act (E := E) (ps := s.world.packs) (o := s.world.packs i) i hl (fun e => hm ⟨i, ho, e⟩) hg
      refine ⟨k.same, ?_⟩
      rintro ⟨j, hj, he⟩
      have he : (updAt s.world.packs i ((s.world.packs i).act E s.world.packs s.world.heap a).2.1 j).mask = l := he
      by_cases e : j = i
      · rw [e, updAt_same] at he; exact k.mask he
      · rw [updAt_ne _ _ e] at he
        exact hm ⟨j, hj, he⟩
  | call i ch part nof =>
    unfold Hands.step
    dsimp only
    rcases call_cases s.world.heap (s.world.packs i) ch part nof with
      ⟨e, _, h2⟩ | ⟨a, _, _, h2⟩ | ⟨key, l', _, hl', _, h⟩
    · rw [h2]; exact ⟨rfl, hm⟩
    · rw [h2]; exact ⟨(newArr_keeps s.world.heap a).arrs l hl (fun h => h), hm⟩
    · rcases h with ⟨_, _, h2⟩ | ⟨_, st, _, _, _, h2⟩ <;> (rw [h2]; exact ⟨rfl, hm⟩)
  | maskOf i => exact ⟨rfl, hm⟩
  | sub k a b =>
    unfold Hands.step
    dsimp only
    split <;> exact ⟨rfl, hm⟩
  | write k i v =>
    unfold Hands.step
    dsimp only
    split
    · exact ⟨rfl, hm⟩
    · rename_i r hr
      have hne : l ≠ r.arr := fun e => hw ⟨r, hr, e.symm⟩
      rcases write_cases S s.world.heap r i v with ⟨e, h⟩ | ⟨j, x, _, _, h⟩
      · rw [h]; exact ⟨rfl, hm⟩
      · rw [h]; exact ⟨updAt_ne _ _ hne, hm⟩

/-- What comes into hand by a step is new, or was in a pack or in hand. -/
theorem inHand_step {E : NpEnv} {S : Store} {s : Hands} {op : HOp} (ho : SensibleH s op) (hs : HandsOk s)
    {r : Win} (hr : r ∈ (s.step E S op).1.held) : Known s r.arr ∨ s.world.heap.nArrs ≤ r.arr := by
  have old : r ∈ s.held → Known s r.arr := fun h => .inr (.inr ⟨r, h, rfl⟩)
  cases op with
  | world op => exact .inl (old hr)
  | call i ch part nof =>
    unfold Hands.step at hr
    dsimp only at hr
    rcases call_cases s.world.heap (s.world.packs i) ch part nof with
      ⟨e, _, h2⟩ | ⟨a, _, _, h2⟩ | ⟨key, l', _, hl', _, h⟩
    · rw [h2] at hr; exact .inl (old hr)
    · rw [h2] at hr
      rcases List.mem_append.1 hr with hr | hr
      · exact .inl (old hr)
      · rw [List.mem_singleton.1 hr]; exact .inr (Nat.le_refl _)
    · have hc : IsChannel s.world l' := ⟨_, hs.inv.data i ho, key, dget_mem hl'⟩
      rcases h with ⟨_, _, h2⟩ | ⟨_, st, _, _, _, h2⟩ <;>
      · rw [h2] at hr
        rcases List.mem_append.1 hr with hr | hr
        · exact .inl (old hr)
        · rw [List.mem_singleton.1 hr]; exact .inl (.inl hc)
  | maskOf i =>
    rcases List.mem_append.1 hr with hr | hr
    · exact .inl (old hr)
    · rw [List.mem_singleton.1 hr]; exact .inl (.inr (.inl ⟨i, ho, rfl⟩))
  | sub k a b =>
    unfold Hands.step at hr
    dsimp only at hr
    split at hr
    · exact .inl (old hr)
    · rename_i r' hr'
      rcases List.mem_append.1 hr with hr | hr
      · exact .inl (old hr)
      · rw [List.mem_singleton.1 hr]; exact .inl (.inr (.inr ⟨r', List.mem_of_getElem? hr', rfl⟩))
  | write k i v =>
    unfold Hands.step at hr
    dsimp only at hr
    split at hr <;> exact .inl (old hr)

theorem makesMask_gives {l : Nat} {op : HOp} (h : MakesMask l (.hands op)) : Gives l op := by
  cases op with
  | world op =>
    cases op with
    | make d n => exact h.elim
    | act i a => cases a <;> first | exact h | exact h.elim
  | _ => exact h.elim

/-- An array out of reach stays out of reach and as it is. -/
theorem unknown_step {E : NpEnv} {S : Store} {s : Hands} {op : HOp} {l : Nat} (hs : HandsOk s)
    (ho : SensibleH s op) (hk : ∀ l, Gives l op → Known s l) (hl : l < s.world.heap.nArrs) (hu : ¬ Known s l) :
    (s.step E S op).1.world.heap.arrs l = s.world.heap.arrs l ∧ ¬ Known (s.step E S op).1 l := by
  have hg : ¬ Gives l op := fun h => hu (hk l h)
  have hw : ¬ Writes l s op := by
    intro h
    cases op with
    | write k i v =>
      obtain ⟨r, h1, h2⟩ := h
      exact hu (.inr (.inr ⟨r, List.mem_of_getElem? h1, h2⟩))
    | _ => exact h
  have hm : ¬ IsMask s.world l := fun h => hu (.inr (.inl h))
  obtain ⟨a1, a2⟩ := private_step (E := E) (S := S) hs ho hg hl hm (fun h => hu (.inl h))
  refine ⟨private_same hs ho hg hw hl hm, ?_⟩
  rintro (h | h | ⟨r, hr, e⟩)
  · exact a2 h
  · exact a1 h
  · rcases inHand_step ho hs hr with h | h
    · rw [e] at h; exact hu h
    · omega

/-! ### The calls of a generator -/

/-- Nothing but new arrays. -/
structure Grown (h h' : Heap) : Prop where
  nArrs : h.nArrs ≤ h'.nArrs
  arrs : ∀ x, x < h.nArrs → h'.arrs x = h.arrs x
  dicts : h'.dicts = h.dicts
  nDicts : h'.nDicts = h.nDicts
  tabs : h'.tabs = h.tabs
  nTabs : h'.nTabs = h.nTabs

theorem Grown.refl (h : Heap) : Grown h h := ⟨Nat.le_refl _, fun _ _ => rfl, rfl, rfl, rfl, rfl⟩

theorem Grown.trans {a b c : Heap} (h : Grown a b) (k : Grown b c) : Grown a c :=
  ⟨Nat.le_trans h.nArrs k.nArrs, fun x hx => (k.arrs x (Nat.lt_of_lt_of_le hx h.nArrs)).trans (h.arrs x hx),
    k.dicts.trans h.dicts, k.nDicts.trans h.nDicts, k.tabs.trans h.tabs, k.nTabs.trans h.nTabs⟩

theorem grown_newArr (h : Heap) (a : Arr) : Grown h (h.newArr a).1 :=
  ⟨Nat.le_succ _, fun _ hx => updAt_ne _ _ (Nat.ne_of_lt hx), rfl, rfl, rfl, rfl⟩

/-- The arrays of the pack are there. -/
structure Refs (h : Heap) (o : PObj) : Prop where
  mask : o.mask < h.nArrs
  data : ∀ p ∈ h.dicts o.data, p.2 < h.nArrs

theorem Refs.grown {h h' : Heap} {o : PObj} (r : Refs h o) (g : Grown h h') : Refs h' o :=
  ⟨Nat.lt_of_lt_of_le r.mask g.nArrs, fun p hp => Nat.lt_of_lt_of_le (r.data p (g.dicts ▸ hp)) g.nArrs⟩

theorem now_grown {h h' : Heap} {o : PObj} (r : Refs h o) (g : Grown h h') : o.now h' = o.now h := by
  unfold PObj.now
  rw [g.dicts, g.tabs, g.arrs _ r.mask]
  congr 1
  apply List.map_congr_left
  intro p hp
  rw [g.arrs _ (r.data p hp)]

theorem read_grown {h h' : Heap} {w : Win} (hw : w.arr < h.nArrs) (g : Grown h h') : w.read h' = w.read h := by
  unfold Win.read
  rw [g.arrs _ hw]

/-- Where the arrays come from that a generator runs over. -/
def ColFrom (h h' : Heap) (o : PObj) (part : Option Int) (nof : Option String) (w : Win) : Prop :=
  w.arr < h'.nArrs ∧ ((Masking (o.now h) part nof ∧ h.nArrs ≤ w.arr) ∨
    (¬ Masking (o.now h) part nof ∧ ∃ key, dget (h.dicts o.data) key = some w.arr))

theorem callCols_spec (o : PObj) (part : Option Int) (nof : Option String) (ns : List (List Char)) :
    ∀ h : Heap, Refs h o → ∃ h', Grown h h' ∧
      ((∃ e, callAll (fun n => (o.now h).call (.str n) part nof) ns = .error e ∧
        callCols h o part nof ns = (h', .error e)) ∨
      ∃ ws : List Win, callAll (fun n => (o.now h).call (.str n) part nof) ns =
          .ok (ws.map fun w => (w.read h').els) ∧
        callCols h o part nof ns = (h', .ok ws) ∧ ∀ w ∈ ws, ColFrom h h' o part nof w) := by
  induction ns with
  | nil => exact fun h _ => ⟨h, .refl h, .inr ⟨[], rfl, rfl, fun _ hw => nomatch hw⟩⟩
  | cons n ns ih =>
    intro h hr
    -- the first call
    have one : (∃ e, (o.now h).call (.str n) part nof = .error e ∧ o.call h (.str n) part nof = (h, .error e)) ∨
        ∃ h1 w, Grown h h1 ∧ (o.now h).call (.str n) part nof = .ok (w.read h1) ∧
          o.call h (.str n) part nof = (h1, .ok w) ∧ ColFrom h h1 o part nof w := by
      rcases call_cases h o (.str n) part nof with
        ⟨e, h1, h2⟩ | ⟨a, h1, h3, h2⟩ | ⟨key, l, hk, hl, h3, h4⟩
      · exact .inl ⟨e, h1, h2⟩
      · refine .inr ⟨_, _, grown_newArr h a, ?_, h2, Nat.lt_succ_self _, .inl ⟨h3, Nat.le_refl _⟩⟩
        rw [h1]
        have : (h.newArr a).1.arrs h.nArrs = a := updAt_same _ _ _
        unfold Win.read
        dsimp only
        rw [this, List.drop_zero, List.take_length]
      · have hlt : l < h.nArrs := hr.data _ (dget_mem hl)
        rcases h4 with ⟨_, h1, h2⟩ | ⟨_, st, _, _, h1, h2⟩
        · exact .inr ⟨_, _, .refl h, by rw [h1, whole_read], h2, hlt, .inr ⟨h3, key, hl⟩⟩
        · exact .inr ⟨_, _, .refl h, by rw [h1, slice_read], h2, hlt, .inr ⟨h3, key, hl⟩⟩
    rw [callAll, callCols]
    rcases one with ⟨e, h1, h2⟩ | ⟨h1, w, g1, c1, c2, f1⟩
    · rw [h1, h2]
      exact ⟨h, .refl h, .inl ⟨e, rfl, rfl⟩⟩
    · rw [c1, c2]
      dsimp only
      obtain ⟨h2, g2, hh⟩ := ih h1 (hr.grown g1)
      rw [now_grown hr g1] at hh
      refine ⟨h2, g1.trans g2, ?_⟩
      rcases hh with ⟨e, d1, d2⟩ | ⟨ws, d1, d2, d3⟩
      · rw [d1, d2]; exact .inl ⟨e, rfl, rfl⟩
      · rw [d1, d2]
        refine .inr ⟨w :: ws, ?_, rfl, ?_⟩
        · dsimp only
          rw [List.map_cons, read_grown f1.1 g2]
        · intro x hx
          rcases List.mem_cons.1 hx with rfl | hx
          · exact ⟨Nat.lt_of_lt_of_le f1.1 g2.nArrs, f1.2⟩
          · obtain ⟨p1, p2⟩ := d3 x hx
            refine ⟨p1, ?_⟩
            rw [now_grown hr g1, g1.dicts] at p2
            exact p2.imp (fun q => ⟨q.1, Nat.le_trans g1.nArrs q.2⟩) id

theorem rowAt_zip (h : Heap) (pos : Nat) (ws : List Win) (hne : ws ≠ []) :
    rowAt h pos ws = (zipCols (ws.map fun w => (w.read h).els))[pos]? := by
  induction ws with
  | nil => exact absurd rfl hne
  | cons w ws ih =>
    cases ws with
    | nil =>
      simp only [rowAt, List.map_cons, List.map_nil, zipCols, List.getElem?_map]
      cases (w.read h).els[pos]? <;> rfl
    | cons w' ws =>
      rw [rowAt, ih (by simp)]
      simp only [List.map_cons]
      rw [zipCols_cons2, List.getElem?_zipWith]
      cases (w.read h).els[pos]? <;> cases (zipCols _)[pos]? <;> rfl

/-- One turn, by the records that the arrays make now. -/
theorem turn_spec (h : Heap) (ns : List (List Char)) (ws : List Win) (pos : Nat) :
    (turn h ns ws pos).2 = expected (.ok (ns, zipCols (ws.map fun w => (w.read h).els))) pos ∧
    ((turn h ns ws pos).1 = .done ∧ (zipCols (ws.map fun w => (w.read h).els)).length ≤ pos ∨
      (turn h ns ws pos).1 = .running ns ws (pos + 1)) := by
  unfold turn
  cases ws with
  | nil => exact ⟨rfl, .inl ⟨rfl, Nat.zero_le _⟩⟩
  | cons w ws =>
    have := rowAt_zip h pos (w :: ws) (by simp)
    cases hr : rowAt h pos (w :: ws) with
    | none =>
      rw [hr] at this
      refine ⟨?_, .inl ⟨rfl, List.getElem?_eq_none_iff.1 this.symm⟩⟩
      unfold expected
      dsimp only
      rw [← this]
    | some row =>
      rw [hr] at this
      refine ⟨?_, .inr rfl⟩
      unfold expected
      dsimp only
      rw [← this]

/-! ### States of programs -/

/-- Packs and arrays in hand are in order, and generators belong to packs. -/
structure GOk (s : GHands) : Prop where
  hands : HandsOk s.hands
  gens : ∀ i part nof fb, Gen.made i part nof fb ∈ s.gens → i < s.hands.world.n

theorem HandsOk.refs {s : Hands} (hs : HandsOk s) {i : Nat} (hi : i < s.world.n) :
    Refs s.world.heap (s.world.packs i) :=
  ⟨(hs.inv.pack hi).mask, fun p hp => (hs.inv.dicts.arr _ (hs.inv.data i hi) p hp).1⟩

theorem HandsOk.grown {s : Hands} (hs : HandsOk s) {h : Heap} (g : Grown s.world.heap h) :
    HandsOk ⟨{ s.world with heap := h }, s.held⟩ := by
  refine ⟨⟨⟨fun d hd p hp => ?_, fun d hd => ?_, ?_⟩, fun i hi => ?_, fun i hi => ?_, hs.inv.masks⟩,
    fun r hr => Nat.lt_of_lt_of_le (hs.held r hr) g.nArrs⟩
  · have hd : d < s.world.heap.nDicts := by rw [← g.nDicts]; exact hd
    have hp : p ∈ s.world.heap.dicts d := by rw [← g.dicts]; exact hp
    obtain ⟨a, b⟩ := hs.inv.dicts.arr d hd p hp
    exact ⟨Nat.lt_of_lt_of_le a g.nArrs, b⟩
  · have hd : d < s.world.heap.nDicts := by rw [← g.nDicts]; exact hd
    show (dkeys (h.dicts d)).Nodup
    rw [g.dicts]; exact hs.inv.dicts.keys d hd
  · exact fun l hl => Nat.lt_of_lt_of_le (hs.inv.dicts.masks l hl) g.nArrs
  · show _ < h.nDicts
    rw [g.nDicts]; exact hs.inv.data i hi
  · show _ < h.nTabs
    rw [g.nTabs]; exact hs.inv.names i hi

/-- `next` does nothing to the heap but for new arrays. -/
theorem next_grown (ident : List Char → Bool) {s : Hands} (hs : HandsOk s) (g : Gen)
    (hg : ∀ i part nof fb, g = .made i part nof fb → i < s.world.n) :
    Grown s.world.heap (g.next ident s.world.packs s.world.heap).1 := by
  cases g with
  | done => exact .refl _
  | running ns ws pos => exact .refl _
  | made i part nof fb =>
    unfold Gen.next
    dsimp only
    cases ((s.world.packs i).now s.world.heap).recordNames fb with
    | none => exact .refl _
    | some ns =>
      dsimp only
      split
      · obtain ⟨h', g1, h1 | h1⟩ := callCols_spec (s.world.packs i) part nof ns s.world.heap (hs.refs (hg _ _ _ _ rfl))
        · obtain ⟨e, -, h2⟩ := h1; rw [h2]; exact g1
        · obtain ⟨ws, -, h2, -⟩ := h1; rw [h2]; exact g1
      · exact .refl _

theorem next_not_made (ident : List Char → Bool) (ps : Nat → PObj) (h : Heap) (g : Gen) (i : Nat)
    (part : Option Int) (nof : Option String) (fb : Bool) : (g.next ident ps h).2.1 ≠ .made i part nof fb := by
  have ht : ∀ h ns ws pos, (turn h ns ws pos).1 ≠ .made i part nof fb := by
    intro h ns ws pos
    unfold turn
    split <;> simp
  unfold Gen.next
  split
  · simp
  · exact ht _ _ _ _
  · split
    · simp
    · split
      · split
        · simp
        · exact ht _ _ _ _
      · simp

theorem gOk_step {E : NpEnv} {S : Store} {ident : List Char → Bool} {s : GHands} {op : GOp} (hs : GOk s)
    (ho : SensibleG s op) : GOk (s.step E S ident op).1 ∧
      s.hands.world.heap.nArrs ≤ (s.step E S ident op).1.hands.world.heap.nArrs ∧
      s.hands.world.n ≤ (s.step E S ident op).1.hands.world.n := by
  cases op with
  | hands op =>
    obtain ⟨a, b, c⟩ := handsOk_step (E := E) (S := S) hs.hands ho.1
    exact ⟨⟨a, fun i p n f h => Nat.lt_of_lt_of_le (hs.gens i p n f h) c⟩, b, c⟩
  | records i part nof fb =>
    refine ⟨⟨hs.hands, fun i' p n f h => ?_⟩, Nat.le_refl _, Nat.le_refl _⟩
    rcases List.mem_append.1 h with h | h
    · exact hs.gens i' p n f h
    · have := List.mem_singleton.1 h
      cases this
      exact ho
  | next g =>
    unfold GHands.step
    dsimp only
    cases hg : s.gens[g]? with
    | none => exact ⟨hs, Nat.le_refl _, Nat.le_refl _⟩
    | some gen =>
      have k := next_grown ident hs.hands gen (fun i p n f e => hs.gens i p n f (e ▸ List.mem_of_getElem? hg))
      refine ⟨⟨hs.hands.grown k, fun i p n f h => ?_⟩, k.nArrs, Nat.le_refl _⟩
      rcases List.mem_or_eq_of_mem_set h with h | h
      · exact hs.gens i p n f h
      · exact absurd h.symm (next_not_made _ _ _ _ _ _ _ _)

theorem gPrograms_ok {E : NpEnv} {S : Store} {ident : List Char → Bool} {s : GHands} (h : GPrograms E S ident s) :
    GOk s := by
  induction h with
  | start => exact ⟨⟨winv_empty, fun r hr => (nomatch hr)⟩, fun _ _ _ _ h => (nomatch h)⟩
  | next _ ho ih => exact (gOk_step ih ho).1

end CP
