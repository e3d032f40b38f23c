import Verif.Spec.World
import Verif.Lemmas.Dict
/-!
# Packs in a heap
-/

namespace CP
open Spec

@[simp] theorem updAt_same {α : Type} (f : Nat → α) (l : Nat) (a : α) : updAt f l a l = a := by simp [updAt]
theorem updAt_ne {α : Type} (f : Nat → α) {l l' : Nat} (a : α) (h : l' ≠ l) : updAt f l a l' = f l' := by
  simp [updAt, h]

/-- What was there is there still, apart from the arrays in `A`, the data dicts in
`D` and the names dicts in `T`. -/
structure Keeps (h h' : Heap) (A D T : Nat → Prop) : Prop where
  nArrs : h.nArrs ≤ h'.nArrs
  nDicts : h.nDicts ≤ h'.nDicts
  nTabs : h.nTabs ≤ h'.nTabs
  arrs : ∀ l, l < h.nArrs → ¬ A l → h'.arrs l = h.arrs l
  dicts : ∀ l, l < h.nDicts → ¬ D l → h'.dicts l = h.dicts l
  tabs : ∀ l, l < h.nTabs → ¬ T l → h'.tabs l = h.tabs l

abbrev Nowhere : Nat → Prop := fun _ => False

theorem Keeps.refl (h : Heap) (A D T : Nat → Prop) : Keeps h h A D T :=
  ⟨Nat.le_refl _, Nat.le_refl _, Nat.le_refl _, fun _ _ _ => rfl, fun _ _ _ => rfl, fun _ _ _ => rfl⟩

theorem Keeps.trans {h₁ h₂ h₃ : Heap} {A D T A' D' T' : Nat → Prop} (a : Keeps h₁ h₂ A D T)
    (b : Keeps h₂ h₃ A' D' T') (ha : ∀ l, l < h₁.nArrs → A' l → A l)
    (hd : ∀ l, l < h₁.nDicts → D' l → D l) (ht : ∀ l, l < h₁.nTabs → T' l → T l) :
    Keeps h₁ h₃ A D T := by
  have := a.nArrs
  have := a.nDicts
  have := a.nTabs
  refine ⟨Nat.le_trans a.nArrs b.nArrs, Nat.le_trans a.nDicts b.nDicts,
    Nat.le_trans a.nTabs b.nTabs, ?_, ?_, ?_⟩
  · intro l hl hn
    rw [b.arrs l (by omega) (fun h => hn (ha l hl h)), a.arrs l hl hn]
  · intro l hl hn
    rw [b.dicts l (by omega) (fun h => hn (hd l hl h)), a.dicts l hl hn]
  · intro l hl hn
    rw [b.tabs l (by omega) (fun h => hn (ht l hl h)), a.tabs l hl hn]

theorem Keeps.mono {h₁ h₂ : Heap} {A D T A' D' T' : Nat → Prop} (a : Keeps h₁ h₂ A D T)
    (ha : ∀ l, l < h₁.nArrs → A l → A' l)
    (hd : ∀ l, l < h₁.nDicts → D l → D' l) (ht : ∀ l, l < h₁.nTabs → T l → T' l) :
    Keeps h₁ h₂ A' D' T' :=
  (Keeps.refl h₁ A' D' T').trans a ha hd ht

/-- The dicts are in order; `N` are the arrays that are masks of other packs. -/
structure DInv (h : Heap) (N : Nat → Prop) : Prop where
  arr : ∀ d, d < h.nDicts → ∀ p ∈ h.dicts d, p.2 < h.nArrs ∧ ¬ N p.2
  keys : ∀ d, d < h.nDicts → (dkeys (h.dicts d)).Nodup
  masks : ∀ l, N l → l < h.nArrs

/-- A pack is in order, and its mask its own. -/
structure HInv (h : Heap) (N : Nat → Prop) (o : PObj) : Prop extends DInv h N where
  data : o.data < h.nDicts
  names : o.names < h.nTabs
  mask : o.mask < h.nArrs
  maskN : ¬ N o.mask
  own : ∀ d, d < h.nDicts → ∀ p ∈ h.dicts d, p.2 ≠ o.mask

theorem toMask_falsify (a : Arr) (st : Nat × Nat) :
    (falsifyArr a st).toMask = { a.toMask with bits := falsify a.toMask.bits st } := by
  have hf : ∀ k, truthy (falseOf k) = false := by intro k; cases k <;> simp [falseOf, truthy]
  unfold falsifyArr Arr.toMask falsify
  simp only [Mask.mk.injEq, true_and]
  apply List.ext_getElem?
  intro i
  simp only [List.getElem?_map, List.getElem?_mapIdx]
  cases a.els[i]? with
  | none => rfl
  | some v =>
    simp only [Option.map_some]
    split
    · simp [hf]
    · rfl

theorem toMask_durationArr (req : Int) (m : Bool) (a : Arr) (sc : Nat × Nat) :
    (durationArr req m a sc).toMask =
      { a.toMask with bits := durationStep req m a.toMask.bits sc } := by
  unfold durationArr durationStep
  dsimp only
  split
  · exact toMask_falsify a sc
  · split
    · exact toMask_falsify a sc
    · rfl

theorem toMask_fold (req : Int) (m : Bool) (cs : List (Nat × Nat)) (a : Arr) :
    (cs.foldl (durationArr req m) a).toMask =
      { a.toMask with bits := cs.foldl (durationStep req m) a.toMask.bits } := by
  induction cs generalizing a with
  | nil => rfl
  | cons c cs ih => simp only [List.foldl_cons, ih, toMask_durationArr]

/-- Views depend on the objects of the pack only. -/
theorem view_keeps {h h' : Heap} {A D T : Nat → Prop} (k : Keeps h h' A D T) {o : PObj}
    (hd : o.data < h.nDicts) (ht : o.names < h.nTabs) (hm : o.mask < h.nArrs)
    (ha : ∀ p ∈ h.dicts o.data, p.2 < h.nArrs ∧ ¬ A p.2) (hD : ¬ D o.data) (hT : ¬ T o.names)
    (hA : ¬ A o.mask) : view h' o = view h o := by
  unfold view
  rw [k.dicts _ hd hD, k.tabs _ ht hT, k.arrs _ hm hA]
  congr 1
  apply List.map_congr_left
  intro p hp
  obtain ⟨h1, h2⟩ := ha p hp
  rw [k.arrs _ h1 h2]

theorem duration_ok {h : Heap} {N : Nat → Prop} {o : PObj} (hi : HInv h N o) (q : Rat) (m : Bool) :
    HInv (o.duration h q m).1 N (o.duration h q m).2 ∧
    view (o.duration h q m).1 (o.duration h q m).2 = (view h o).duration q m ∧
    Keeps h (o.duration h q m).1 (· = o.mask) Nowhere Nowhere ∧
    (o.duration h q m).2 = { o with cached := (o.duration h q m).2.cached } := by
  refine ⟨?_, ?_, ?_, rfl⟩
  · exact ⟨⟨hi.arr, hi.keys, hi.masks⟩, hi.data, hi.names, hi.mask, hi.maskN, hi.own⟩
  · unfold PObj.duration view Pack.duration
    dsimp only
    simp only [updAt_same, toMask_fold]
    congr 1
    apply List.map_congr_left
    intro p hp
    rw [updAt_ne _ _ (hi.own _ hi.data p hp)]
  · refine ⟨Nat.le_refl _, Nat.le_refl _, Nat.le_refl _, ?_, fun _ _ _ => rfl, fun _ _ _ => rfl⟩
    intro l _ hn
    exact updAt_ne _ _ hn

theorem applyMindur_ok {h : Heap} {N : Nat → Prop} {o : PObj} (hi : HInv h N o) :
    HInv (o.applyMindur h).1 N (o.applyMindur h).2 ∧
    view (o.applyMindur h).1 (o.applyMindur h).2 = (view h o).applyMindur ∧
    Keeps h (o.applyMindur h).1 (· = o.mask) Nowhere Nowhere ∧
    (o.applyMindur h).2 = { o with cached := (o.applyMindur h).2.cached } := by
  cases hm : o.mindur with
  | none =>
    have e1 : o.applyMindur h = (h, o) := by unfold PObj.applyMindur; rw [hm]
    have e2 : (view h o).applyMindur = view h o := by
      unfold Pack.applyMindur
      rw [show (view h o).mindur = none from hm]
    rw [e1, e2]
    refine ⟨hi, rfl, Keeps.refl _ _ _ _, ?_⟩
    cases o
    simp_all
  | some m =>
    have e1 : o.applyMindur h = o.duration h m true := by unfold PObj.applyMindur; rw [hm]
    have e2 : (view h o).applyMindur = (view h o).duration m true := by
      unfold Pack.applyMindur
      rw [show (view h o).mindur = some m from hm]
    rw [e1, e2]
    have := duration_ok hi m true
    rw [hm] at this
    exact this

theorem setMask_ok {h : Heap} {N : Nat → Prop} {o : PObj} (hi : DInv h N) (hd : o.data < h.nDicts)
    (ht : o.names < h.nTabs) {l : Nat} (hl : l < h.nArrs) (hN : ¬ N l)
    (ho : ∀ d, d < h.nDicts → ∀ p ∈ h.dicts d, p.2 ≠ l) :
    HInv (o.setMask h l).1 N (o.setMask h l).2 ∧
    view (o.setMask h l).1 (o.setMask h l).2 = (view h o).setMask (h.arrs l).toMask ∧
    Keeps h (o.setMask h l).1 (· = l) Nowhere Nowhere ∧
    (o.setMask h l).2 = { o with mask := l, cached := (o.setMask h l).2.cached } :=
  applyMindur_ok (o := { o with mask := l, cached := slicelist (h.arrs l).toMask.bits })
    ⟨hi, hd, ht, hl, hN, ho⟩

theorem newArr_keeps (h : Heap) (a : Arr) : Keeps h (h.newArr a).1 Nowhere Nowhere Nowhere := by
  refine ⟨Nat.le_succ _, Nat.le_refl _, Nat.le_refl _, ?_, fun _ _ _ => rfl, fun _ _ _ => rfl⟩
  intro l hl _
  exact updAt_ne _ _ (by omega)

theorem newArr_dinv {h : Heap} {N : Nat → Prop} (hi : DInv h N) (a : Arr) : DInv (h.newArr a).1 N := by
  refine ⟨fun d hd p hp => ?_, hi.keys, fun l hl => Nat.lt_succ_of_lt (hi.masks l hl)⟩
  obtain ⟨h1, h2⟩ := hi.arr d hd p hp
  exact ⟨Nat.lt_succ_of_lt h1, h2⟩

/-- A fresh array as the mask. -/
theorem setNew_ok {h : Heap} {N : Nat → Prop} {o : PObj} (hi : DInv h N) (hd : o.data < h.nDicts)
    (ht : o.names < h.nTabs) (a : Arr) :
    HInv (o.setMask (h.newArr a).1 (h.newArr a).2).1 N (o.setMask (h.newArr a).1 (h.newArr a).2).2 ∧
    view (o.setMask (h.newArr a).1 (h.newArr a).2).1 (o.setMask (h.newArr a).1 (h.newArr a).2).2 =
      (view h o).setMask a.toMask ∧
    Keeps h (o.setMask (h.newArr a).1 (h.newArr a).2).1 Nowhere Nowhere Nowhere ∧
    (o.setMask (h.newArr a).1 (h.newArr a).2).2 =
      { o with mask := h.nArrs, cached := (o.setMask (h.newArr a).1 (h.newArr a).2).2.cached } := by
  obtain ⟨h1, h2, h3, h4⟩ := setMask_ok (o := o) (newArr_dinv hi a) hd ht (l := h.nArrs)
    (Nat.lt_succ_self _) (fun hN => absurd (hi.masks _ hN) (Nat.lt_irrefl _))
    (fun d hd p hp he => by
      have := (hi.arr d hd p hp).1
      omega)
  refine ⟨h1, ?_, ?_, h4⟩
  · have e : (h.newArr a).1.arrs h.nArrs = a := updAt_same _ _ _
    rw [e] at h2
    refine h2.trans ?_
    have ev : ∀ m : Mask, { view (h.newArr a).1 o with mask := m } = { view h o with mask := m } := by
      intro m
      unfold view
      have e : (h.newArr a).1.dicts = h.dicts := rfl
      have e' : (h.newArr a).1.tabs = h.tabs := rfl
      rw [e, e']
      dsimp only
      congr 1
      apply List.map_congr_left
      intro p hp
      have := (hi.arr _ hd p hp).1
      rw [(newArr_keeps h a).arrs _ this (fun h => h)]
    unfold Pack.setMask
    have := congrArg (fun p : Pack => { p with cached := slicelist a.toMask.bits }) (ev a.toMask)
    exact congrArg Pack.applyMindur this
  · exact (newArr_keeps h a).trans h3 (fun l hl he => by omega) (fun _ _ h => h) (fun _ _ h => h)

theorem dkeys_map {κ ν μ : Type} (d : List (κ × ν)) (f : κ × ν → μ) :
    dkeys (d.map fun p => (p.1, f p)) = dkeys d := by simp [dkeys, List.map_map, Function.comp_def]

theorem dget_map {ν μ : Type} (d : List (Int × ν)) (f : ν → μ) (k : Int) :
    dget (d.map fun p => (p.1, f p.2)) k = (dget d k).map f := by
  induction d with
  | nil => rfl
  | cons p d ih =>
    simp only [List.map_cons, dget]
    split <;> simp [ih]

theorem dset_map {ν μ : Type} (d : List (Int × ν)) (f : ν → μ) (k : Int) (v : ν) :
    (dset d k v).map (fun p => (p.1, f p.2)) = dset (d.map fun p => (p.1, f p.2)) k (f v) := by
  induction d with
  | nil => rfl
  | cons p d ih =>
    obtain ⟨k', v'⟩ := p
    simp only [List.map_cons, dset]
    split <;> simp [ih]

theorem dictOf_map {ν μ : Type} (d : List (Int × ν)) (f : ν → μ) :
    (dictOf d).map (fun p => (p.1, f p.2)) = dictOf (d.map fun p => (p.1, f p.2)) := by
  have : ∀ (l : List (Int × ν)) (acc : List (Int × ν)),
      (dupdate acc l).map (fun p => (p.1, f p.2)) =
        dupdate (acc.map fun p => (p.1, f p.2)) (l.map fun p => (p.1, f p.2)) := by
    intro l
    induction l with
    | nil => intro acc; rfl
    | cons p l ih =>
      intro acc
      have h1 := ih (dset acc p.1 p.2)
      rw [dset_map] at h1
      exact h1
  exact this d []

theorem maskReset_ok {h : Heap} {N : Nat → Prop} {o : PObj} (hi : DInv h N) (hd : o.data < h.nDicts)
    (ht : o.names < h.nTabs) :
    HInv (o.maskReset h).1 N (o.maskReset h).2 ∧
    view (o.maskReset h).1 (o.maskReset h).2 = (view h o).maskReset ∧
    Keeps h (o.maskReset h).1 Nowhere Nowhere Nowhere ∧
    (o.maskReset h).2 = { o with mask := h.nArrs, cached := (o.maskReset h).2.cached } := by
  have hk : dkeys (view h o).data = dkeys (h.dicts o.data) := dkeys_map _ _
  have hg : ∀ k, dget (view h o).data k = (dget (h.dicts o.data) k).map h.arrs :=
    fun k => dget_map _ _ k
  cases hs : sortInts (dkeys (h.dicts o.data)) with
  | nil =>
    have e1 : o.maskReset h = o.setMask (h.newArr ⟨.f, []⟩).1 (h.newArr ⟨.f, []⟩).2 := by
      unfold PObj.maskReset; rw [hs]
    have e2 : (view h o).maskReset = (view h o).setMask ⟨false, []⟩ := by
      unfold Pack.maskReset; rw [hk, hs]
    rw [e1, e2]
    exact setNew_ok (o := o) hi hd ht ⟨.f, []⟩
  | cons k ks =>
    have hmem : k ∈ dkeys (h.dicts o.data) := by
      rw [← mem_sortInts, hs]; exact List.mem_cons_self
    obtain ⟨l, hl⟩ := Option.isSome_iff_exists.1 (dget_isSome.2 hmem)
    have e1 : o.maskReset h =
        o.setMask (h.newArr ⟨.b, (h.arrs l).els.map fun v => .bool (selfEq v)⟩).1
          (h.newArr ⟨.b, (h.arrs l).els.map fun v => .bool (selfEq v)⟩).2 := by
      unfold PObj.maskReset; rw [hs]; dsimp only; rw [hl]
    have e2 : (view h o).maskReset = (view h o).setMask ⟨true, (h.arrs l).els.map selfEq⟩ := by
      unfold Pack.maskReset; rw [hk, hs]; dsimp only; rw [hg, hl]; rfl
    rw [e1, e2]
    have := setNew_ok (o := o) hi hd ht ⟨.b, (h.arrs l).els.map fun v => .bool (selfEq v)⟩
    refine ⟨this.1, ?_, this.2.2⟩
    rw [this.2.1]
    congr 1
    simp [Arr.toMask, truthy, Function.comp_def]

/-- The masks of the others and the one of the pack. -/
abbrev WithMask (N : Nat → Prop) (o : PObj) : Nat → Prop := fun l => N l ∨ l = o.mask

theorem HInv.all {h : Heap} {N : Nat → Prop} {o : PObj} (hi : HInv h N o) :
    DInv h (WithMask N o) := by
  refine ⟨fun d hd p hp => ⟨(hi.arr d hd p hp).1, ?_⟩, hi.keys, ?_⟩
  · rintro (h1 | h1)
    · exact (hi.arr d hd p hp).2 h1
    · exact hi.own d hd p hp h1
  · rintro l (h1 | h1)
    · exact hi.masks l h1
    · rw [h1]; exact hi.mask

theorem HInv.of {h : Heap} {N : Nat → Prop} {o : PObj} (hi : DInv h (WithMask N o))
    (hd : o.data < h.nDicts) (ht : o.names < h.nTabs) (hN : ¬ N o.mask) : HInv h N o := by
  refine ⟨⟨fun d hd p hp => ⟨(hi.arr d hd p hp).1, fun h1 => (hi.arr d hd p hp).2 (.inl h1)⟩,
    hi.keys, fun l hl => hi.masks l (.inl hl)⟩, hd, ht, hi.masks _ (.inr rfl), hN, ?_⟩
  exact fun d hd p hp h1 => (hi.arr d hd p hp).2 (.inr h1)

/-- The arrays of a data dict. -/
def dataView (h : Heap) (d : Nat) : List (Int × Arr) := (h.dicts d).map fun p => (p.1, h.arrs p.2)

/-- An array that can be put into a dict. -/
def SrcOk (h : Heap) (N : Nat → Prop) : Src → Prop
  | .new _ => True
  | .old l => l < h.nArrs ∧ ¬ N l

theorem take_ok {h : Heap} {N : Nat → Prop} (hi : DInv h N) {s : Src} (hs : SrcOk h N s) :
    DInv (s.take h).1 N ∧ Keeps h (s.take h).1 Nowhere Nowhere Nowhere ∧
    (s.take h).2 < (s.take h).1.nArrs ∧ ¬ N (s.take h).2 ∧
    (s.take h).1.arrs (s.take h).2 = srcValue h s ∧
    (s.take h).1.dicts = h.dicts ∧ (s.take h).1.nDicts = h.nDicts ∧
    (s.take h).1.tabs = h.tabs ∧ (s.take h).1.nTabs = h.nTabs := by
  cases s with
  | new a =>
    refine ⟨newArr_dinv hi a, newArr_keeps h a, Nat.lt_succ_self _, ?_, updAt_same _ _ _,
      rfl, rfl, rfl, rfl⟩
    exact fun hN => absurd (hi.masks _ hN) (Nat.lt_irrefl _)
  | old l => exact ⟨hi, Keeps.refl _ _ _ _, hs.1, hs.2, rfl, rfl, rfl, rfl, rfl⟩

theorem srcOk_keeps {h h' : Heap} {N : Nat → Prop} {s : Src} {A D T : Nat → Prop}
    (k : Keeps h h' A D T) (hs : SrcOk h N s) : SrcOk h' N s := by
  cases s with
  | new a => trivial
  | old l => exact ⟨Nat.lt_of_lt_of_le hs.1 k.nArrs, hs.2⟩

theorem takeAll_ok {N : Nat → Prop} (d : List (Int × Src)) : ∀ {h : Heap} (_ : DInv h N)
    (_ : ∀ p ∈ d, SrcOk h N p.2),
    DInv (takeAll h d).1 N ∧ Keeps h (takeAll h d).1 Nowhere Nowhere Nowhere ∧
    (∀ p ∈ (takeAll h d).2, p.2 < (takeAll h d).1.nArrs ∧ ¬ N p.2) ∧
    (takeAll h d).2.map (fun p => (p.1, (takeAll h d).1.arrs p.2)) =
      d.map (fun p => (p.1, srcValue h p.2)) ∧
    (takeAll h d).1.nDicts = h.nDicts ∧ (takeAll h d).1.nTabs = h.nTabs := by
  induction d with
  | nil =>
    intro h hi _
    exact ⟨hi, Keeps.refl _ _ _ _, by simp [takeAll], rfl, rfl, rfl⟩
  | cons q d ih =>
    obtain ⟨k, s⟩ := q
    intro h hi hs
    obtain ⟨t1, t2, t3, t4, t5, -, t6, -, t7⟩ := take_ok hi (hs (k, s) List.mem_cons_self)
    obtain ⟨i1, i2, i3, i4, i5, i6⟩ := ih t1 (fun p hp => srcOk_keeps t2 (hs p (List.mem_cons_of_mem _ hp)))
    have e : takeAll h ((k, s) :: d) = ((takeAll (s.take h).1 d).1, (k, (s.take h).2) :: (takeAll (s.take h).1 d).2) := rfl
    rw [e]
    refine ⟨i1, t2.trans i2 (fun _ _ h => h) (fun _ _ h => h) (fun _ _ h => h), ?_, ?_,
      i5.trans t6, i6.trans t7⟩
    · intro p hp
      rcases List.mem_cons.1 hp with rfl | hp
      · exact ⟨Nat.lt_of_lt_of_le t3 i2.nArrs, t4⟩
      · exact i3 p hp
    · simp only [List.map_cons, i4, List.cons.injEq, Prod.mk.injEq, true_and]
      refine ⟨?_, ?_⟩
      · rw [i2.arrs _ t3 (fun h => h), t5]
      · apply List.map_congr_left
        intro p hp
        congr 1
        cases hp2 : p.2 with
        | new a => rfl
        | old l =>
          have := hs p (List.mem_cons_of_mem _ hp)
          rw [hp2] at this
          exact t2.arrs l this.1 (fun h => h)

theorem nodup_dictOf {ν : Type} (d : List (Int × ν)) : (dkeys (dictOf d)).Nodup := by
  have : ∀ (l acc : List (Int × ν)), (dkeys acc).Nodup → (dkeys (dupdate acc l)).Nodup := by
    intro l
    induction l with
    | nil => intro acc h; exact h
    | cons p l ih => intro acc h; exact ih _ (nodup_dset h _ _)
  exact this d [] (by simp [dkeys])

theorem mem_dset_or {ν : Type} {d : List (Int × ν)} {k : Int} {v : ν} {p : Int × ν}
    (h : p ∈ dset d k v) : p ∈ d ∨ p.2 = v := by
  induction d with
  | nil => simp [dset] at h; simp [h]
  | cons q d ih =>
    unfold dset at h
    split at h
    · rcases List.mem_cons.1 h with h | h
      · right; rw [h]
      · left; exact List.mem_cons_of_mem _ h
    · rcases List.mem_cons.1 h with h | h
      · left; rw [h]; exact List.mem_cons_self
      · rcases ih h with h | h
        · left; exact List.mem_cons_of_mem _ h
        · right; exact h

theorem mem_dictOf {ν : Type} {d : List (Int × ν)} {p : Int × ν}
    (h : p ∈ dictOf d) : ∃ q ∈ d, q.2 = p.2 := by
  have : ∀ (l acc : List (Int × ν)), p ∈ dupdate acc l → p ∈ acc ∨ ∃ q ∈ l, q.2 = p.2 := by
    intro l
    induction l with
    | nil => intro acc h; exact .inl h
    | cons q l ih =>
      intro acc h
      rcases ih _ h with h | ⟨q', h1, h2⟩
      · rcases mem_dset_or h with h | h
        · exact .inl h
        · exact .inr ⟨q, List.mem_cons_self, h.symm⟩
      · exact .inr ⟨q', List.mem_cons_of_mem _ h1, h2⟩
  rcases this d [] h with h | h
  · simp at h
  · exact h

theorem newDict_dinv {h : Heap} {N : Nat → Prop} (hi : DInv h N) {d : List (Int × Nat)}
    (ha : ∀ p ∈ d, p.2 < h.nArrs ∧ ¬ N p.2) (hn : (dkeys d).Nodup) : DInv (h.newDict d).1 N := by
  refine ⟨fun l hl p hp => ?_, fun l hl => ?_, hi.masks⟩
  · by_cases e : l = h.nDicts
    · subst e
      have e : (h.newDict d).1.dicts h.nDicts = d := updAt_same _ _ _
      rw [e] at hp
      exact ha p hp
    · have e2 : (h.newDict d).1.dicts l = h.dicts l := updAt_ne _ _ e
      rw [e2] at hp
      have hl : l < h.nDicts + 1 := hl
      exact hi.arr l (by omega) p hp
  · by_cases e : l = h.nDicts
    · subst e
      have e : (h.newDict d).1.dicts h.nDicts = d := updAt_same _ _ _
      rw [e]
      exact hn
    · have e2 : (h.newDict d).1.dicts l = h.dicts l := updAt_ne _ _ e
      rw [e2]
      have hl : l < h.nDicts + 1 := hl
      exact hi.keys l (by omega)

theorem newNpDict_ok {h : Heap} {N : Nat → Prop} (hi : DInv h N) {d : List (Int × Src)}
    (hs : ∀ p ∈ d, SrcOk h N p.2) :
    DInv (newNpDict h d).1 N ∧ Keeps h (newNpDict h d).1 Nowhere Nowhere Nowhere ∧
    (newNpDict h d).2 = h.nDicts ∧ h.nDicts < (newNpDict h d).1.nDicts ∧
    dataView (newNpDict h d).1 h.nDicts = dictOf (d.map fun p => (p.1, srcValue h p.2)) := by
  obtain ⟨t1, t2, t3, t4, t5, t6⟩ := takeAll_ok d hi hs
  have e : newNpDict h d = (takeAll h d).1.newDict (dictOf (takeAll h d).2) := rfl
  rw [e]
  refine ⟨newDict_dinv t1 ?_ (nodup_dictOf _), ⟨t2.nArrs, Nat.le_succ_of_le t2.nDicts, t2.nTabs, t2.arrs, ?_, t2.tabs⟩,
    t5, ?_, ?_⟩
  · intro p hp
    obtain ⟨q, hq, e⟩ := mem_dictOf hp
    rw [← e]
    exact t3 q hq
  · intro l hl hD
    have e2 : ((takeAll h d).1.newDict (dictOf (takeAll h d).2)).1.dicts l = (takeAll h d).1.dicts l :=
      updAt_ne _ _ (by omega)
    rw [e2, t2.dicts l hl hD]
  · show h.nDicts < (takeAll h d).1.nDicts + 1
    omega
  · rw [← t5, ← t4, ← dictOf_map]
    unfold dataView
    have e2 : ((takeAll h d).1.newDict (dictOf (takeAll h d).2)).1.dicts (takeAll h d).1.nDicts =
      dictOf (takeAll h d).2 := updAt_same _ _ _
    rw [e2]
    rfl

theorem dget_dataView (h : Heap) (d : Nat) (k : Int) :
    dget (dataView h d) k = (dget (h.dicts d) k).map h.arrs := dget_map _ _ k

/-- Storing one array in a dict. -/
theorem setItem_ok {h : Heap} {N : Nat → Prop} (hi : DInv h N) {d : Nat} {l : Nat}
    (k : Int) (hl : l < h.nArrs) (hN : ¬ N l) :
    DInv { h with dicts := updAt h.dicts d (dset (h.dicts d) k l) } N ∧
    Keeps h { h with dicts := updAt h.dicts d (dset (h.dicts d) k l) } Nowhere (· = d) Nowhere ∧
    dataView { h with dicts := updAt h.dicts d (dset (h.dicts d) k l) } d =
      dset (dataView h d) k (h.arrs l) := by
  refine ⟨⟨?_, ?_, hi.masks⟩, ⟨Nat.le_refl _, Nat.le_refl _, Nat.le_refl _, fun _ _ _ => rfl, ?_,
    fun _ _ _ => rfl⟩, ?_⟩
  · intro d' hd' p hp
    by_cases e : d' = d
    · subst e
      have hp : p ∈ dset (h.dicts d') k l := by simpa using hp
      rcases mem_dset_or hp with h1 | h1
      · exact hi.arr d' hd' p h1
      · rw [h1]; exact ⟨hl, hN⟩
    · have hp : p ∈ h.dicts d' := by simpa [updAt_ne _ _ e] using hp
      exact hi.arr d' hd' p hp
  · intro d' hd'
    by_cases e : d' = d
    · subst e
      simp only [updAt_same]
      exact nodup_dset (hi.keys d' hd') k l
    · simp only [updAt_ne _ _ e]
      exact hi.keys d' hd'
  · intro l _ hn
    exact updAt_ne _ _ hn
  · unfold dataView
    simp only [updAt_same]
    exact dset_map _ _ _ _

theorem dataView_keeps {h h' : Heap} {N A D T : Nat → Prop} (hi : DInv h N) (k : Keeps h h' A D T) {d : Nat}
    (hd : d < h.nDicts) (hD : ¬ D d) (hA : ∀ p ∈ h.dicts d, ¬ A p.2) : dataView h' d = dataView h d := by
  unfold dataView
  rw [k.dicts d hd hD]
  apply List.map_congr_left
  intro p hp
  rw [k.arrs _ (hi.arr d hd p hp).1 (hA p hp)]

theorem appendLoop_ok' {E : NpEnv} {N : Nat → Prop} {d od : Nat} (os : List (Int × Arr)) :
    ∀ {h : Heap} (_ : DInv h N) (_ : d < h.nDicts) (_ : od < h.nDicts) (_ : (dkeys os).Nodup)
      (_ : ∀ p ∈ os, ∃ l, dget (h.dicts od) p.1 = some l ∧ h.arrs l = p.2),
    DInv (appendLoopH E d od h (dkeys os)).1 N ∧
    Keeps h (appendLoopH E d od h (dkeys os)).1 Nowhere (· = d) Nowhere ∧
    dataView (appendLoopH E d od h (dkeys os)).1 d = (appendLoop E (dataView h d) os).1 ∧
    (appendLoopH E d od h (dkeys os)).2 = (appendLoop E (dataView h d) os).2 := by
  induction os with
  | nil =>
    intro h hi _ _ _ _
    exact ⟨hi, Keeps.refl _ _ _ _, rfl, rfl⟩
  | cons q os ih =>
    obtain ⟨k, b⟩ := q
    intro h hi hd hod hn hv
    simp only [dkeys, List.map_cons, List.nodup_cons] at hn
    obtain ⟨lb, hlb, hb⟩ := hv (k, b) List.mem_cons_self
    dsimp only at hlb hb
    have e0 : dkeys ((k, b) :: os) = k :: dkeys os := rfl
    rw [e0]
    cases ha : dget (h.dicts d) k with
    | none =>
      have e1 : appendLoopH E d od h (k :: dkeys os) = (h, some .keyError) := by
        rw [appendLoopH, ha]
      have e2 : appendLoop E (dataView h d) ((k, b) :: os) = (dataView h d, some .keyError) := by
        rw [appendLoop, dget_dataView, ha]; rfl
      rw [e1, e2]
      exact ⟨hi, Keeps.refl _ _ _ _, rfl, rfl⟩
    | some la =>
      cases hc : npAppend E (h.arrs la) b with
      | error e =>
        have e1 : appendLoopH E d od h (k :: dkeys os) = (h, some e) := by
          rw [appendLoopH, ha, hlb]; dsimp only; rw [hb, hc]
        have e2 : appendLoop E (dataView h d) ((k, b) :: os) = (dataView h d, some e) := by
          rw [appendLoop, dget_dataView, ha]; dsimp only [Option.map_some]; rw [hc]
        rw [e1, e2]
        exact ⟨hi, Keeps.refl _ _ _ _, rfl, rfl⟩
      | ok c =>
        obtain ⟨n1, n2, n3, n4, n5, -⟩ := take_ok hi (s := .new c) trivial
        obtain ⟨s1, s2, s3⟩ := setItem_ok n1 (d := d) k n3 n4
        have e1 : appendLoopH E d od h (k :: dkeys os) =
            appendLoopH E d od { (h.newArr c).1 with
              dicts := updAt h.dicts d (dset (h.dicts d) k (h.newArr c).2) } (dkeys os) := by
          rw [appendLoopH, ha, hlb]; dsimp only; rw [hb, hc]
        have e2 : appendLoop E (dataView h d) ((k, b) :: os) =
            appendLoop E (dset (dataView h d) k c) os := by
          rw [appendLoop, dget_dataView, ha]; dsimp only [Option.map_some]; rw [hc]
        rw [e1, e2]
        have e3 : dataView (Src.take h (.new c)).1 d = dataView h d :=
          dataView_keeps hi n2 hd (fun h => h) (fun _ _ h => h)
        rw [n5, e3] at s3
        have hk2 : Keeps h _ Nowhere (· = d) Nowhere :=
          (n2.mono (fun _ _ h => h) (fun _ _ h => h.elim) (fun _ _ h => h)).trans s2
            (fun _ _ h => h) (fun _ _ h => h) (fun _ _ h => h)
        obtain ⟨i1, i2, i3, i4⟩ := ih s1 hd hod hn.2 (by
          intro p hp
          obtain ⟨l, h1, h2⟩ := hv p (List.mem_cons_of_mem _ hp)
          have hne : p.1 ≠ k := by
            rintro rfl
            exact hn.1 (List.mem_map.2 ⟨p, hp, rfl⟩)
          refine ⟨l, ?_, ?_⟩
          · by_cases e : od = d
            · subst e
              simp only [updAt_same]
              rw [dget_dset_ne _ _ hne]
              exact h1
            · simp only [updAt_ne _ _ e]
              exact h1
          · rw [← h2]
            exact n2.arrs l (hi.arr od hod _ (dget_mem h1)).1 (fun h => h))
        have e4 : srcValue h (.new c) = c := rfl
        rw [s3, e4] at i3 i4
        exact ⟨i1, hk2.trans i2 (fun _ _ h => h) (fun _ _ h => h) (fun _ _ h => h), i3, i4⟩

theorem dataView_pairs {h : Heap} {N : Nat → Prop} (hi : DInv h N) {d : Nat} (hd : d < h.nDicts) :
    ∀ p ∈ dataView h d, ∃ l, dget (h.dicts d) p.1 = some l ∧ h.arrs l = p.2 := by
  intro p hp
  obtain ⟨q, hq, rfl⟩ := List.mem_map.1 hp
  exact ⟨q.2, dget_of_mem (hi.keys d hd) hq, rfl⟩

theorem dataView_nil {h : Heap} {d : Nat} : dataView h d = [] ↔ h.dicts d = [] := by
  unfold dataView; simp

theorem dkeys_dataView (h : Heap) (d : Nat) : dkeys (dataView h d) = dkeys (h.dicts d) :=
  dkeys_map _ _

theorem appendDataH_ok {E : NpEnv} {h : Heap} {N : Nat → Prop} {o q : PObj} (hi : HInv h N o)
    (hq : q.data < h.nDicts) :
    ∃ h' dl e, appendDataH E h o q = (h', { o with data := dl }, e) ∧
      HInv h' N { o with data := dl } ∧ Keeps h h' Nowhere (· = o.data) Nowhere ∧
      (dataView h' dl, e) = appendData E (dataView h o.data) (dataView h q.data) ∧
      (dl = o.data ∨ (h.dicts o.data = [] ∧ dl = q.data)) := by
  by_cases h0 : h.dicts o.data = []
  · refine ⟨h, q.data, none, ?_, ⟨hi.toDInv, hq, hi.names, hi.mask, hi.maskN, hi.own⟩,
      Keeps.refl _ _ _ _, ?_, .inr ⟨h0, rfl⟩⟩
    · unfold appendDataH; rw [if_pos h0]
    · unfold appendData; rw [if_pos (dataView_nil.2 h0)]
  · by_cases h1 : h.dicts q.data = []
    · refine ⟨h, o.data, none, ?_, hi, Keeps.refl _ _ _ _, ?_, .inl rfl⟩
      · unfold appendDataH; rw [if_neg h0, if_pos h1]
      · unfold appendData
        rw [if_neg (fun h => h0 (dataView_nil.1 h)), if_pos (dataView_nil.2 h1)]
    · by_cases h2 : sameKeys (dkeys (h.dicts o.data)) (dkeys (h.dicts q.data)) = true
      · have hl := appendLoop_ok' (E := E) (d := o.data) (dataView h q.data) hi.all hi.data hq
          (by rw [dkeys_dataView]; exact hi.keys _ hq) (dataView_pairs hi.toDInv hq)
        rw [dkeys_dataView] at hl
        obtain ⟨l1, l2, l3, l4⟩ := hl
        refine ⟨(appendLoopH E o.data q.data h (dkeys (h.dicts q.data))).1, o.data,
          (appendLoopH E o.data q.data h (dkeys (h.dicts q.data))).2, ?_, HInv.of l1 ?_ ?_ hi.maskN,
          l2, ?_, .inl rfl⟩
        · unfold appendDataH; rw [if_neg h0, if_neg h1, if_pos h2]
        · exact Nat.lt_of_lt_of_le hi.data l2.nDicts
        · exact Nat.lt_of_lt_of_le hi.names l2.nTabs
        · unfold appendData
          rw [if_neg (fun h => h0 (dataView_nil.1 h)), if_neg (fun h => h1 (dataView_nil.1 h)),
            dkeys_dataView, dkeys_dataView, if_pos h2, l3, l4]
      · refine ⟨h, o.data, some .valueError, ?_, hi, Keeps.refl _ _ _ _, ?_, .inl rfl⟩
        · unfold appendDataH; rw [if_neg h0, if_neg h1, if_neg h2]
        · unfold appendData
          rw [if_neg (fun h => h0 (dataView_nil.1 h)), if_neg (fun h => h1 (dataView_nil.1 h)),
            dkeys_dataView, dkeys_dataView, if_neg h2]

theorem appendNamesH_ok {h : Heap} {o q : PObj} :
    ∃ tl e, appendNamesH h o q = ({ o with names := tl }, e) ∧
      (h.tabs tl, e) = appendNames (h.tabs o.names) (h.tabs q.names) ∧
      (tl = o.names ∨ (h.tabs o.names = [] ∧ tl = q.names)) := by
  unfold appendNamesH appendNames
  by_cases h0 : h.tabs o.names = []
  · exact ⟨q.names, none, by rw [if_pos h0], by rw [if_pos h0], .inr ⟨h0, rfl⟩⟩
  · by_cases h1 : h.tabs q.names = []
    · exact ⟨o.names, none, by rw [if_neg h0, if_pos h1], by rw [if_neg h0, if_pos h1], .inl rfl⟩
    · by_cases h2 : sameKeys (dkeys (h.tabs o.names)) (dkeys (h.tabs q.names)) = true
      · exact ⟨o.names, none, by rw [if_neg h0, if_neg h1, if_pos h2],
          by rw [if_neg h0, if_neg h1, if_pos h2], .inl rfl⟩
      · exact ⟨o.names, some .valueError, by rw [if_neg h0, if_neg h1, if_neg h2],
          by rw [if_neg h0, if_neg h1, if_neg h2], .inl rfl⟩

theorem append_ok {E : NpEnv} {h : Heap} {N : Nat → Prop} {o q : PObj} (hi : HInv h N o)
    (hq : q.data < h.nDicts) (hqt : q.names < h.nTabs) :
    ∃ h' o' e, o.append E h q = (h', o', e) ∧ HInv h' N o' ∧
      Keeps h h' Nowhere (· = o.data) Nowhere ∧
      (view h' o', e) = (view h o).appendPack E (view h q) ∧
      (o'.data = o.data ∨ (h.dicts o.data = [] ∧ o'.data = q.data)) ∧
      (o'.names = o.names ∨ (h.tabs o.names = [] ∧ o'.names = q.names)) := by
  obtain ⟨h1, dl, e, a1, a2, a3, a4, a5⟩ := appendDataH_ok (E := E) hi hq
  have v1 : (view h o).data = dataView h o.data := rfl
  have v2 : (view h q).data = dataView h q.data := rfl
  have t1 : h1.tabs o.names = h.tabs o.names := a3.tabs _ hi.names (fun h => h)
  have t2 : h1.tabs q.names = h.tabs q.names := a3.tabs _ hqt (fun h => h)
  have m1 : h1.arrs o.mask = h.arrs o.mask := a3.arrs _ hi.mask (fun h => h)
  cases e with
  | some e =>
    refine ⟨h1, _, some e, ?_, a2, a3, ?_, a5, .inl rfl⟩
    · unfold PObj.append; rw [a1]
    · unfold Pack.appendPack
      rw [v1, v2, ← a4]
      simp only [Prod.mk.injEq, and_true]
      unfold view
      simp only [t1, m1]
      rfl
  | none =>
    obtain ⟨tl, e, b1, b2, b3⟩ := appendNamesH_ok (h := h1) (o := { o with data := dl }) (q := q)
    simp only [t1, t2] at b2 b3
    have v3 : (view h o).names = h.tabs o.names := rfl
    have v4 : (view h q).names = h.tabs q.names := rfl
    have ht : tl < h1.nTabs := by
      rcases b3 with b3 | ⟨-, b3⟩
      · rw [b3]; exact a2.names
      · rw [b3]; exact Nat.lt_of_lt_of_le hqt a3.nTabs
    cases e with
    | some e =>
      refine ⟨h1, { o with data := dl, names := tl }, some e, ?_,
        ⟨a2.toDInv, a2.data, ht, a2.mask, a2.maskN, a2.own⟩, a3, ?_, a5, b3⟩
      · unfold PObj.append; rw [a1]; dsimp only; rw [b1]
      · unfold Pack.appendPack
        rw [v1, v2, ← a4]
        dsimp only
        rw [v3, v4, ← b2]
        simp only [Prod.mk.injEq, and_true]
        unfold view
        simp only [m1]
        rfl
    | none =>
      obtain ⟨r1, r2, r3, r4⟩ := maskReset_ok (h := h1) (N := N)
        (o := { o with data := dl, names := tl, filenames := o.filenames ++ q.filenames })
        a2.toDInv a2.data ht
      refine ⟨_, _, none, ?_, r1, ?_, ?_, ?_, ?_⟩
      · unfold PObj.append; rw [a1]; dsimp only; rw [b1]
      · exact a3.trans r3 (fun _ _ h => h) (fun _ _ h => h.elim) (fun _ _ h => h)
      · unfold Pack.appendPack
        rw [v1, v2, ← a4]
        dsimp only
        rw [v3, v4, ← b2]
        simp only [Prod.mk.injEq, and_true]
        rw [r2]
        congr 1
        unfold view
        simp only [m1]
        rfl
      · rw [r4]; exact a5
      · rw [r4]; exact b3

theorem startstop_ok {h : Heap} {N : Nat → Prop} {o : PObj} (hi : HInv h N o)
    (a b : List Bool) (apply : Bool) :
    ∃ h' o' e, o.startstop h a b apply = (h', o', e) ∧ HInv h' N o' ∧
      Keeps h h' (· = o.mask) Nowhere Nowhere ∧
      (view h' o', e) = (match (view h o).startstop a b apply with
        | (p', .ok _) => (p', none)
        | (p', .error e) => (p', some e)) ∧
      o'.data = o.data ∧ o'.names = o.names := by
  unfold PObj.startstop Pack.startstop
  cases apply with
  | false => exact ⟨h, o, none, rfl, hi, Keeps.refl _ _ _ _, rfl, rfl, rfl⟩
  | true =>
    have vm : (view h o).mask = (h.arrs o.mask).toMask := rfl
    simp only [if_true, vm]
    cases hm : npIand (h.arrs o.mask).toMask (startstopBool a b) with
    | error e => exact ⟨h, o, some e, rfl, hi, Keeps.refl _ _ _ _, rfl, rfl, rfl⟩
    | ok m =>
      have hb : m.isBool = true := by
        unfold npIand at hm
        repeat' split at hm
        all_goals simp at hm
        all_goals subst hm; rfl
      obtain ⟨s1, s2, s3, s4⟩ := setMask_ok (o := o) (l := o.mask)
        (h := { h with arrs := updAt h.arrs o.mask ⟨.b, m.bits.map .bool⟩ }) (N := N)
        ⟨hi.arr, hi.keys, hi.masks⟩ hi.data hi.names hi.mask hi.maskN hi.own
      refine ⟨_, _, none, rfl, s1, ?_, ?_, ?_, ?_⟩
      · refine Keeps.trans (h₂ := { h with arrs := updAt h.arrs o.mask ⟨.b, m.bits.map .bool⟩ })
          (D := Nowhere) (T := Nowhere) ⟨Nat.le_refl _, Nat.le_refl _, Nat.le_refl _, ?_,
            fun _ _ _ => rfl, fun _ _ _ => rfl⟩ s3 (fun _ _ h => h) (fun _ _ h => h) (fun _ _ h => h)
        intro l _ hn
        exact updAt_ne _ _ hn
      · simp only [Prod.mk.injEq, and_true]
        rw [s2]
        have e1 : ((⟨.b, m.bits.map .bool⟩ : Arr)).toMask = m := by
          cases m
          simp only at hb
          simp [Arr.toMask, truthy, Function.comp_def, hb]
        simp only [updAt_same, e1]
        have ev : ∀ m' c, { view { h with arrs := updAt h.arrs o.mask ⟨.b, m.bits.map .bool⟩ } o with
            mask := m', cached := c } = { view h o with mask := m', cached := c } := by
          intro m' c
          unfold view
          dsimp only
          congr 1
          apply List.map_congr_left
          intro p hp
          rw [updAt_ne _ _ (hi.own _ hi.data p hp)]
        unfold Pack.setMask
        exact congrArg Pack.applyMindur (ev m (slicelist m.bits))
      · rw [s4]
      · rw [s4]

/-- Arrays that are neither masks of other packs nor channels. -/
def Private (h : Heap) (N : Nat → Prop) (l : Nat) : Prop :=
  ¬ N l ∧ ∀ d, d < h.nDicts → ∀ p ∈ h.dicts d, p.2 ≠ l

/-- What an action needs. -/
def ActOk (h : Heap) (N : Nat → Prop) (o : PObj) (ps : Nat → PObj) : Act → Prop
  | .setMask (.old l) => l < h.nArrs ∧ Private h N l
  | .setData d => ∀ p ∈ d, SrcOk h (WithMask N o) p.2
  | .setDataNp d => ∀ p ∈ d, SrcOk h (WithMask N o) p.2
  | .dataItem _ s => SrcOk h (WithMask N o) s
  | .append j => (ps j).data < h.nDicts ∧ (ps j).names < h.nTabs
  | .shareData j => (ps j).data < h.nDicts
  | .shareNames j => (ps j).names < h.nTabs
  | _ => True

/-- What an action promises. -/
structure ActDone (E : NpEnv) (w : World) (N : Nat → Prop) (o : PObj) (a : Act) (h' : Heap)
    (o' : PObj) (e : Option Exc) : Prop where
  inv : HInv h' N o'
  keeps : Keeps w.heap h' (Private w.heap N) (· = o.data) (· = o.names)
  view : (Spec.view h' o', e) = (Spec.view w.heap o).step E (meaning w a)
  data : o'.data = o.data ∨ w.heap.nDicts ≤ o'.data ∨
    ∃ j, o'.data = (w.packs j).data ∧ ((a = .append j ∧ w.heap.dicts o.data = []) ∨ a = .shareData j)
  names : o'.names = o.names ∨ w.heap.nTabs ≤ o'.names ∨
    ∃ j, o'.names = (w.packs j).names ∧ ((a = .append j ∧ w.heap.tabs o.names = []) ∨ a = .shareNames j)

theorem HInv.private {h : Heap} {N : Nat → Prop} {o : PObj} (hi : HInv h N o) :
    Private h N o.mask := ⟨hi.maskN, hi.own⟩

theorem view_data {h h' : Heap} {N : Nat → Prop} {o : PObj} {l : Nat} {T : Nat → Prop}
    {D : Nat → Prop} (hi : HInv h N o)
    (k : Keeps h h' Nowhere D T) (hT : ¬ T o.names) :
    view h' { o with data := l } = { view h o with data := dataView h' l } := by
  unfold view dataView
  simp only [k.tabs _ hi.names hT, k.arrs _ hi.mask (fun h => h)]

theorem act_done {E : NpEnv} {w : World} {N : Nat → Prop} {o : PObj} (hi : HInv w.heap N o)
    {a : Act} (ha : ActOk w.heap N o w.packs a) :
    ∃ h' o' e, o.act E w.packs w.heap a = (h', o', e) ∧ ActDone E w N o a h' o' e := by
  have triv : ∀ e, (view w.heap o, e) = (view w.heap o).step E (meaning w a) →
      ActDone E w N o a w.heap o e := fun e hv => ⟨hi, Keeps.refl _ _ _ _, hv, .inl rfl, .inl rfl⟩
  cases a with
  | setMask s =>
    cases s with
    | new a =>
      obtain ⟨s1, s2, s3, s4⟩ := setNew_ok (o := o) hi.toDInv hi.data hi.names a
      refine ⟨_, _, none, rfl, s1, s3.mono (fun _ _ h => h.elim) (fun _ _ h => h.elim)
        (fun _ _ h => h.elim), ?_, .inl (congrArg PObj.data s4 :), .inl (congrArg PObj.names s4 :)⟩
      exact (congrArg (·, (none : Option Exc)) s2 :)
    | old l =>
      obtain ⟨s1, s2, s3, s4⟩ := setMask_ok (o := o) hi.toDInv hi.data hi.names ha.1 ha.2.1 ha.2.2
      refine ⟨_, _, none, rfl, s1, s3.mono (fun _ _ h => by rw [h]; exact ha.2)
        (fun _ _ h => h.elim) (fun _ _ h => h.elim), ?_, .inl (congrArg PObj.data s4 :), .inl (congrArg PObj.names s4 :)⟩
      exact (congrArg (·, (none : Option Exc)) s2 :)
  | setMaskBad => exact ⟨_, _, _, rfl, triv _ rfl⟩
  | setMindur m =>
    obtain ⟨s1, s2, s3, s4⟩ := applyMindur_ok (o := { o with mindur := m }) (h := w.heap) (N := N)
      ⟨hi.toDInv, hi.data, hi.names, hi.mask, hi.maskN, hi.own⟩
    refine ⟨_, _, none, rfl, s1, s3.mono (fun _ _ h => by rw [h]; exact hi.private)
      (fun _ _ h => h.elim) (fun _ _ h => h.elim), ?_, .inl (congrArg PObj.data s4 :), .inl (congrArg PObj.names s4 :)⟩
    exact (congrArg (·, (none : Option Exc)) s2 :)
  | setMindurBad => exact ⟨_, _, _, rfl, triv _ rfl⟩
  | setNof v =>
    by_cases hv : v ∈ nofvalids
    · refine ⟨w.heap, { o with nof := v }, none, ?_, ⟨hi.toDInv, hi.data, hi.names, hi.mask, hi.maskN, hi.own⟩,
        Keeps.refl _ _ _ _, ?_, .inl rfl, .inl rfl⟩
      · unfold PObj.act; dsimp only; rw [if_pos hv]
      · show _ = (view w.heap o).setNof v
        unfold Pack.setNof; rw [if_pos hv]; rfl
    · refine ⟨w.heap, o, some .valueError, ?_, triv _ ?_⟩
      · unfold PObj.act; dsimp only; rw [if_neg hv]
      · show _ = (view w.heap o).setNof v
        unfold Pack.setNof; rw [if_neg hv]
  | setData d =>
    obtain ⟨s1, s2, s3, s4, s5⟩ := newNpDict_ok (d := d) hi.all ha
    have d1 : DInv (newNpDict w.heap d).1 N :=
      ⟨fun l hl p hp => ⟨(s1.arr l hl p hp).1, fun h => (s1.arr l hl p hp).2 (.inl h)⟩, s1.keys,
        fun l hl => s1.masks l (.inl hl)⟩
    have hn : o.names < (newNpDict w.heap d).1.nTabs := Nat.lt_of_lt_of_le hi.names s2.nTabs
    obtain ⟨r1, r2, r3, r4⟩ := maskReset_ok (o := { o with data := (newNpDict w.heap d).2 }) d1
      (by rw [s3]; exact s4) hn
    refine ⟨_, _, none, rfl, r1, ?_, ?_, ?_, .inl (congrArg PObj.names r4 :)⟩
    · exact (s2.trans r3 (fun _ _ h => h) (fun _ _ h => h) (fun _ _ h => h)).mono
        (fun _ _ h => h.elim) (fun _ _ h => h.elim) (fun _ _ h => h.elim)
    · refine (congrArg (·, (none : Option Exc)) r2 :).trans ?_
      rw [view_data hi s2 (fun h => h), s3, s5]; rfl
    · exact .inr (.inl (Nat.le_of_eq ((congrArg PObj.data r4 :).trans s3).symm))
  | setDataBad e => exact ⟨_, _, _, rfl, triv _ rfl⟩
  | setDataNp d =>
    obtain ⟨s1, s2, s3, s4, s5⟩ := newNpDict_ok (d := d) hi.all ha
    refine ⟨(newNpDict w.heap d).1, { o with data := (newNpDict w.heap d).2 }, none, rfl, ?_,
      s2.mono (fun _ _ h => h.elim) (fun _ _ h => h.elim) (fun _ _ h => h.elim), ?_, ?_, .inl rfl⟩
    · refine HInv.of s1 ?_ ?_ hi.maskN
      · rw [s3]; exact s4
      · exact Nat.lt_of_lt_of_le hi.names s2.nTabs
    · rw [view_data hi s2 (fun h => h), s3, s5]; rfl
    · right; left; rw [s3]; exact Nat.le_refl _
  | setNames n =>
    refine ⟨(w.heap.newTab (dictOf n)).1, { o with names := w.heap.nTabs }, none, rfl,
      ⟨⟨hi.arr, hi.keys, hi.masks⟩, hi.data, Nat.lt_succ_self _, hi.mask, hi.maskN, hi.own⟩,
      ⟨Nat.le_refl _, Nat.le_refl _, Nat.le_succ _, fun _ _ _ => rfl, fun _ _ _ => rfl, ?_⟩,
      ?_, .inl rfl, .inr (.inl (Nat.le_refl _))⟩
    · intro l hl _; exact updAt_ne _ _ (by omega)
    · have : (w.heap.newTab (dictOf n)).1.tabs w.heap.nTabs = dictOf n := updAt_same _ _ _
      unfold view
      simp only [this]
      rfl
  | setFn s =>
    refine ⟨w.heap, _, none, rfl, ⟨hi.toDInv, hi.data, hi.names, hi.mask, hi.maskN, hi.own⟩,
        Keeps.refl _ _ _ _, ?_, .inl rfl, .inl rfl⟩
    rfl
  | setFnBad => exact ⟨_, _, _, rfl, triv _ rfl⟩
  | setPrefix s =>
    refine ⟨w.heap, _, none, rfl, ⟨hi.toDInv, hi.data, hi.names, hi.mask, hi.maskN, hi.own⟩,
        Keeps.refl _ _ _ _, ?_, .inl rfl, .inl rfl⟩
    rfl
  | setPrefixBad => exact ⟨_, _, _, rfl, triv _ rfl⟩
  | dataItem k s =>
    obtain ⟨t1, t2, t3, t4, t5, t6, t7, t8, t9⟩ := take_ok hi.all ha
    obtain ⟨s1, s2, s3⟩ := setItem_ok t1 (d := o.data) k t3 t4
    have kk : Keeps w.heap _ Nowhere (· = o.data) Nowhere :=
      (t2.mono (fun _ _ h => h) (fun _ _ h => h.elim) (fun _ _ h => h)).trans s2
        (fun _ _ h => h) (fun _ _ h => h) (fun _ _ h => h)
    refine ⟨_, o, none, rfl, HInv.of s1 ?_ ?_ hi.maskN,
      kk.mono (fun _ _ h => h.elim) (fun _ _ h => h) (fun _ _ h => h.elim), ?_, .inl rfl, .inl rfl⟩
    · exact Nat.lt_of_lt_of_le hi.data kk.nDicts
    · exact Nat.lt_of_lt_of_le hi.names kk.nTabs
    · have := view_data (l := o.data) hi kk (fun h => h)
      refine (congrArg (·, none) this).trans ?_
      rw [s3, t5, dataView_keeps hi.toDInv t2 hi.data (fun h => h) (fun _ _ h => h)]
      rfl
  | dataDel k =>
    have hg : (dget (view w.heap o).data k).isSome = (dget (w.heap.dicts o.data) k).isSome := by
      show (dget (dataView w.heap o.data) k).isSome = _
      rw [dget_dataView]; simp
    by_cases hk : (dget (w.heap.dicts o.data) k).isSome
    · refine ⟨{ w.heap with dicts := updAt w.heap.dicts o.data ((w.heap.dicts o.data).filter (·.1 ≠ k)) },
        o, none, ?_, ?_, ?_, ?_, .inl rfl, .inl rfl⟩
      · unfold PObj.act; dsimp only; rw [if_pos hk]
      · have hsub : ∀ d, d < w.heap.nDicts → ∀ p,
            p ∈ updAt w.heap.dicts o.data ((w.heap.dicts o.data).filter (·.1 ≠ k)) d →
            p ∈ w.heap.dicts d := by
          intro d hd p hp
          by_cases e : d = o.data
          · subst e; rw [updAt_same] at hp; exact (List.mem_filter.1 hp).1
          · rwa [updAt_ne _ _ e] at hp
        refine ⟨⟨fun d hd p hp => hi.arr d hd p (hsub d hd p hp), ?_, hi.masks⟩, hi.data, hi.names,
          hi.mask, hi.maskN, fun d hd p hp => hi.own d hd p (hsub d hd p hp)⟩
        intro d hd
        by_cases e : d = o.data
        · subst e
          simp only [updAt_same]
          exact List.Nodup.sublist (List.Sublist.map _ List.filter_sublist) (hi.keys _ hd)
        · simp only [updAt_ne _ _ e]
          exact hi.keys d hd
      · exact ⟨Nat.le_refl _, Nat.le_refl _, Nat.le_refl _, fun _ _ _ => rfl,
          fun l _ hn => updAt_ne _ _ hn, fun _ _ _ => rfl⟩
      · show _ = if _ then _ else _
        rw [hg, if_pos hk]
        unfold view
        simp only [updAt_same, Prod.mk.injEq, and_true]
        congr 1
        rw [List.filter_map]
        rfl
    · refine ⟨w.heap, o, some .keyError, ?_, triv _ ?_⟩
      · unfold PObj.act; dsimp only; rw [if_neg hk]
      · show _ = if _ then _ else _
        rw [hg, if_neg hk]
  | nameItem k v =>
    refine ⟨{ w.heap with tabs := updAt w.heap.tabs o.names (dset (w.heap.tabs o.names) k v) }, o, none, rfl,
      ⟨⟨hi.arr, hi.keys, hi.masks⟩, hi.data, hi.names, hi.mask, hi.maskN, hi.own⟩,
      ⟨Nat.le_refl _, Nat.le_refl _, Nat.le_refl _, fun _ _ _ => rfl, fun _ _ _ => rfl,
        fun l _ hn => updAt_ne _ _ hn⟩, ?_, .inl rfl, .inl rfl⟩
    unfold view
    simp only [updAt_same]
    rfl
  | maskReset =>
    obtain ⟨r1, r2, r3, r4⟩ := maskReset_ok (o := o) hi.toDInv hi.data hi.names
    refine ⟨_, _, none, rfl, r1, r3.mono (fun _ _ h => h.elim) (fun _ _ h => h.elim)
        (fun _ _ h => h.elim), ?_, .inl (congrArg PObj.data r4 :), .inl (congrArg PObj.names r4 :)⟩
    exact (congrArg (·, (none : Option Exc)) r2 :)
  | duration q m =>
    obtain ⟨s1, s2, s3, s4⟩ := duration_ok hi q m
    refine ⟨_, _, none, rfl, s1, s3.mono (fun _ _ h => by rw [h]; exact hi.private)
      (fun _ _ h => h.elim) (fun _ _ h => h.elim), ?_, .inl (congrArg PObj.data s4 :), .inl (congrArg PObj.names s4 :)⟩
    exact (congrArg (·, (none : Option Exc)) s2 :)
  | startstop a b apply =>
    obtain ⟨h', o', e, s1, s2, s3, s4, s5, s6⟩ := startstop_ok hi a b apply
    exact ⟨h', o', e, s1, s2, s3.mono (fun _ _ h => by rw [h]; exact hi.private)
      (fun _ _ h => h.elim) (fun _ _ h => h.elim), s4, .inl s5, .inl s6⟩
  | append j =>
    obtain ⟨h', o', e, s1, s2, s3, s4, s5, s6⟩ := append_ok (E := E) hi ha.1 ha.2
    refine ⟨h', o', e, s1, s2, s3.mono (fun _ _ h => h.elim)
      (fun _ _ h => h) (fun _ _ h => h.elim), s4, ?_, ?_⟩
    · rcases s5 with s5 | s5
      · exact .inl s5
      · exact .inr (.inr ⟨j, s5.2, .inl ⟨rfl, s5.1⟩⟩)
    · rcases s6 with s6 | s6
      · exact .inl s6
      · exact .inr (.inr ⟨j, s6.2, .inl ⟨rfl, s6.1⟩⟩)
  | shareData j =>
    exact ⟨w.heap, _, none, rfl, ⟨hi.toDInv, ha, hi.names, hi.mask, hi.maskN, hi.own⟩,
      Keeps.refl _ _ _ _, rfl, .inr (.inr ⟨j, rfl, .inr rfl⟩), .inl rfl⟩
  | shareNames j =>
    exact ⟨w.heap, _, none, rfl, ⟨hi.toDInv, hi.data, ha, hi.mask, hi.maskN, hi.own⟩,
      Keeps.refl _ _ _ _, rfl, .inl rfl, .inr (.inr ⟨j, rfl, .inr rfl⟩)⟩

/-! ### The whole state -/

/-- Every pack is in order, and its mask its own. -/
structure WInv (w : World) : Prop where
  dicts : DInv w.heap (IsMask w)
  data : ∀ i, i < w.n → (w.packs i).data < w.heap.nDicts
  names : ∀ i, i < w.n → (w.packs i).names < w.heap.nTabs
  masks : ∀ i j, i < w.n → j < w.n → (w.packs i).mask = (w.packs j).mask → i = j

/-- The masks of the packs other than `i`. -/
def OtherMasks (w : World) (i : Nat) (l : Nat) : Prop := ∃ j, j < w.n ∧ j ≠ i ∧ (w.packs j).mask = l

theorem DInv.congr {h : Heap} {N N' : Nat → Prop} (hi : DInv h N) (hN : ∀ l, N' l → N l) :
    DInv h N' :=
  ⟨fun d hd p hp => ⟨(hi.arr d hd p hp).1, fun h => (hi.arr d hd p hp).2 (hN _ h)⟩, hi.keys,
    fun l hl => hi.masks l (hN l hl)⟩

theorem WInv.pack {w : World} (hw : WInv w) {i : Nat} (h : i < w.n) :
    HInv w.heap (OtherMasks w i) (w.packs i) := by
  refine HInv.of (hw.dicts.congr ?_) (hw.data i h) (hw.names i h) ?_
  · rintro l (⟨j, h1, -, h2⟩ | h1)
    · exact ⟨j, h1, h2⟩
    · exact ⟨i, h, h1.symm⟩
  · rintro ⟨j, h1, h2, h3⟩
    exact h2 (hw.masks j i h1 h h3)

theorem Keeps.view {w : World} (hw : WInv w) {h' : Heap} {i j : Nat} {D T : Nat → Prop}
    (hj : j < w.n) (hne : j ≠ i)
    (k : Keeps w.heap h' (Private w.heap (OtherMasks w i)) D T) :
    Spec.view h' (w.packs j) = { World.view w j with
      data := (h'.dicts (w.packs j).data).map fun p => (p.1, h'.arrs p.2),
      names := h'.tabs (w.packs j).names } ∧
    (¬ D (w.packs j).data → (Spec.view h' (w.packs j)).data = (World.view w j).data) ∧
    (¬ T (w.packs j).names → (Spec.view h' (w.packs j)).names = (World.view w j).names) := by
  have hp := hw.pack hj
  refine ⟨?_, ?_, ?_⟩
  · unfold World.view Spec.view
    dsimp only
    rw [k.arrs _ hp.mask (fun h => h.1 ⟨j, hj, hne, rfl⟩)]
  · intro hD
    refine dataView_keeps (d := (w.packs j).data) hp.toDInv k hp.data hD ?_
    intro p hpm h
    exact h.2 _ hp.data p hpm rfl
  · intro hT
    exact k.tabs _ hp.names hT

theorem sensible_ok {w : World} {i : Nat} {a : Act} (hw : WInv w) (h : Sensible w (.act i a)) :
    ActOk w.heap (OtherMasks w i) (w.packs i) w.packs a := by
  obtain ⟨hi, h⟩ := h
  have src : ∀ s, ChannelSrc w s → SrcOk w.heap (WithMask (OtherMasks w i) (w.packs i)) s := by
    intro s hs
    cases s with
    | new a => trivial
    | old l =>
      refine ⟨hs.1, ?_⟩
      rintro (⟨j, h1, -, h2⟩ | h1)
      · exact hs.2 ⟨j, h1, h2⟩
      · exact hs.2 ⟨i, hi, h1.symm⟩
  cases a
  case setMask s =>
    cases s with
    | new a => trivial
    | old l =>
      obtain ⟨h1, h2, h3⟩ := h
      refine ⟨h1, ?_, ?_⟩
      · rintro ⟨j, g1, g2, g3⟩
        exact h2 j g1 g2 g3
      · rintro d hd ⟨k, l'⟩ hp rfl
        exact h3 ⟨d, hd, k, hp⟩
  case setData d => exact fun p hp => src _ (h p hp)
  case setDataNp d => exact fun p hp => src _ (h p hp)
  case dataItem k s => exact src _ h
  case append j => exact ⟨hw.data j h, hw.names j h⟩
  case shareData j => exact hw.data j h
  case shareNames j => exact hw.names j h
  all_goals trivial

theorem act_step {E : NpEnv} {w : World} {i : Nat} {a : Act} (hw : WInv w)
    (h : Sensible w (.act i a)) :
    ∃ h' o' e, w.step E (.act i a) = (⟨h', updAt w.packs i o', w.n⟩, e) ∧
      ActDone E w (OtherMasks w i) (w.packs i) a h' o' e ∧ WInv ⟨h', updAt w.packs i o', w.n⟩ := by
  obtain ⟨h', o', e, h1, h2⟩ := act_done (E := E) (hw.pack h.1) (sensible_ok hw h)
  refine ⟨h', o', e, ?_, h2, ?_⟩
  · unfold World.step; dsimp only; rw [h1]
  · refine ⟨h2.inv.all.congr ?_, ?_, ?_, ?_⟩
    · rintro l ⟨j, g1, g2⟩
      by_cases e : j = i
      · subst e; right; simpa using g2.symm
      · left; exact ⟨j, g1, e, by simpa [updAt_ne _ _ e] using g2⟩
    · intro j hj
      by_cases e : j = i
      · subst e; simpa using h2.inv.data
      · simp only [updAt_ne _ _ e]
        exact Nat.lt_of_lt_of_le (hw.data j hj) h2.keeps.nDicts
    · intro j hj
      by_cases e : j = i
      · subst e; simpa using h2.inv.names
      · simp only [updAt_ne _ _ e]
        exact Nat.lt_of_lt_of_le (hw.names j hj) h2.keeps.nTabs
    · have key : ∀ j, j < w.n → j ≠ i → (w.packs j).mask ≠ o'.mask :=
        fun j hj hne he => h2.inv.maskN ⟨j, hj, hne, he⟩
      intro j k hj hk he
      dsimp only at hj hk he
      by_cases e1 : j = i
      · by_cases e2 : k = i
        · rw [e1, e2]
        · subst e1
          rw [updAt_same, updAt_ne _ _ e2] at he
          exact absurd he.symm (key k hk e2)
      · by_cases e2 : k = i
        · subst e2
          rw [updAt_same, updAt_ne _ _ e1] at he
          exact absurd he (key j hj e1)
        · rw [updAt_ne _ _ e1, updAt_ne _ _ e2] at he
          exact hw.masks j k hj hk he

theorem maskReset_forget (p : Pack) (m : Mask) : { p with mask := m }.maskReset = p.maskReset := by
  unfold Pack.maskReset
  dsimp only
  cases hs : sortInts (dkeys p.data) with
  | nil => rfl
  | cons k ks =>
    have hmem : k ∈ dkeys p.data := by
      rw [← mem_sortInts, hs]; exact List.mem_cons_self
    obtain ⟨l, hl⟩ := Option.isSome_iff_exists.1 (dget_isSome.2 hmem)
    simp only [hl]
    rfl

theorem winv_make {w : World} (hw : WInv w) {h' : Heap} {o' : PObj} (r1 : HInv h' (IsMask w) o')
    {A D T : Nat → Prop} (kk : Keeps w.heap h' A D T) : WInv ⟨h', updAt w.packs w.n o', w.n + 1⟩ := by
  have old : ∀ j, j < w.n + 1 → j ≠ w.n → j < w.n := fun j h1 h2 => by omega
  refine ⟨r1.all.congr ?_, ?_, ?_, ?_⟩
  · rintro l ⟨j, g1, g2⟩
    by_cases e : j = w.n
    · subst e; right; simpa using g2.symm
    · left; exact ⟨j, old j g1 e, by simpa [updAt_ne _ _ e] using g2⟩
  · intro j hj
    by_cases e : j = w.n
    · subst e; simpa using r1.data
    · simp only [updAt_ne _ _ e]
      exact (Nat.lt_of_lt_of_le (hw.data j (old j hj e)) kk.nDicts)
  · intro j hj
    by_cases e : j = w.n
    · subst e; simpa using r1.names
    · simp only [updAt_ne _ _ e]
      exact (Nat.lt_of_lt_of_le (hw.names j (old j hj e)) kk.nTabs)
  · have key : ∀ j, j < w.n → (w.packs j).mask ≠ o'.mask :=
      fun j hj he => r1.maskN ⟨j, hj, he⟩
    intro j k hj hk he
    dsimp only at hj hk he
    by_cases e1 : j = w.n
    · by_cases e2 : k = w.n
      · rw [e1, e2]
      · rw [e1, updAt_same, updAt_ne _ _ e2] at he
        exact absurd he.symm (key k (old k hk e2))
    · by_cases e2 : k = w.n
      · rw [e2, updAt_same, updAt_ne _ _ e1] at he
        exact absurd he (key j (old j hj e1))
      · rw [updAt_ne _ _ e1, updAt_ne _ _ e2] at he
        exact hw.masks j k (old j hj e1) (old k hk e2) he

theorem make_step_mask {E : NpEnv} {w : World} {d : List (Int × Src)} {n : List (Int × Val)} (hw : WInv w)
    (h : Sensible w (.make d n)) :
    ∃ h' o', w.step E (.make d n) = (⟨h', updAt w.packs w.n o', w.n + 1⟩, none) ∧
      Keeps w.heap h' Nowhere Nowhere Nowhere ∧
      Spec.view h' o' = Pack.init (dictOf (d.map fun p => (p.1, srcValue w.heap p.2))) (dictOf n) ∧
      o'.data = w.heap.nDicts ∧ o'.names = w.heap.nTabs ∧
      WInv ⟨h', updAt w.packs w.n o', w.n + 1⟩ ∧ w.heap.nArrs ≤ o'.mask := by
  obtain ⟨s1, s2, s3, s4, s5⟩ := newNpDict_ok (d := d) hw.dicts (by
    intro p hp
    have := h p hp
    cases hs : p.2 with
    | new a => trivial
    | old l => rw [hs] at this; exact this)
  have d1 : DInv ((newNpDict w.heap d).1.newTab (dictOf n)).1 (IsMask w) := ⟨s1.arr, s1.keys, s1.masks⟩
  have k1 : Keeps w.heap ((newNpDict w.heap d).1.newTab (dictOf n)).1 Nowhere Nowhere Nowhere := by
    refine ⟨s2.nArrs, s2.nDicts, Nat.le_succ_of_le s2.nTabs, s2.arrs, s2.dicts, ?_⟩
    intro l hl hn
    rw [← s2.tabs l hl hn]
    exact updAt_ne _ _ (by have := s2.nTabs; omega)
  have hnt : (newNpDict w.heap d).1.nTabs = w.heap.nTabs := (takeAll_ok d hw.dicts (by
    intro p hp
    have := h p hp
    cases hs : p.2 with
    | new a => trivial
    | old l => rw [hs] at this; exact this)).2.2.2.2.2
  obtain ⟨r1, r2, r3, r4⟩ := maskReset_ok (N := IsMask w)
    (h := ((newNpDict w.heap d).1.newTab (dictOf n)).1)
    (o := { pre := ['c', 'h'], data := (newNpDict w.heap d).2,
            names := ((newNpDict w.heap d).1.newTab (dictOf n)).2, fn := [],
            filenames := [[]], nof := none, mindur := none, mask := 0, cached := [] })
    d1 (by rw [s3]; exact s4) (Nat.lt_succ_self _)
  have kk := k1.trans r3 (fun _ _ h => h) (fun _ _ h => h) (fun _ _ h => h)
  refine ⟨_, _, rfl, kk, ?_, ?_, ?_, ?_, ?_⟩
  · refine Eq.trans r2 ?_
    unfold Pack.init
    have e1 : ∀ (m : Mask), { Spec.view ((newNpDict w.heap d).1.newTab (dictOf n)).1
        { pre := ['c', 'h'], data := (newNpDict w.heap d).2,
          names := ((newNpDict w.heap d).1.newTab (dictOf n)).2, fn := [],
          filenames := [[]], nof := none, mindur := none, mask := 0, cached := [] } with mask := m } =
        { pre := ['c', 'h'],
          data := dictOf (d.map fun p => (p.1, srcValue w.heap p.2)), names := dictOf n, fn := [], filenames := [[]],
          nof := none, mindur := none, mask := m, cached := [] } := by
      intro m
      unfold Spec.view
      dsimp only
      congr 1
      · rw [← s5, s3]; rfl
      · exact updAt_same _ _ _
    rw [← maskReset_forget _ ⟨false, []⟩, e1]
  · exact (congrArg PObj.data r4 :).trans s3
  · exact (congrArg PObj.names r4 :).trans hnt
  · exact winv_make hw r1 kk
  · exact Nat.le_trans k1.nArrs (Nat.le_of_eq (congrArg PObj.mask r4 :).symm)

theorem make_step {E : NpEnv} {w : World} {d : List (Int × Src)} {n : List (Int × Val)} (hw : WInv w)
    (h : Sensible w (.make d n)) :
    ∃ h' o', w.step E (.make d n) = (⟨h', updAt w.packs w.n o', w.n + 1⟩, none) ∧
      Keeps w.heap h' Nowhere Nowhere Nowhere ∧
      Spec.view h' o' = Pack.init (dictOf (d.map fun p => (p.1, srcValue w.heap p.2))) (dictOf n) ∧
      o'.data = w.heap.nDicts ∧ o'.names = w.heap.nTabs ∧
      WInv ⟨h', updAt w.packs w.n o', w.n + 1⟩ := by
  obtain ⟨h', o', h1, h2, h3, h4, h5, h6, _⟩ := make_step_mask (E := E) hw h
  exact ⟨h', o', h1, h2, h3, h4, h5, h6⟩

theorem winv_empty : WInv World.empty :=
  ⟨⟨fun d hd => absurd hd (Nat.not_lt_zero _), fun d hd => absurd hd (Nat.not_lt_zero _),
    fun l ⟨i, h, _⟩ => absurd h (Nat.not_lt_zero _)⟩, fun i h => absurd h (Nat.not_lt_zero _),
    fun i h => absurd h (Nat.not_lt_zero _), fun i j h => absurd h (Nat.not_lt_zero _)⟩

theorem programs_inv {E : NpEnv} {w : World} (h : Programs E w) : WInv w := by
  induction h with
  | start => exact winv_empty
  | @next w op _ hs ih =>
    cases op with
    | make d n =>
      obtain ⟨h', o', h1, -, -, -, -, h2⟩ := make_step (E := E) ih hs
      rw [h1]; exact h2
    | act i a =>
      obtain ⟨h', o', e, h1, -, h2⟩ := act_step (E := E) ih hs
      rw [h1]; exact h2

theorem separate_programs {E : NpEnv} {w : World} (h : Separate E w) : Programs E w := by
  induction h with
  | start => exact .start
  | next _ hs _ ih => exact .next ih hs

end CP
