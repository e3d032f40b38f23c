import Verif.Spec.Views
import Verif.Lemmas.World
/-!
# Array objects that no pack refers to
-/

namespace CP
open Spec

/-- The array `l` is in a data dict. -/
def InDict (h : Heap) (l : Nat) : Prop := ∃ d, d < h.nDicts ∧ ∃ k, (k, l) ∈ h.dicts d

/-- An action on a pack with the mask `m` that leaves the array `l` alone: it changes it only
if it is the mask, and makes it neither the mask nor a channel. -/
structure Frame (l : Nat) (h : Heap) (m : Nat) (h' : Heap) (m' : Nat) : Prop where
  nArrs : h.nArrs ≤ h'.nArrs
  same : l ≠ m → h'.arrs l = h.arrs l
  mask : m' = l → m = l
  chan : InDict h' l → InDict h l

theorem Frame.refl (l : Nat) (h : Heap) (m : Nat) : Frame l h m h m :=
  ⟨Nat.le_refl _, fun _ => rfl, fun h => h, fun h => h⟩

theorem Frame.trans {l : Nat} {h₁ h₂ h₃ : Heap} {m₁ m₂ m₃ : Nat} (a : Frame l h₁ m₁ h₂ m₂)
    (b : Frame l h₂ m₂ h₃ m₃) : Frame l h₁ m₁ h₃ m₃ :=
  ⟨Nat.le_trans a.nArrs b.nArrs,
    fun h => by rw [b.same (fun e => h (a.mask e.symm).symm), a.same h],
    fun h => a.mask (b.mask h), fun h => a.chan (b.chan h)⟩

theorem frame_duration (l : Nat) (h : Heap) (o : PObj) (q : Rat) (m : Bool) :
    Frame l h o.mask (o.duration h q m).1 (o.duration h q m).2.mask :=
  ⟨Nat.le_refl _, fun hl => updAt_ne _ _ hl, fun h => h, fun h => h⟩

theorem frame_applyMindur (l : Nat) (h : Heap) (o : PObj) :
    Frame l h o.mask (o.applyMindur h).1 (o.applyMindur h).2.mask := by
  unfold PObj.applyMindur
  split
  · exact .refl _ _ _
  · exact frame_duration _ _ _ _ _

/-- Assigning another array than `l` to the mask. -/
theorem frame_setMask {l l' : Nat} (h : Heap) (o : PObj) (hl : l' ≠ l) :
    Frame l h o.mask (o.setMask h l').1 (o.setMask h l').2.mask := by
  have := frame_applyMindur l h { o with mask := l', cached := slicelist (h.arrs l').toMask.bits }
  exact ⟨this.nArrs, fun _ => this.same hl.symm, fun e => absurd (this.mask e) hl, this.chan⟩

theorem frame_newArr {l : Nat} (h : Heap) (m : Nat) (a : Arr) (hl : l < h.nArrs) :
    Frame l h m (h.newArr a).1 m :=
  ⟨Nat.le_succ _, fun _ => updAt_ne _ _ (by omega), fun h => h, fun h => h⟩

theorem frame_newMask {l : Nat} (h : Heap) (o : PObj) (a : Arr) (hl : l < h.nArrs) :
    Frame l h o.mask (o.setMask (h.newArr a).1 (h.newArr a).2).1 (o.setMask (h.newArr a).1 (h.newArr a).2).2.mask :=
  (frame_newArr h o.mask a hl).trans (frame_setMask _ o (by show h.nArrs ≠ l; omega))

theorem frame_maskReset {l : Nat} (h : Heap) (o : PObj) (hl : l < h.nArrs) :
    Frame l h o.mask (o.maskReset h).1 (o.maskReset h).2.mask := by
  unfold PObj.maskReset
  split
  · exact frame_newMask h o _ hl
  · split
    · exact frame_newMask h o _ hl
    · exact .refl _ _ _

/-- A dict changed, with nothing but other arrays or those it had. -/
theorem frame_dict {l : Nat} {h h' : Heap} {m : Nat} (a : Frame l h m h' m) {d : Nat} {v : List (Int × Nat)}
    (hv : ∀ k, (k, l) ∈ v → InDict h l) :
    Frame l h m { h' with dicts := updAt h'.dicts d v } m := by
  refine ⟨a.nArrs, a.same, a.mask, ?_⟩
  rintro ⟨d', hd', k, hk⟩
  by_cases e : d' = d
  · subst e
    dsimp only at hk
    rw [updAt_same] at hk
    exact hv k hk
  · dsimp only at hk hd'
    rw [updAt_ne _ _ e] at hk
    exact a.chan ⟨d', hd', k, hk⟩

theorem take_frame {l : Nat} (h : Heap) (m : Nat) {s : Src} (hs : ¬ Src.is l s) (hl : l < h.nArrs) :
    Frame l h m (s.take h).1 m ∧ (s.take h).2 ≠ l ∧ (s.take h).1.dicts = h.dicts ∧
      (s.take h).1.nDicts = h.nDicts := by
  cases s with
  | new a => exact ⟨frame_newArr h m a hl, by show h.nArrs ≠ l; omega, rfl, rfl⟩
  | old l' => exact ⟨.refl _ _ _, hs, rfl, rfl⟩

theorem takeAll_frame {l : Nat} (m : Nat) (d : List (Int × Src)) (hd : ¬ ∃ p ∈ d, Src.is l p.2) (h : Heap)
    (hl : l < h.nArrs) :
    Frame l h m (takeAll h d).1 m ∧ (∀ p ∈ (takeAll h d).2, p.2 ≠ l) ∧ (takeAll h d).1.dicts = h.dicts ∧
      (takeAll h d).1.nDicts = h.nDicts := by
  induction d generalizing h with
  | nil => exact ⟨.refl _ _ _, fun p hp => by simp [takeAll] at hp, rfl, rfl⟩
  | cons p d ih =>
    obtain ⟨k, s⟩ := p
    obtain ⟨a1, a2, a3, a4⟩ := take_frame h m (s := s) (fun hs => hd ⟨(k, s), by simp, hs⟩) hl
    obtain ⟨b1, b2, b3, b4⟩ := ih (fun ⟨p, hp, hs⟩ => hd ⟨p, by simp [hp], hs⟩) (s.take h).1
      (Nat.lt_of_lt_of_le hl a1.nArrs)
    unfold takeAll
    dsimp only
    refine ⟨a1.trans b1, ?_, b3.trans a3, b4.trans a4⟩
    intro q hq
    rcases List.mem_cons.1 hq with rfl | hq
    · exact a2
    · exact b2 q hq

theorem newNpDict_frame {l : Nat} (m : Nat) (d : List (Int × Src)) (hd : ¬ ∃ p ∈ d, Src.is l p.2) (h : Heap)
    (hl : l < h.nArrs) : Frame l h m (newNpDict h d).1 m := by
  obtain ⟨a1, a2, a3, a4⟩ := takeAll_frame m d hd h hl
  unfold newNpDict Heap.newDict
  dsimp only
  refine ⟨a1.nArrs, a1.same, a1.mask, ?_⟩
  rintro ⟨d', hd', k, hk⟩
  dsimp only at hd' hk
  by_cases e : d' = (takeAll h d).1.nDicts
  · rw [e, updAt_same] at hk
    obtain ⟨q, hq, e⟩ := mem_dictOf hk
    exact absurd e (a2 q hq)
  · rw [updAt_ne _ _ e] at hk
    exact a1.chan ⟨d', by omega, k, hk⟩

theorem appendLoop_frame {E : NpEnv} {l : Nat} (m d od : Nat) (ks : List Int) (h : Heap) (hl : l < h.nArrs)
    (hd : d < h.nDicts) : Frame l h m (appendLoopH E d od h ks).1 m := by
  induction ks generalizing h with
  | nil => exact .refl _ _ _
  | cons k ks ih =>
    unfold appendLoopH
    split
    · split
      · exact .refl _ _ _
      · rename_i c _
        have f : Frame l h m { (h.newArr c).1 with dicts := updAt h.dicts d (dset (h.dicts d) k (h.newArr c).2) } m := by
          refine frame_dict (h' := (h.newArr c).1) (frame_newArr h m c hl) (d := d) ?_
          intro k' hk'
          rcases mem_dset_or hk' with hk' | hk'
          · exact ⟨d, hd, k', hk'⟩
          · have : l = h.nArrs := hk'
            omega
        exact f.trans (ih _ (Nat.lt_of_lt_of_le hl f.nArrs) hd)
    · exact .refl _ _ _

theorem act_frame {E : NpEnv} {w : World} {l i : Nat} {a : Act} (hw : WInv w) (hi : i < w.n)
    (hg : ¬ Gives l (.world (.act i a))) (hl : l < w.heap.nArrs) :
    Frame l w.heap (w.packs i).mask ((w.packs i).act E w.packs w.heap a).1
      ((w.packs i).act E w.packs w.heap a).2.1.mask := by
  have hp := hw.pack hi
  generalize ho : w.packs i = o at *
  cases a with
  | setMask s =>
    obtain ⟨a1, a2, _⟩ := take_frame w.heap o.mask (s := s) hg hl
    exact a1.trans (frame_setMask _ o a2)
  | setMaskBad => exact .refl _ _ _
  | setMindur m => exact frame_applyMindur l w.heap { o with mindur := m }
  | setMindurBad => exact .refl _ _ _
  | setNof v =>
    show Frame l w.heap o.mask (if v ∈ nofvalids then (w.heap, { o with nof := v }, none) else (w.heap, o, some Exc.valueError)).1
      (if v ∈ nofvalids then (w.heap, { o with nof := v }, none) else (w.heap, o, some Exc.valueError)).2.1.mask
    split <;> exact .refl _ _ _
  | setData d =>
    have a1 := newNpDict_frame o.mask d hg w.heap hl
    exact a1.trans (frame_maskReset _ { o with data := (newNpDict w.heap d).2 } (Nat.lt_of_lt_of_le hl a1.nArrs))
  | setDataBad e => exact .refl _ _ _
  | setDataNp d => exact newNpDict_frame o.mask d hg w.heap hl
  | setNames n => exact ⟨Nat.le_refl _, fun _ => rfl, fun h => h, fun h => h⟩
  | setFn s => exact .refl _ _ _
  | setFnBad => exact .refl _ _ _
  | setPrefix s => exact .refl _ _ _
  | setPrefixBad => exact .refl _ _ _
  | dataItem k s =>
    obtain ⟨a1, a2, a3, a4⟩ := take_frame w.heap o.mask (s := s) hg hl
    refine frame_dict (h' := (s.take w.heap).1) a1 (d := o.data) ?_
    intro k' hk'
    rcases mem_dset_or hk' with hk' | hk'
    · have hk' : (k', l) ∈ (s.take w.heap).1.dicts o.data := hk'
      rw [a3] at hk'
      exact ⟨_, hp.data, k', hk'⟩
    · exact absurd (hk' : l = _).symm a2
  | dataDel k =>
    by_cases hk : (dget (w.heap.dicts o.data) k).isSome
    · have e : o.act E w.packs w.heap (.dataDel k) =
          ({ w.heap with dicts := updAt w.heap.dicts o.data ((w.heap.dicts o.data).filter (·.1 ≠ k)) }, o, none) := by
        simp only [PObj.act, hk, if_true]
      rw [e]
      refine frame_dict (h' := w.heap) (.refl _ _ _) (d := o.data) ?_
      intro k' hk'
      exact ⟨_, hp.data, k', (List.mem_filter.1 hk').1⟩
    · have e : o.act E w.packs w.heap (.dataDel k) = (w.heap, o, some .keyError) := by
        simp only [PObj.act, hk]; rfl
      rw [e]
      exact .refl _ _ _
  | nameItem k v => exact ⟨Nat.le_refl _, fun _ => rfl, fun h => h, fun h => h⟩
  | maskReset => exact frame_maskReset _ o hl
  | duration q m => exact frame_duration _ _ _ _ _
  | startstop x y ap =>
    show Frame l w.heap o.mask (o.startstop w.heap x y ap).1 (o.startstop w.heap x y ap).2.1.mask
    unfold PObj.startstop
    split
    · split
      · rename_i m _
        by_cases e : l = o.mask
        · refine ⟨?_, fun h => absurd e h, fun _ => e.symm, ?_⟩
          · exact (frame_applyMindur l { w.heap with arrs := updAt w.heap.arrs o.mask ⟨.b, m.bits.map .bool⟩ }
              { o with mask := o.mask, cached := slicelist ((updAt w.heap.arrs o.mask ⟨.b, m.bits.map .bool⟩) o.mask).toMask.bits }).nArrs
          · intro hc
            have f := (frame_applyMindur l { w.heap with arrs := updAt w.heap.arrs o.mask ⟨.b, m.bits.map .bool⟩ }
              { o with mask := o.mask, cached := slicelist ((updAt w.heap.arrs o.mask ⟨.b, m.bits.map .bool⟩) o.mask).toMask.bits }).chan hc
            exact f
        · have f := frame_setMask (l := l) { w.heap with arrs := updAt w.heap.arrs o.mask ⟨.b, m.bits.map .bool⟩ } o
            (l' := o.mask) (fun h => e h.symm)
          refine ⟨f.nArrs, fun h => ?_, f.mask, f.chan⟩
          exact (f.same h).trans (updAt_ne _ _ h)
      · exact .refl _ _ _
    · exact .refl _ _ _
  | append j =>
    show Frame l w.heap o.mask (o.append E w.heap (w.packs j)).1 (o.append E w.heap (w.packs j)).2.1.mask
    have hdata : ∀ h o' e, appendDataH E w.heap o (w.packs j) = (h, o', e) →
        Frame l w.heap o.mask h o'.mask := by
      intro h o' e he
      unfold appendDataH at he
      split at he
      · cases he; exact .refl _ _ _
      · split at he
        · cases he; exact .refl _ _ _
        · split at he
          · have f := appendLoop_frame (E := E) (l := l) o.mask o.data (w.packs j).data
              (dkeys (w.heap.dicts (w.packs j).data)) w.heap hl hp.data
            cases hx : appendLoopH E o.data (w.packs j).data w.heap (dkeys (w.heap.dicts (w.packs j).data))
            rw [hx] at he f
            cases he
            exact f
          · cases he; exact .refl _ _ _
    have hnames : ∀ h (o' o'' : PObj) e, appendNamesH h o' (w.packs j) = (o'', e) → o''.mask = o'.mask := by
      intro h o' o'' e he
      unfold appendNamesH at he
      split at he
      · cases he; rfl
      · split at he
        · cases he; rfl
        · split at he <;> cases he <;> rfl
    unfold PObj.append
    cases h1 : appendDataH E w.heap o (w.packs j) with
    | mk h r =>
      obtain ⟨o', e⟩ := r
      have f := hdata h o' e h1
      cases e with
      | some e => exact f
      | none =>
        dsimp only
        cases h2 : appendNamesH h o' (w.packs j) with
        | mk o'' e =>
          have hm := hnames h o' o'' e h2
          cases e with
          | some e =>
            dsimp only
            rw [hm]; exact f
          | none =>
            dsimp only
            have g := frame_maskReset h { o'' with filenames := o''.filenames ++ (w.packs j).filenames }
              (Nat.lt_of_lt_of_le hl f.nArrs)
            refine f.trans (m₂ := o'.mask) ?_
            rw [← hm]
            exact g
  | shareData j => exact .refl _ _ _
  | shareNames j => exact .refl _ _ _

/-- A step with packs that does not give them the array `l`. -/
structure StepFrame (l : Nat) (w w' : World) : Prop where
  nArrs : w.heap.nArrs ≤ w'.heap.nArrs
  same : ¬ IsMask w l → w'.heap.arrs l = w.heap.arrs l
  mask : IsMask w' l → IsMask w l
  chan : IsChannel w' l → IsChannel w l

theorem step_frame {E : NpEnv} {w : World} {l : Nat} {op : WOp} (hw : WInv w) (hs : Sensible w op)
    (hg : ¬ Gives l (.world op)) (hl : l < w.heap.nArrs) : StepFrame l w (w.step E op).1 := by
  cases op with
  | make d n =>
    have a1 := newNpDict_frame (l := l) 0 d hg w.heap hl
    have a2 : Frame l w.heap 0 ((newNpDict w.heap d).1.newTab (dictOf n)).1 0 := ⟨a1.nArrs, a1.same, a1.mask, a1.chan⟩
    have hreset := frame_maskReset (l := l) ((newNpDict w.heap d).1.newTab (dictOf n)).1
      { pre := ['c', 'h'], data := (newNpDict w.heap d).2, names := ((newNpDict w.heap d).1.newTab (dictOf n)).2,
        fn := [], filenames := [[]], nof := none, mindur := none, mask := 0, cached := [] }
      (Nat.lt_of_lt_of_le hl a2.nArrs)
    obtain ⟨h', o', h1, h2, _, _, _, _, h3⟩ := make_step_mask (E := E) hw hs
    rw [h1]
    have e1 : h' = (PObj.maskReset ((newNpDict w.heap d).1.newTab (dictOf n)).1
      { pre := ['c', 'h'], data := (newNpDict w.heap d).2, names := ((newNpDict w.heap d).1.newTab (dictOf n)).2,
        fn := [], filenames := [[]], nof := none, mindur := none, mask := 0, cached := [] }).1 :=
      congrArg (fun r : World × Option Exc => r.1.heap) h1.symm
    have hmask : o'.mask ≠ l := by omega
    refine ⟨h2.nArrs, fun _ => h2.arrs l hl (fun h => h), ?_, ?_⟩
    · rintro ⟨j, hj, he⟩
      dsimp only at hj he
      by_cases e : j = w.n
      · rw [e, updAt_same] at he
        exact absurd he hmask
      · rw [updAt_ne _ _ e] at he
        exact ⟨j, by omega, he⟩
    · intro hc
      have hc' : InDict h' l := hc
      rw [e1] at hc'
      exact a2.chan (hreset.chan hc')
  | act i a =>
    have f := act_frame (E := E) hw hs.1 hg hl
    obtain ⟨h', o', e, h1, h2, _⟩ := act_step (E := E) hw hs
    rw [h1]
    have e0 : (w.packs i).act E w.packs w.heap a = (h', o', e) := by
      have e1 := congrArg (fun r : World × Option Exc => r.1.heap) h1
      have e2 := congrArg (fun r : World × Option Exc => r.1.packs i) h1
      have e3 := congrArg Prod.snd h1
      unfold World.step at e1 e2 e3
      dsimp only at e1 e2 e3
      rw [updAt_same, updAt_same] at e2
      cases hx : (w.packs i).act E w.packs w.heap a with
      | mk x y =>
        cases y
        rw [hx] at e1 e2 e3
        dsimp only at e1 e2 e3
        rw [e1, e2, e3]
    rw [e0] at f
    dsimp only at f
    refine ⟨f.nArrs, fun hm => f.same (fun e => hm ⟨i, hs.1, e.symm⟩), ?_, fun hc => f.chan hc⟩
    rintro ⟨j, hj, he⟩
    dsimp only at hj he
    by_cases e : j = i
    · rw [e, updAt_same] at he
      exact ⟨i, hs.1, f.mask he⟩
    · rw [updAt_ne _ _ e] at he
      exact ⟨j, hj, he⟩

end CP
