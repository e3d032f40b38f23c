import Verif.Lemmas.Views
import Verif.Props.World
import Verif.Props.Masks
/-!
# C76: arrays that a pack hands out
-/

namespace CP
open Spec

/-! ## Invariants -/

/-- Packs are in order and the arrays in hand exist. -/
structure HandsOk (s : Hands) : Prop where
  inv : WInv s.world
  held : ∀ r ∈ s.held, r.arr < s.world.heap.nArrs

theorem now_eq (h : Heap) (o : PObj) : o.now h = Spec.view h o := rfl

theorem winv_arrs {w : World} (hw : WInv w) (f : Nat → Arr) : WInv { w with heap := { w.heap with arrs := f } } :=
  ⟨⟨hw.dicts.arr, hw.dicts.keys, hw.dicts.masks⟩, hw.data, hw.names, hw.masks⟩

theorem winv_newArr {w : World} (hw : WInv w) (a : Arr) : WInv { w with heap := (w.heap.newArr a).1 } :=
  ⟨newArr_dinv hw.dicts a, hw.data, hw.names, hw.masks⟩

theorem view_newArr {w : World} (hw : WInv w) (a : Arr) {j : Nat} (hj : j < w.n) :
    World.view { w with heap := (w.heap.newArr a).1 } j = World.view w j := by
  have hp := hw.pack hj
  exact view_keeps (newArr_keeps w.heap a) hp.data hp.names hp.mask
    (fun p hpm => ⟨(hp.arr _ hp.data p hpm).1, fun h => h⟩) (fun h => h) (fun h => h) (fun h => h)

theorem read_newArr {h : Heap} (a : Arr) {r : Win} (hr : r.arr < h.nArrs) :
    r.read (h.newArr a).1 = r.read h := by
  unfold Win.read
  rw [(newArr_keeps h a).arrs _ hr (fun h => h)]

theorem slice_read {h : Heap} {l : Nat} {s t : Nat} :
    (Win.sub ⟨l, 0, (h.arrs l).els.length⟩ s t).read h = (h.arrs l).slice (s, t) := by
  unfold Win.read Win.sub Arr.slice pySlice
  dsimp only
  rw [List.drop_take, Nat.zero_add]
  congr 1
  have : ((h.arrs l).els.drop s).length = (h.arrs l).els.length - s := List.length_drop
  rw [← this]
  generalize (h.arrs l).els.drop s = x
  rcases Nat.le_total x.length (t - s) with hle | hle
  · rw [Nat.min_eq_left hle, List.take_length, List.take_of_length_le hle]
  · rw [Nat.min_eq_right hle]

theorem whole_read {h : Heap} {l : Nat} :
    Win.read h ⟨l, 0, (h.arrs l).els.length⟩ = h.arrs l := by
  unfold Win.read
  dsimp only
  rw [List.drop_zero, List.take_length]

/-- The cases of a call: it raises; it is a new array; it is a window of the channel. -/
theorem call_cases (h : Heap) (o : PObj) (ch : Ch) (part : Option Int) (nof : Option String) :
    (∃ e, (o.now h).call ch part nof = .error e ∧ o.call h ch part nof = (h, .error e)) ∨
    (∃ a, (o.now h).call ch part nof = .ok a ∧ Masking (o.now h) part nof ∧
      o.call h ch part nof = ((h.newArr a).1, .ok ⟨h.nArrs, 0, a.els.length⟩)) ∨
    (∃ key l, (o.now h).datakey ch = .ok key ∧ dget (h.dicts o.data) key = some l ∧
      ¬ Masking (o.now h) part nof ∧
      ((part = none ∧ (o.now h).call ch part nof = .ok (h.arrs l) ∧
          o.call h ch part nof = (h, .ok ⟨l, 0, (h.arrs l).els.length⟩)) ∨
       ∃ i st, part = some i ∧ pyIndex o.cached i = .ok st ∧
          (o.now h).call ch part nof = .ok ((h.arrs l).slice st) ∧
          o.call h ch part nof = (h, .ok (Win.sub ⟨l, 0, (h.arrs l).els.length⟩ st.1 st.2)))) := by
  have hmask : (o.now h).mask = (h.arrs o.mask).toMask := rfl
  have hnof : (o.now h).nof = o.nof := rfl
  have hcached : (o.now h).cached = o.cached := rfl
  have hget : ∀ k, dget (o.now h).data k = (dget (h.dicts o.data) k).map h.arrs := fun k => dget_map _ _ k
  unfold Pack.call PObj.call Masking
  rw [hnof, hmask, hcached]
  cases hk : (o.now h).datakey ch with
  | error e => exact .inl ⟨e, rfl, rfl⟩
  | ok key =>
    dsimp only
    rw [hget]
    cases hl : dget (h.dicts o.data) key with
    | none => exact .inl ⟨_, rfl, rfl⟩
    | some l =>
      dsimp only [Option.map_some]
      cases part with
      | some i =>
        dsimp only
        cases hi : pyIndex o.cached i with
        | error e => exact .inl ⟨_, rfl, rfl⟩
        | ok st =>
          exact .inr (.inr ⟨key, l, rfl, hl, fun h => (nomatch h.1), .inr ⟨i, st, rfl, hi, rfl, rfl⟩⟩)
      | none =>
        dsimp only
        have done : ∀ r : Except Exc Arr, (nof = some "nan" ∨ nof = some "filter" ∨
              nof ≠ some "ignore" ∧ (o.nof = some "nan" ∨ o.nof = some "filter")) →
            (∃ e, r = .error e ∧ fresh h r = (h, .error e)) ∨
            (∃ a, r = .ok a ∧ (True ∧ (nof = some "nan" ∨ nof = some "filter" ∨
              nof ≠ some "ignore" ∧ (o.nof = some "nan" ∨ o.nof = some "filter"))) ∧
              fresh h r = ((h.newArr a).1, .ok ⟨h.nArrs, 0, a.els.length⟩)) := by
          intro r hr
          cases r with
          | error e => exact .inl ⟨e, rfl, rfl⟩
          | ok a => exact .inr ⟨a, rfl, ⟨trivial, hr⟩, rfl⟩
        by_cases c1 : nof = some "nan"
        · simp only [if_pos c1]
          rcases done (masked (h.arrs l) (h.arrs o.mask).toMask) (.inl c1) with ⟨e, h1, h2⟩ | ⟨a, h1, h2, h3⟩
          · exact .inl ⟨e, h1, h2⟩
          · exact .inr (.inl ⟨a, h1, ⟨trivial, h2.2⟩, h3⟩)
        simp only [if_neg c1]
        by_cases c2 : nof = some "filter"
        · simp only [if_pos c2]
          rcases done (boolIndex (h.arrs l) (h.arrs o.mask).toMask) (.inr (.inl c2)) with ⟨e, h1, h2⟩ | ⟨a, h1, h2, h3⟩
          · exact .inl ⟨e, h1, h2⟩
          · exact .inr (.inl ⟨a, h1, ⟨trivial, h2.2⟩, h3⟩)
        simp only [if_neg c2]
        by_cases c3 : nof = some "ignore"
        · simp only [if_pos c3]
          refine .inr (.inr ⟨key, l, rfl, hl, ?_, .inl ⟨trivial, rfl, rfl⟩⟩)
          rintro ⟨-, h | h | h⟩
          · exact c1 h
          · exact c2 h
          · exact h.1 c3
        simp only [if_neg c3]
        by_cases c4 : o.nof = some "nan"
        · simp only [if_pos c4]
          rcases done (masked (h.arrs l) (h.arrs o.mask).toMask) (.inr (.inr ⟨c3, .inl c4⟩)) with
            ⟨e, h1, h2⟩ | ⟨a, h1, h2, h3⟩
          · exact .inl ⟨e, h1, h2⟩
          · exact .inr (.inl ⟨a, h1, ⟨trivial, h2.2⟩, h3⟩)
        simp only [if_neg c4]
        by_cases c5 : o.nof = some "filter"
        · simp only [if_pos c5]
          rcases done (boolIndex (h.arrs l) (h.arrs o.mask).toMask) (.inr (.inr ⟨c3, .inr c5⟩)) with
            ⟨e, h1, h2⟩ | ⟨a, h1, h2, h3⟩
          · exact .inl ⟨e, h1, h2⟩
          · exact .inr (.inl ⟨a, h1, ⟨trivial, h2.2⟩, h3⟩)
        simp only [if_neg c5]
        by_cases c6 : o.nof ≠ none ∧ o.nof ≠ some ""
        · rw [if_pos c6, if_pos c6]
          exact .inl ⟨_, rfl, rfl⟩
        · rw [if_neg c6, if_neg c6]
          refine .inr (.inr ⟨key, l, rfl, hl, ?_, .inl ⟨trivial, rfl, rfl⟩⟩)
          rintro ⟨-, h | h | h⟩
          · exact c1 h
          · exact c2 h
          · exact h.2.elim c4 c5

/-- The cases of `r[i] = v`. -/
theorem write_cases (S : Store) (h : Heap) (r : Win) (i : Int) (v : Val) :
    (∃ e, r.write S h i v = (h, some e)) ∨
    ∃ j x, j < (r.read h).els.length ∧ S (h.arrs r.arr).kind v = .ok x ∧
      r.write S h i v = (let a : Arr := ⟨(h.arrs r.arr).kind, (h.arrs r.arr).els.set (r.off + j) x⟩
        { h with arrs := updAt h.arrs r.arr a }, none) := by
  unfold Win.write
  dsimp only
  generalize (if i < 0 then i + ((r.read h).els.length : Int) else i) = j
  by_cases hj : j < 0 ∨ ((r.read h).els.length : Int) ≤ j
  · rw [if_pos hj]; exact .inl ⟨_, rfl⟩
  · rw [if_neg hj]
    cases hx : S (h.arrs r.arr).kind v with
    | error e => exact .inl ⟨e, rfl⟩
    | ok x => exact .inr ⟨j.toNat, x, by omega, rfl, rfl⟩

theorem handsOk_step {E : NpEnv} {S : Store} {s : Hands} {op : HOp} (hs : HandsOk s) (ho : SensibleH s op) :
    HandsOk (s.step E S op).1 ∧ s.world.heap.nArrs ≤ (s.step E S op).1.world.heap.nArrs ∧
      s.world.n ≤ (s.step E S op).1.world.n := by
  cases op with
  | world op =>
    have key : WInv (s.world.step E op).1 ∧ s.world.heap.nArrs ≤ (s.world.step E op).1.heap.nArrs ∧
        s.world.n ≤ (s.world.step E op).1.n := by
      cases op with
      | make d n =>
        obtain ⟨h', o', h1, h2, -, -, -, h3⟩ := make_step (E := E) hs.inv ho
        rw [h1]; exact ⟨h3, h2.nArrs, Nat.le_succ _⟩
      | act i a =>
        obtain ⟨h', o', e, h1, h2, h3⟩ := act_step (E := E) hs.inv ho
        rw [h1]; exact ⟨h3, h2.keeps.nArrs, Nat.le_refl _⟩
    exact ⟨⟨key.1, fun r hr => Nat.lt_of_lt_of_le (hs.held r hr) key.2.1⟩, key.2⟩
  | call i ch part nof =>
    have hp := hs.inv.pack ho
    unfold Hands.step
    rcases call_cases s.world.heap (s.world.packs i) ch part nof with
      ⟨e, _, h2⟩ | ⟨a, _, _, h2⟩ | ⟨key, l, _, hl, _, h⟩
    · dsimp only; rw [h2]; exact ⟨hs, Nat.le_refl _, Nat.le_refl _⟩
    · dsimp only; rw [h2]
      refine ⟨⟨winv_newArr hs.inv a, ?_⟩, Nat.le_succ _, Nat.le_refl _⟩
      intro r hr
      rcases List.mem_append.1 hr with hr | hr
      · exact Nat.lt_succ_of_lt (hs.held r hr)
      · rw [List.mem_singleton.1 hr]; exact Nat.lt_succ_self _
    · have hlt := (hp.arr _ hp.data _ (dget_mem hl)).1
      have : ∀ r : Win, r.arr = l → HandsOk ⟨s.world, s.held ++ [r]⟩ := by
        intro r hr
        refine ⟨hs.inv, ?_⟩
        intro r' hr'
        rcases List.mem_append.1 hr' with hr' | hr'
        · exact hs.held r' hr'
        · rw [List.mem_singleton.1 hr', hr]; exact hlt
      rcases h with ⟨_, _, h2⟩ | ⟨_, st, _, _, _, h2⟩
      · dsimp only; rw [h2]; exact ⟨this _ rfl, Nat.le_refl _, Nat.le_refl _⟩
      · dsimp only; rw [h2]; exact ⟨this _ rfl, Nat.le_refl _, Nat.le_refl _⟩
  | maskOf i =>
    have hp := hs.inv.pack ho
    refine ⟨⟨hs.inv, ?_⟩, Nat.le_refl _, Nat.le_refl _⟩
    intro r hr
    rcases List.mem_append.1 hr with hr | hr
    · exact hs.held r hr
    · rw [List.mem_singleton.1 hr]; exact hp.mask
  | sub k a b =>
    unfold Hands.step
    dsimp only
    split
    · exact ⟨hs, Nat.le_refl _, Nat.le_refl _⟩
    · rename_i r hr
      refine ⟨⟨hs.inv, ?_⟩, Nat.le_refl _, Nat.le_refl _⟩
      intro r' hr'
      rcases List.mem_append.1 hr' with hr' | hr'
      · exact hs.held r' hr'
      · rw [List.mem_singleton.1 hr']; exact hs.held r (List.mem_of_getElem? hr)
  | write k i v =>
    unfold Hands.step
    dsimp only
    split
    · exact ⟨hs, Nat.le_refl _, Nat.le_refl _⟩
    · rename_i r hr
      rcases write_cases S s.world.heap r i v with ⟨e, h⟩ | ⟨j, x, _, _, h⟩
      · rw [h]; exact ⟨hs, Nat.le_refl _, Nat.le_refl _⟩
      · rw [h]; exact ⟨⟨winv_arrs hs.inv _, hs.held⟩, Nat.le_refl _, Nat.le_refl _⟩

theorem hprograms_ok {E : NpEnv} {S : Store} {s : Hands} (h : HPrograms E S s) : HandsOk s := by
  induction h with
  | start => exact ⟨winv_empty, fun r hr => (nomatch hr)⟩
  | next _ ho ih => exact (handsOk_step ih ho).1

theorem later_ok {E : NpEnv} {S : Store} {P : Hands → HOp → Prop} {s t : Hands} (hs : HandsOk s)
    (h : Later E S P s t) : HandsOk t ∧ s.world.heap.nArrs ≤ t.world.heap.nArrs ∧ s.world.n ≤ t.world.n := by
  induction h with
  | here => exact ⟨hs, Nat.le_refl _, Nat.le_refl _⟩
  | next _ ho _ ih =>
    have := handsOk_step (E := E) (S := S) ih.1 ho
    exact ⟨this.1, Nat.le_trans ih.2.1 this.2.1, Nat.le_trans ih.2.2 this.2.2⟩

/-- What is in hand stays in hand. -/
theorem held_step {E : NpEnv} {S : Store} {s : Hands} {op : HOp} {k : Nat} {r : Win}
    (h : s.held[k]? = some r) : (s.step E S op).1.held[k]? = some r := by
  have app : ∀ x : List Win, (s.held ++ x)[k]? = some r := by
    intro x
    rw [List.getElem?_append_left (List.getElem?_eq_some_iff.1 h).1]
    exact h
  cases op with
  | world op => exact h
  | call i ch part nof =>
    unfold Hands.step
    dsimp only
    split
    · exact app _
    · exact h
  | maskOf i => exact app _
  | sub k a b =>
    unfold Hands.step
    dsimp only
    split
    · exact h
    · exact app _
  | write k i v =>
    unfold Hands.step
    dsimp only
    split
    · exact h
    · exact h

theorem held_later {E : NpEnv} {S : Store} {P : Hands → HOp → Prop} {s t : Hands} {k : Nat} {r : Win}
    (hk : s.held[k]? = some r) (h : Later E S P s t) : t.held[k]? = some r := by
  induction h with
  | here => exact hk
  | next _ _ _ ih => exact held_step ih

/-! ## Writing -/

theorem view_write {h : Heap} {o : PObj} {l : Nat} (b : Arr) (hm : o.mask ≠ l) :
    Spec.view { h with arrs := updAt h.arrs l b } o =
      { Spec.view h o with data := (Spec.view { h with arrs := updAt h.arrs l b } o).data } := by
  unfold Spec.view
  dsimp only
  rw [updAt_ne _ _ hm]

theorem view_get (h : Heap) (o : PObj) (k : Int) :
    dget (Spec.view h o).data k = (dget (h.dicts o.data) k).map h.arrs := dget_map _ _ k

theorem view_write_other {h : Heap} {o : PObj} {l : Nat} (b : Arr) (hm : o.mask ≠ l)
    (hd : ∀ p ∈ h.dicts o.data, p.2 ≠ l) :
    Spec.view { h with arrs := updAt h.arrs l b } o = Spec.view h o := by
  unfold Spec.view
  dsimp only
  rw [updAt_ne _ _ hm]
  congr 1
  apply List.map_congr_left
  intro p hp
  rw [updAt_ne _ _ (hd p hp)]

/-- A channel keeps its kind and length, whatever is done. -/
theorem chan_step {E : NpEnv} {S : Store} {s : Hands} {op : HOp} {l : Nat} (hs : HandsOk s) (ho : SensibleH s op)
    (hc : IsChannel s.world l) :
    ((s.step E S op).1.world.heap.arrs l).kind = (s.world.heap.arrs l).kind ∧
    ((s.step E S op).1.world.heap.arrs l).els.length = (s.world.heap.arrs l).els.length := by
  obtain ⟨d, hd, k, hk⟩ := hc
  have hl := (hs.inv.dicts.arr d hd _ hk).1
  have triv : ∀ h : Heap, h.arrs l = s.world.heap.arrs l → (h.arrs l).kind = (s.world.heap.arrs l).kind ∧
      (h.arrs l).els.length = (s.world.heap.arrs l).els.length := fun h e => by rw [e]; exact ⟨rfl, rfl⟩
  cases op with
  | world op =>
    refine triv _ ?_
    show (s.world.step E op).1.heap.arrs l = _
    cases op with
    | make d n =>
      obtain ⟨h', o', h1, h2, -, -, -, h3⟩ := make_step (E := E) hs.inv ho
      rw [h1]; exact h2.arrs l hl (fun h => h)
    | act i a =>
      obtain ⟨h', o', e, h1, h2, h3⟩ := act_step (E := E) hs.inv ho
      rw [h1]; exact h2.keeps.arrs l hl (fun h => h.2 d hd _ hk rfl)
  | call i ch part nof =>
    refine triv _ ?_
    unfold Hands.step
    dsimp only
    rcases call_cases s.world.heap (s.world.packs i) ch part nof with
      ⟨e, _, h2⟩ | ⟨a, _, _, h2⟩ | ⟨key, l', _, hl', _, h⟩
    · rw [h2]
    · rw [h2]; exact (newArr_keeps s.world.heap a).arrs l hl (fun h => h)
    · rcases h with ⟨_, _, h2⟩ | ⟨_, st, _, _, _, h2⟩ <;> rw [h2]
  | maskOf i => exact ⟨rfl, rfl⟩
  | sub k a b =>
    refine triv _ ?_
    unfold Hands.step
    dsimp only
    split <;> rfl
  | write k i v =>
    unfold Hands.step
    dsimp only
    split
    · exact ⟨rfl, rfl⟩
    · rename_i r hr
      rcases write_cases S s.world.heap r i v with ⟨e, h⟩ | ⟨j, x, _, _, h⟩
      · rw [h]; exact ⟨rfl, rfl⟩
      · rw [h]
        by_cases e : l = r.arr
        · subst e; simp
        · simp [updAt_ne _ _ e]

/-- An array that is not part of a pack becomes part of one only if it is handed over. -/
theorem private_step {E : NpEnv} {S : Store} {s : Hands} {op : HOp} {l : Nat} (hs : HandsOk s)
    (ho : SensibleH s op) (hg : ¬ Gives l op) (hl : l < s.world.heap.nArrs) (hm : ¬ IsMask s.world l)
    (hc : ¬ IsChannel s.world l) :
    ¬ IsMask (s.step E S op).1.world l ∧ ¬ IsChannel (s.step E S op).1.world l := by
  cases op with
  | world op =>
    have f := step_frame (E := E) hs.inv ho hg hl
    exact ⟨fun h => hm (f.mask h), fun h => hc (f.chan h)⟩
  | call i ch part nof =>
    unfold Hands.step
    dsimp only
    rcases call_cases s.world.heap (s.world.packs i) ch part nof with
      ⟨e, _, h2⟩ | ⟨a, _, _, h2⟩ | ⟨key, l', _, hl', _, h⟩
    · rw [h2]; exact ⟨hm, hc⟩
    · rw [h2]; exact ⟨hm, hc⟩
    · rcases h with ⟨_, _, h2⟩ | ⟨_, st, _, _, _, h2⟩ <;> (rw [h2]; exact ⟨hm, hc⟩)
  | maskOf i => exact ⟨hm, hc⟩
  | sub k a b =>
    unfold Hands.step
    dsimp only
    split <;> exact ⟨hm, hc⟩
  | write k i v =>
    unfold Hands.step
    dsimp only
    split
    · exact ⟨hm, hc⟩
    · rename_i r hr
      rcases write_cases S s.world.heap r i v with ⟨e, h⟩ | ⟨j, x, _, _, h⟩ <;> (rw [h]; exact ⟨hm, hc⟩)

/-- An array that is not the mask of a pack changes only if it is handed over or written
to. -/
theorem private_same {E : NpEnv} {S : Store} {s : Hands} {op : HOp} {l : Nat} (hs : HandsOk s)
    (ho : SensibleH s op) (hg : ¬ Gives l op) (hw : ¬ Writes l s op) (hl : l < s.world.heap.nArrs)
    (hm : ¬ IsMask s.world l) : (s.step E S op).1.world.heap.arrs l = s.world.heap.arrs l := by
  cases op with
  | world op => exact (step_frame (E := E) hs.inv ho hg hl).same hm
  | call i ch part nof =>
    unfold Hands.step
    dsimp only
    rcases call_cases s.world.heap (s.world.packs i) ch part nof with
      ⟨e, _, h2⟩ | ⟨a, _, _, h2⟩ | ⟨key, l', _, hl', _, h⟩
    · rw [h2]
    · rw [h2]; exact (newArr_keeps s.world.heap a).arrs l hl (fun h => h)
    · rcases h with ⟨_, _, h2⟩ | ⟨_, st, _, _, _, h2⟩ <;> rw [h2]
  | maskOf i => rfl
  | sub k a b =>
    unfold Hands.step
    dsimp only
    split <;> rfl
  | write k i v =>
    unfold Hands.step
    dsimp only
    split
    · rfl
    · rename_i r hr
      have hne : l ≠ r.arr := fun e => hw ⟨r, hr, e.symm⟩
      rcases write_cases S s.world.heap r i v with ⟨e, h⟩ | ⟨j, x, _, _, h⟩
      · rw [h]
      · rw [h]; exact updAt_ne _ _ hne

/-! ## C76 -/

/-- C76: what a call gives is what C04, C08, C17 say about it, and it changes nothing: no
pack, and nothing in hand. -/
theorem C76_call (E : NpEnv) (S : Store) (s : Hands) (hs : HPrograms E S s) (i : Nat)
    (ch : Ch) (part : Option Int) (nof : Option String) :
    (∀ j, j < s.world.n → World.view (s.step E S (.call i ch part nof)).1.world j = World.view s.world j) ∧
    (∀ k a, Hands.holds s k = some a → Hands.holds (s.step E S (.call i ch part nof)).1 k = some a) ∧
    match (World.view s.world i).call ch part nof with
    | .ok a => (s.step E S (.call i ch part nof)).2 = none ∧
        (s.step E S (.call i ch part nof)).1.held.length = s.held.length + 1 ∧
        Hands.holds (s.step E S (.call i ch part nof)).1 s.held.length = some a
    | .error e => s.step E S (.call i ch part nof) = (s, some e) := by
  have ok := hprograms_ok hs
  have hold : ∀ (h : Heap) (x : List Win) k a, Hands.holds s k = some a →
      (∀ r ∈ s.held, r.read h = r.read s.world.heap) →
      Hands.holds ⟨{ s.world with heap := h }, s.held ++ x⟩ k = some a := by
    intro h x k a hk hr
    unfold Hands.holds at *
    cases hr' : s.held[k]? with
    | none => rw [hr'] at hk; simp at hk
    | some r =>
      rw [hr'] at hk
      dsimp only
      rw [List.getElem?_append_left (List.getElem?_eq_some_iff.1 hr').1, hr']
      rw [← hk]
      exact congrArg some (hr r (List.mem_of_getElem? hr'))
  have last : ∀ (h : Heap) (r : Win), Hands.holds ⟨{ s.world with heap := h }, s.held ++ [r]⟩ s.held.length =
      some (r.read h) := by
    intro h r
    unfold Hands.holds
    dsimp only
    rw [List.getElem?_concat_length]
    rfl
  have hview : World.view s.world i = (s.world.packs i).now s.world.heap := rfl
  rw [hview]
  unfold Hands.step
  dsimp only
  rcases call_cases s.world.heap (s.world.packs i) ch part nof with
    ⟨e, h1, h2⟩ | ⟨a, h1, _, h2⟩ | ⟨key, l, _, hl, _, h⟩
  · rw [h1, h2]
    exact ⟨fun j _ => rfl, fun k a h => h, rfl⟩
  · rw [h1, h2]
    refine ⟨fun j hj => view_newArr ok.inv a hj, fun k b hk => ?_, rfl, by simp, ?_⟩
    · exact hold _ _ k b hk (fun r hr => read_newArr a (ok.held r hr))
    · refine (last _ _).trans ?_
      have : (s.world.heap.newArr a).1.arrs s.world.heap.nArrs = a := updAt_same _ _ _
      unfold Win.read
      dsimp only
      rw [this, List.drop_zero, List.take_length]
  · rcases h with ⟨_, h1, h2⟩ | ⟨_, st, _, _, h1, h2⟩
    · rw [h1, h2]
      exact ⟨fun j _ => rfl, fun k b hk => hold _ _ k b hk (fun r _ => rfl), rfl, by simp,
        (last _ _).trans (congrArg some whole_read)⟩
    · rw [h1, h2]
      exact ⟨fun j _ => rfl, fun k b hk => hold _ _ k b hk (fun r _ => rfl), rfl, by simp,
        (last _ _).trans (congrArg some slice_read)⟩

/-- A write at an index that is in range. -/
theorem write_at (S : Store) (h : Heap) (r : Win) (i : Nat) (v : Val) (hi : i < (r.read h).els.length)
    (i' : Int) (hi' : i' = i ∨ i' = i - ((r.read h).els.length : Int)) :
    r.write S h i' v = match S (h.arrs r.arr).kind v with
      | .error e => (h, some e)
      | .ok x => (let a : Arr := ⟨(h.arrs r.arr).kind, (h.arrs r.arr).els.set (r.off + i) x⟩
          { h with arrs := updAt h.arrs r.arr a }, none) := by
  unfold Win.write
  dsimp only
  rw [show (if i' < 0 then i' + ((r.read h).els.length : Int) else i') = i by split <;> omega, if_neg (by omega)]
  rfl

theorem write_out (S : Store) (h : Heap) (r : Win) (i : Int) (v : Val)
    (hi : i < -((r.read h).els.length : Int) ∨ ((r.read h).els.length : Int) ≤ i) :
    r.write S h i v = (h, some .indexError) := by
  unfold Win.write
  dsimp only
  rw [if_pos]
  split <;> omega

/-- C76: a call that is not for data as masked gives a window of the channel: as long as the
channel is the same array, what is in hand reads as the channel does now, and a write to it is
a write to the channel and to nothing else than channels that are that same array. -/
theorem C76_window (E : NpEnv) (S : Store) (s : Hands) (hs : HPrograms E S s) (i : Nat) (hi : i < s.world.n)
    (ch : Ch) (part : Option Int) (nof : Option String) (a : Arr)
    (ha : (World.view s.world i).call ch part nof = .ok a)
    (hm : ¬ Masking (World.view s.world i) part nof) :
    ∃ key c₀ st, (World.view s.world i).datakey ch = .ok key ∧
      dget (World.view s.world i).data key = some c₀ ∧ a = c₀.slice st ∧
      (part = none → st = (0, c₀.els.length)) ∧
      (∀ q, part = some q → pyIndex (World.view s.world i).cached q = .ok st) ∧
      ∀ t, Later E S (fun u _ => channelObj u.world i key = channelObj s.world i key)
          (s.step E S (.call i ch part nof)).1 t →
        channelObj t.world i key = channelObj s.world i key →
        ∃ c, dget (World.view t.world i).data key = some c ∧ c.kind = c₀.kind ∧
          c.els.length = c₀.els.length ∧ Hands.holds t s.held.length = some (c.slice st) ∧
          (∀ j : Int, j < -(a.els.length : Int) ∨ (a.els.length : Int) ≤ j → ∀ v,
            t.step E S (.write s.held.length j v) = (t, some .indexError)) ∧
          ∀ j : Nat, j < a.els.length → ∀ j' : Int, j' = j ∨ j' = j - (a.els.length : Int) → ∀ v,
            match S c.kind v with
            | .error e => t.step E S (.write s.held.length j' v) = (t, some e)
            | .ok x =>
              ∃ t', t.step E S (.write s.held.length j' v) = (t', none) ∧ t'.held = t.held ∧
                dget (World.view t'.world i).data key = some ⟨c.kind, c.els.set (st.1 + j) x⟩ ∧
                ∀ q, q < t.world.n → World.view t'.world q =
                    { World.view t.world q with data := (World.view t'.world q).data } ∧
                  ∀ key', channelObj t.world q key' ≠ channelObj s.world i key →
                    dget (World.view t'.world q).data key' = dget (World.view t.world q).data key' := by
  have ok := hprograms_ok hs
  -- the window that is got
  have main : ∃ key l st r, (World.view s.world i).datakey ch = .ok key ∧
      channelObj s.world i key = some l ∧ a = (s.world.heap.arrs l).slice st ∧
      (part = none → st = (0, (s.world.heap.arrs l).els.length)) ∧
      (∀ q, part = some q → pyIndex (World.view s.world i).cached q = .ok st) ∧
      r = Win.sub ⟨l, 0, (s.world.heap.arrs l).els.length⟩ st.1 st.2 ∧
      (s.step E S (.call i ch part nof)).1 = ⟨s.world, s.held ++ [r]⟩ := by
    unfold Hands.step
    dsimp only
    have hv : World.view s.world i = (s.world.packs i).now s.world.heap := rfl
    rw [hv] at ha hm ⊢
    rcases call_cases s.world.heap (s.world.packs i) ch part nof with
      ⟨e, h1, h2⟩ | ⟨a', h1, h3, h2⟩ | ⟨key, l, hk, hl, _, h⟩
    · rw [h1] at ha; cases ha
    · exact absurd h3 hm
    · rcases h with ⟨hp, h1, h2⟩ | ⟨q, st, hp, hq, h1, h2⟩
      · subst hp
        rw [h1] at ha
        cases ha
        refine ⟨key, l, (0, (s.world.heap.arrs l).els.length), _, hk, hl, ?_, fun _ => rfl, fun q h => (nomatch h), rfl, ?_⟩
        · simp [Arr.slice, pySlice]
        · rw [h2]; simp [Win.sub]
      · subst hp
        rw [h1] at ha
        cases ha
        exact ⟨key, l, st, _, hk, hl, rfl, fun h => (nomatch h), fun q' h => by cases h; exact hq, rfl, by rw [h2]⟩
  obtain ⟨key, l, st, r, hk, hl, haa, hst, hst', hr, hstep⟩ := main
  refine ⟨key, s.world.heap.arrs l, st, hk, ?_, haa, hst, hst', ?_⟩
  · show dget (Spec.view s.world.heap (s.world.packs i)).data key = _
    rw [view_get]; exact congrArg (Option.map s.world.heap.arrs) hl
  have ok' : HandsOk (s.step E S (.call i ch part nof)).1 := (handsOk_step (E := E) (S := S) (op := .call i ch part nof) ok hi).1
  have n' : s.world.n ≤ (s.step E S (.call i ch part nof)).1.world.n :=
    (handsOk_step (E := E) (S := S) (op := .call i ch part nof) ok hi).2.2
  intro t ht htc
  have hheld : t.held[s.held.length]? = some r := by
    refine held_later ?_ ht
    rw [hstep]; exact List.getElem?_concat_length
  have tok := later_ok ok' ht
  have chan : ∀ u : Hands, HandsOk u → i < u.world.n → channelObj u.world i key = some l →
      IsChannel u.world l := fun u hu hn h => ⟨_, hu.inv.data i hn, key, dget_mem h⟩
  have hlen : (t.world.heap.arrs l).kind = (s.world.heap.arrs l).kind ∧
      (t.world.heap.arrs l).els.length = (s.world.heap.arrs l).els.length := by
    clear htc hheld tok
    induction ht with
    | here => rw [hstep]; exact ⟨rfl, rfl⟩
    | @next u op hu ho hP ih =>
      have uok := later_ok ok' hu
      have := chan_step (E := E) (S := S) uok.1 ho
        (chan u uok.1 (Nat.lt_of_lt_of_le hi (Nat.le_trans n' uok.2.2)) (hP.trans hl))
      exact ⟨this.1.trans ih.1, this.2.trans ih.2⟩
  have htl : channelObj t.world i key = some l := htc.trans hl
  have hread : r.read t.world.heap = (t.world.heap.arrs l).slice st := by
    rw [hr, ← hlen.2]; exact slice_read
  have harr : r.arr = l := by rw [hr]; rfl
  have hoff : r.off = st.1 := by rw [hr]; exact Nat.zero_add _
  have hrl : (r.read t.world.heap).els.length = a.els.length := by
    rw [hread, haa]
    simp only [Arr.slice, pySlice, List.length_drop, List.length_take, hlen.2]
  have hi' : i < t.world.n := Nat.lt_of_lt_of_le hi (Nat.le_trans n' tok.2.2)
  obtain ⟨d, hd, k, hkd⟩ := chan t tok.1 hi' htl
  have hnm : ∀ q, q < t.world.n → (t.world.packs q).mask ≠ l := by
    intro q hq e
    exact (tok.1.inv.dicts.arr d hd _ hkd).2 ⟨q, hq, e⟩
  refine ⟨t.world.heap.arrs l, ?_, hlen.1, hlen.2, ?_, ?_, ?_⟩
  · show dget (Spec.view t.world.heap (t.world.packs i)).data key = _
    rw [view_get]; exact congrArg (Option.map t.world.heap.arrs) htl
  · unfold Hands.holds
    rw [hheld, ← hread]; rfl
  · intro j hj v
    unfold Hands.step
    dsimp only
    rw [hheld]
    dsimp only
    rw [write_out S _ r j v (by rw [hrl]; exact hj)]
  · intro j hj j' hj' v
    have hw := write_at S t.world.heap r j v (by rw [hrl]; exact hj) j' (by rw [hrl]; exact hj')
    rw [harr, hoff] at hw
    have hstp : t.step E S (.write s.held.length j' v) =
        (⟨{ t.world with heap := (r.write S t.world.heap j' v).1 }, t.held⟩, (r.write S t.world.heap j' v).2) := by
      unfold Hands.step
      dsimp only
      rw [hheld]
    rw [hstp, hw]
    cases hx : S (t.world.heap.arrs l).kind v with
    | error e => rfl
    | ok x =>
      dsimp only
      refine ⟨_, rfl, rfl, ?_, ?_⟩
      · show dget (Spec.view _ (t.world.packs i)).data key = _
        rw [view_get]
        dsimp only
        rw [show dget (t.world.heap.dicts (t.world.packs i).data) key = some l from htl]
        simp
      · intro q hq
        refine ⟨view_write _ (hnm q hq), ?_⟩
        intro key' hne
        show dget (Spec.view _ (t.world.packs q)).data key' = dget (Spec.view t.world.heap (t.world.packs q)).data key'
        rw [view_get, view_get]
        dsimp only
        cases hg : dget (t.world.heap.dicts (t.world.packs q).data) key' with
        | none => rfl
        | some l' =>
          have : l' ≠ l := by
            rintro rfl
            exact hne (hl ▸ hg)
          simp [updAt_ne _ _ this]

theorem sub_read (h : Heap) (r : Win) (a b : Nat) : (r.sub a b).read h = (r.read h).slice (a, b) := by
  unfold Win.read Win.sub Arr.slice pySlice
  dsimp only
  rw [List.take_take, List.drop_take, List.drop_drop]
  congr 2
  omega

/-- C76: `r[a:b]` is a window of `r`: a write to it is a write to `r`. -/
theorem C76_slice (E : NpEnv) (S : Store) (s : Hands) (k : Nat) (c : Arr) (hk : Hands.holds s k = some c)
    (a b : Nat) :
    ∃ s', s.step E S (.sub k a b) = (s', none) ∧ s'.world = s.world ∧ s'.held.length = s.held.length + 1 ∧
      Hands.holds s' s.held.length = some (c.slice (a, b)) ∧
      ∀ j : Nat, j < (c.slice (a, b)).els.length → ∀ v,
        s'.step E S (.write s.held.length j v) = s'.step E S (.write k (a + j : Nat) v) := by
  unfold Hands.holds at hk
  cases hr : s.held[k]? with
  | none => rw [hr] at hk; cases hk
  | some r =>
    rw [hr] at hk
    have hc : r.read s.world.heap = c := Option.some.inj hk
    have hst : s.step E S (.sub k a b) = (⟨s.world, s.held ++ [r.sub a b]⟩, none) := by
      unfold Hands.step; dsimp only; rw [hr]
    refine ⟨_, hst, rfl, by simp, ?_, ?_⟩
    · unfold Hands.holds
      dsimp only
      rw [List.getElem?_concat_length, ← hc, ← sub_read]
      rfl
    · intro j hj v
      unfold Hands.step
      dsimp only
      rw [List.getElem?_concat_length, List.getElem?_append_left (List.getElem?_eq_some_iff.1 hr).1, hr]
      dsimp only
      rw [← hc, ← sub_read] at hj
      have hj2 : a + j < (r.read s.world.heap).els.length := by
        rw [sub_read] at hj
        simp only [Arr.slice, pySlice, List.length_drop, List.length_take] at hj
        omega
      rw [write_at S _ (r.sub a b) j v hj j (.inl rfl), write_at S _ r (a + j) v hj2 _ (.inl rfl)]
      have e1 : (r.sub a b).arr = r.arr := rfl
      have e2 : (r.sub a b).off + j = r.off + (a + j) := Nat.add_assoc _ _ _
      rw [e1, e2]

/-- C76: a call for data as masked gives a copy: as long as it is not handed to a pack, no
write to it or to a slice of it shows in any pack, and it stays as it was but for such
writes. -/
theorem C76_copy (E : NpEnv) (S : Store) (s : Hands) (hs : HPrograms E S s) (i : Nat) (hi : i < s.world.n)
    (ch : Ch) (part : Option Int) (nof : Option String) (a : Arr)
    (ha : (World.view s.world i).call ch part nof = .ok a)
    (hm : Masking (World.view s.world i) part nof) :
    ∃ r, (s.step E S (.call i ch part nof)).1.held = s.held ++ [r] ∧
      (∀ t, Later E S (fun _ op => ¬ Gives r.arr op) (s.step E S (.call i ch part nof)).1 t →
        ∀ op, Writes r.arr t op → ∀ q, q < t.world.n →
          World.view (t.step E S op).1.world q = World.view t.world q) ∧
      ∀ t, Later E S (fun u op => ¬ Gives r.arr op ∧ ¬ Writes r.arr u op)
          (s.step E S (.call i ch part nof)).1 t →
        Hands.holds t s.held.length = some a := by
  have ok := hprograms_ok hs
  have hstep : (s.step E S (.call i ch part nof)).1 =
      ⟨{ s.world with heap := (s.world.heap.newArr a).1 }, s.held ++ [⟨s.world.heap.nArrs, 0, a.els.length⟩]⟩ := by
    unfold Hands.step
    dsimp only
    have hv : World.view s.world i = (s.world.packs i).now s.world.heap := rfl
    rw [hv] at ha hm
    rcases call_cases s.world.heap (s.world.packs i) ch part nof with
      ⟨e, h1, h2⟩ | ⟨a', h1, h3, h2⟩ | ⟨key, l, hk, hl, h3, h⟩
    · rw [h1] at ha; cases ha
    · rw [h1] at ha; cases ha; rw [h2]
    · exact absurd hm h3
  refine ⟨⟨s.world.heap.nArrs, 0, a.els.length⟩, by rw [hstep], ?_⟩
  have ok' : HandsOk (s.step E S (.call i ch part nof)).1 := (handsOk_step (E := E) (S := S) (op := .call i ch part nof) ok hi).1
  have start : ¬ IsMask (s.step E S (.call i ch part nof)).1.world s.world.heap.nArrs ∧
      ¬ IsChannel (s.step E S (.call i ch part nof)).1.world s.world.heap.nArrs ∧
      s.world.heap.nArrs < (s.step E S (.call i ch part nof)).1.world.heap.nArrs := by
    rw [hstep]
    refine ⟨?_, ?_, Nat.lt_succ_self _⟩
    · rintro ⟨q, hq, e⟩
      exact absurd (ok.inv.pack hq).mask (by rw [show (s.world.packs q).mask = _ from e]; exact Nat.lt_irrefl _)
    · rintro ⟨d, hd, k, hk⟩
      exact absurd (ok.inv.dicts.arr d hd _ hk).1 (Nat.lt_irrefl _)
  have own : ∀ t, Later E S (fun _ op => ¬ Gives s.world.heap.nArrs op) (s.step E S (.call i ch part nof)).1 t →
      ¬ IsMask t.world s.world.heap.nArrs ∧ ¬ IsChannel t.world s.world.heap.nArrs := by
    intro t ht
    induction ht with
    | here => exact ⟨start.1, start.2.1⟩
    | @next u op hu ho hg ih =>
      exact private_step (later_ok ok' hu).1 ho hg (Nat.lt_of_lt_of_le start.2.2 (later_ok ok' hu).2.1) ih.1 ih.2
  constructor
  · intro t ht op hop q hq
    obtain ⟨hnm, hnc⟩ := own t ht
    have tok := (later_ok ok' ht).1
    cases op with
    | write k j v =>
      obtain ⟨r, hr, hra⟩ := hop
      unfold Hands.step
      dsimp only
      rw [hr]
      dsimp only
      rcases write_cases S t.world.heap r j v with ⟨e, h⟩ | ⟨j', x, _, _, h⟩
      · rw [h]
      · rw [h]
        refine view_write_other _ ?_ ?_
        · intro e; exact hnm ⟨q, hq, e.trans hra⟩
        · intro p hp e; exact hnc ⟨_, tok.inv.data q hq, p.1, by rw [show s.world.heap.nArrs = p.2 from hra.symm.trans e.symm]; exact hp⟩
    | _ => exact hop.elim
  · intro t ht
    have hheld : t.held[s.held.length]? = some ⟨s.world.heap.nArrs, 0, a.els.length⟩ := by
      refine held_later ?_ ht
      rw [hstep]; exact List.getElem?_concat_length
    have weak : ∀ u, Later E S (fun u op => ¬ Gives s.world.heap.nArrs op ∧ ¬ Writes s.world.heap.nArrs u op)
        (s.step E S (.call i ch part nof)).1 u →
        Later E S (fun _ op => ¬ Gives s.world.heap.nArrs op) (s.step E S (.call i ch part nof)).1 u := by
      intro u hu
      induction hu with
      | here => exact .here
      | next _ ho hp ih => exact .next ih ho hp.1
    have hsame : t.world.heap.arrs s.world.heap.nArrs = a := by
      clear hheld
      induction ht with
      | here => rw [hstep]; exact updAt_same _ _ _
      | @next u op hu ho hp ih =>
        rw [← ih]
        exact private_same (later_ok ok' hu).1 ho hp.1 hp.2
          (Nat.lt_of_lt_of_le start.2.2 (later_ok ok' hu).2.1) (own u (weak u hu)).1
    unfold Hands.holds
    rw [hheld]
    refine congrArg some ?_
    unfold Win.read
    dsimp only
    rw [hsame, List.drop_zero, List.take_length]

theorem toMask_set (a : Arr) (j : Nat) (x : Val) :
    (⟨a.kind, a.els.set j x⟩ : Arr).toMask = { a.toMask with bits := a.toMask.bits.set j (truthy x) } := by
  unfold Arr.toMask
  simp [List.map_set]

/-- C76: `pack.mask[j] = v` sets that element of the mask and nothing else of any pack: the
parts of the pack stay what they were. -/
theorem C76_mask (E : NpEnv) (S : Store) (s : Hands) (hs : HPrograms E S s) (i : Nat) (hi : i < s.world.n)
    (j : Nat) (hj : j < (World.view s.world i).mask.bits.length) (j' : Int)
    (hj' : j' = j ∨ j' = j - ((World.view s.world i).mask.bits.length : Int)) (v : Val) :
    ∃ kind : Kind, ((World.view s.world i).mask.isBool = true → kind = .b) ∧ match S kind v with
      | .error e => ((s.step E S (.maskOf i)).1.step E S (.write s.held.length j' v)).2 = some e ∧
          ((s.step E S (.maskOf i)).1.step E S (.write s.held.length j' v)).1.world = s.world
      | .ok x => ((s.step E S (.maskOf i)).1.step E S (.write s.held.length j' v)).2 = none ∧
          World.view ((s.step E S (.maskOf i)).1.step E S (.write s.held.length j' v)).1.world i =
            { World.view s.world i with
              mask := { (World.view s.world i).mask with
                bits := (World.view s.world i).mask.bits.set j (truthy x) } } ∧
          ∀ q, q < s.world.n → q ≠ i →
            World.view ((s.step E S (.maskOf i)).1.step E S (.write s.held.length j' v)).1.world q =
              World.view s.world q := by
  have ok := hprograms_ok hs
  generalize hl : (s.world.packs i).mask = l
  refine ⟨(s.world.heap.arrs l).kind, ?_, ?_⟩
  · intro h
    have h : decide ((s.world.heap.arrs (s.world.packs i).mask).kind = .b) = true := h
    rw [hl] at h
    exact of_decide_eq_true h
  have hlen : (World.view s.world i).mask.bits.length = (s.world.heap.arrs l).els.length := by
    show ((s.world.heap.arrs (s.world.packs i).mask).toMask).bits.length = _
    rw [hl]; simp [Arr.toMask]
  have hst : (s.step E S (.maskOf i)).1.step E S (.write s.held.length j' v) =
      (⟨{ s.world with heap := (Win.write S s.world.heap ⟨l, 0, (s.world.heap.arrs l).els.length⟩ j' v).1 },
        s.held ++ [⟨l, 0, (s.world.heap.arrs l).els.length⟩]⟩,
        (Win.write S s.world.heap ⟨l, 0, (s.world.heap.arrs l).els.length⟩ j' v).2) := by
    have h1 : (s.step E S (.maskOf i)).1 = ⟨s.world, s.held ++ [⟨l, 0, (s.world.heap.arrs l).els.length⟩]⟩ := by
      unfold Hands.step; dsimp only; rw [hl]
    rw [h1]
    unfold Hands.step
    dsimp only
    rw [List.getElem?_concat_length]
  have hw := write_at S s.world.heap ⟨l, 0, (s.world.heap.arrs l).els.length⟩ j v (by
    rw [whole_read, ← hlen]; exact hj) j' (by rw [whole_read, ← hlen]; exact hj')
  dsimp only at hw
  rw [Nat.zero_add] at hw
  rw [hst, hw]
  cases hx : S (s.world.heap.arrs l).kind v with
  | error e => exact ⟨rfl, rfl⟩
  | ok x =>
    dsimp only
    refine ⟨rfl, ?_, ?_⟩
    · have hd : ∀ p ∈ s.world.heap.dicts (s.world.packs i).data, p.2 ≠ l :=
        fun p hp => hl ▸ (ok.inv.pack hi).own _ (ok.inv.data i hi) p hp
      show Spec.view _ (s.world.packs i) = _
      unfold World.view Spec.view
      dsimp only
      rw [hl, updAt_same, toMask_set]
      congr 1
      apply List.map_congr_left
      intro p hp
      rw [updAt_ne _ _ (hd p hp)]
    · intro q hq hne
      refine view_write_other _ ?_ ?_
      · intro e; exact hne (ok.inv.masks q i hq hi (e.trans hl.symm))
      · intro p hp; exact hl ▸ (ok.inv.pack hi).own _ (ok.inv.data q hq) p hp

theorem inTune {p : Pack} (h : Inv p) : InTune p := ⟨parts_of_cache h.cache, h.dur⟩

/-- C76: however a program writes to arrays it got by calls, as long as it writes to no mask
the parts and mindur of every pack are right for its mask. -/
theorem C76_tune (E : NpEnv) (S : Store) (s : Hands)
    (hs : Later E S (fun u op => ¬ WritesMask u op) ⟨World.empty, []⟩ s) (i : Nat) (hi : i < s.world.n) :
    InTune (World.view s.world i) := by
  have start : HandsOk ⟨World.empty, []⟩ := ⟨winv_empty, fun r hr => (nomatch hr)⟩
  refine inTune ?_
  revert i
  induction hs with
  | here => exact fun i hi => absurd hi (Nat.not_lt_zero _)
  | @next s op hs ho hw ih =>
    have ok := (later_ok start hs).1
    cases op with
    | world op =>
      intro i hi
      show Inv (World.view (s.world.step E op).1 i)
      replace hi : i < (s.world.step E op).1.n := hi
      cases op with
      | make d n =>
        obtain ⟨h', o', h1, h2, h3, -⟩ := make_step (E := E) ok.inv ho
        rw [h1] at hi ⊢
        unfold World.view
        dsimp only at hi ⊢
        by_cases e : i = s.world.n
        · subst e
          rw [updAt_same, h3]
          exact inv_init _ _
        · rw [updAt_ne _ _ e]
          have hp := ok.inv.pack (show i < s.world.n by omega)
          rw [view_keeps h2 hp.data hp.names hp.mask
            (fun p hpm => ⟨(hp.arr _ hp.data p hpm).1, fun h => h⟩) (fun h => h) (fun h => h) (fun h => h)]
          exact ih i (by omega)
      | act j a =>
        obtain ⟨h', o', e, h1, h2, -⟩ := act_step (E := E) ok.inv ho
        rw [h1] at hi ⊢
        unfold World.view
        dsimp only at hi ⊢
        by_cases e : i = j
        · subst e
          rw [updAt_same]
          have := congrArg Prod.fst h2.view
          dsimp only at this
          rw [this]
          exact inv_step E (ih i hi) _
        · rw [updAt_ne _ _ e, (h2.keeps.view ok.inv hi e).1]
          exact (ih i hi).congr rfl rfl rfl
    | call j ch part nof =>
      have e : (s.step E S (.call j ch part nof)).1.world = s.world ∨
          ∃ a, (s.step E S (.call j ch part nof)).1.world = { s.world with heap := (s.world.heap.newArr a).1 } := by
        unfold Hands.step
        dsimp only
        rcases call_cases s.world.heap (s.world.packs j) ch part nof with
          ⟨e, _, h2⟩ | ⟨a, _, _, h2⟩ | ⟨key, l', _, hl', _, h⟩
        · rw [h2]; exact .inl rfl
        · rw [h2]; exact .inr ⟨a, rfl⟩
        · rcases h with ⟨_, _, h2⟩ | ⟨_, st, _, _, _, h2⟩ <;> (rw [h2]; exact .inl rfl)
      intro i hi
      rcases e with e | ⟨a, e⟩
      · rw [e] at hi ⊢; exact ih i hi
      · rw [e] at hi ⊢
        rw [view_newArr ok.inv a hi]
        exact ih i hi
    | maskOf j => exact ih
    | sub k a b =>
      have e : (s.step E S (.sub k a b)).1.world = s.world := by
        unfold Hands.step; dsimp only; split <;> rfl
      rw [e]; exact ih
    | write k j v =>
      intro i hi
      unfold Hands.step at hi ⊢
      dsimp only at hi ⊢
      cases hr : s.held[k]? with
      | none => rw [hr] at hi; exact ih i hi
      | some r =>
        rw [hr] at hi
        dsimp only at hi ⊢
        rcases write_cases S s.world.heap r j v with ⟨e, h⟩ | ⟨j', x, _, _, h⟩
        · rw [h]; exact ih i hi
        · rw [h]
          have hm : (s.world.packs i).mask ≠ r.arr := fun e => hw ⟨i, hi, r, hr, e.symm⟩
          show Inv (Spec.view _ (s.world.packs i))
          rw [view_write _ hm]
          exact (ih i hi).congr rfl rfl rfl

/-- C76: `pack.mask = pack.mask` makes the parts those of the mask as it is now; other packs
are not affected. -/
theorem C76_refresh (E : NpEnv) (S : Store) (s : Hands) (hs : HPrograms E S s) (i : Nat) (hi : i < s.world.n) :
    ∃ t, s.step E S (.world (.act i (.setMask (.old (s.world.packs i).mask)))) = (t, none) ∧
      World.view t.world i = (World.view s.world i).setMask (World.view s.world i).mask ∧
      InTune (World.view t.world i) ∧
      ∀ q, q < s.world.n → q ≠ i → World.view t.world q = World.view s.world q := by
  have ok := hprograms_ok hs
  have hp := ok.inv.pack hi
  obtain ⟨h1, h2, h3, h4⟩ := setMask_ok (l := (s.world.packs i).mask) hp.toDInv hp.data hp.names hp.mask hp.maskN hp.own
  have hst : s.step E S (.world (.act i (.setMask (.old (s.world.packs i).mask)))) =
      (⟨⟨((s.world.packs i).setMask s.world.heap (s.world.packs i).mask).1,
        updAt s.world.packs i ((s.world.packs i).setMask s.world.heap (s.world.packs i).mask).2, s.world.n⟩,
        s.held⟩, none) := rfl
  rw [hst]
  refine ⟨_, rfl, ?_, ?_, ?_⟩
  · unfold World.view; dsimp only; rw [updAt_same]; exact h2
  · unfold World.view; dsimp only; rw [updAt_same, h2]; exact inTune (inv_setMask _ _)
  · intro q hq hne
    unfold World.view
    dsimp only
    rw [updAt_ne _ _ hne]
    have hq' := ok.inv.pack hq
    refine view_keeps h3 hq'.data hq'.names hq'.mask ?_ (fun h => h) (fun h => h) ?_
    · exact fun p hpm => ⟨(hq'.arr _ hq'.data p hpm).1, fun e => hp.own _ hq'.data p hpm e⟩
    · exact fun e => hne (ok.inv.masks q i hq hi e)

/-! ## Examples -/

/-- numpy stores integers and booleans as they are. -/
def exStore : Store := fun _ v => .ok v

/-- A pack of one channel; a call for all of it, the mask, a slice. -/
def exHands : List HOp :=
  [.world (.make [(0, .new ⟨.i, [.int 1, .int 2, .int 3]⟩)] []), .call 0 (.int 0) none none,
   .call 0 (.int 0) none (some "nan"), .maskOf 0, .sub 0 1 3]

def runHands (E : NpEnv) (S : Store) : Hands → List HOp → Hands
  | s, [] => s
  | s, op :: ops => runHands E S (s.step E S op).1 ops

theorem exHands_later : Later exEnv exStore (fun u op => ¬ WritesMask u op) ⟨World.empty, []⟩
    (runHands exEnv exStore ⟨World.empty, []⟩ exHands) := by
  refine .next (.next (.next (.next (.next .here ?_ ?_) ?_ ?_) ?_ ?_) ?_ ?_) ?_ ?_
  · intro p hp; simp at hp; rw [hp]; trivial
  · exact fun h => h.choose_spec.2
  · show 0 < 1; omega
  · exact fun h => h.choose_spec.2
  · show 0 < 1; omega
  · exact fun h => h.choose_spec.2
  · show 0 < 1; omega
  · exact fun h => h.choose_spec.2
  · trivial
  · exact fun h => h.choose_spec.2

theorem later_programs {E : NpEnv} {S : Store} {P : Hands → HOp → Prop} {s t : Hands} (hs : HPrograms E S s)
    (h : Later E S P s t) : HPrograms E S t := by
  induction h with
  | here => exact hs
  | next _ ho _ ih => exact .next ih ho

/-- The hypotheses of the theorems can be met (`C76_slice` needs something in hand), and writes do what they say: through the slice
(3) to the channel, and not through the copy (1). -/
example : ∃ s, HPrograms exEnv exStore s ∧ 0 < s.world.n ∧ s.held.length = 4 ∧
    (World.view s.world 0).call (.int 0) none none = .ok ⟨.i, [.int 1, .int 2, .int 3]⟩ ∧
    ¬ Masking (World.view s.world 0) none none ∧ Masking (World.view s.world 0) none (some "nan") ∧
    Hands.holds s 3 = some ⟨.i, [.int 2, .int 3]⟩ ∧
    dget (World.view (s.step exEnv exStore (.write 3 1 (.int 9))).1.world 0).data 0 =
      some ⟨.i, [.int 1, .int 2, .int 9]⟩ ∧
    dget (World.view (s.step exEnv exStore (.write 1 1 (.int 9))).1.world 0).data 0 =
      some ⟨.i, [.int 1, .int 2, .int 3]⟩ := by
  refine ⟨_, later_programs .start exHands_later, by decide +kernel, by decide +kernel, by decide +kernel, ?_, ?_,
    by decide +kernel, by decide +kernel, by decide +kernel⟩
  · rintro ⟨-, h | h | h⟩
    · cases h
    · cases h
    · exact absurd h.2 (by decide +kernel)
  · exact ⟨rfl, .inl rfl⟩

/-- After `pack.mask[1] = False` the pack is out of tune: calls for parts still go by the mask
there was, other calls by the mask there is. -/
theorem C76_stale_counterexample :
    ∃ s t, HPrograms exEnv exStore s ∧ HPrograms exEnv exStore t ∧
      InTune (World.view s.world 0) ∧ s.held[2]? = some ⟨(s.world.packs 0).mask, 0, 3⟩ ∧
      t = (s.step exEnv exStore (.write 2 1 (.bool false))).1 ∧
      (World.view t.world 0).mask.bits = [true, false, true] ∧
      (World.view t.world 0).parts = [0] ∧
      (World.view t.world 0).call (.int 0) (some 0) none = .ok ⟨.i, [.int 1, .int 2, .int 3]⟩ ∧
      (World.view t.world 0).call (.int 0) none (some "filter") = .ok ⟨.i, [.int 1, .int 3]⟩ ∧
      ¬ InTune (World.view t.world 0) := by
  refine ⟨_, _, later_programs .start exHands_later, .next (later_programs .start exHands_later)
      (op := .write 2 1 (.bool false)) trivial,
    C76_tune _ _ _ exHands_later 0 (by decide +kernel), by decide +kernel, rfl, by decide +kernel, by decide +kernel,
    by decide +kernel, by decide +kernel, ?_⟩
  rintro ⟨⟨runs, h1, h2, h3, h4⟩, -⟩
  have hb : (World.view ((runHands exEnv exStore ⟨World.empty, []⟩ exHands).step exEnv exStore
      (.write 2 1 (.bool false))).1.world 0).mask.bits = [true, false, true] := by decide +kernel
  have hp : (World.view ((runHands exEnv exStore ⟨World.empty, []⟩ exHands).step exEnv exStore
      (.write 2 1 (.bool false))).1.world 0).parts = [0] := by decide +kernel
  rw [hp] at h3
  have hlen : runs.length = 1 := by
    have := congrArg List.length h3
    simp at this
    exact this.symm
  have m1 : (0, 1) ∈ runs := (h1 0 1).2 (by rw [hb]; exact mem_slicelist.1 (by decide +kernel))
  have m2 : (2, 3) ∈ runs := (h1 2 3).2 (by rw [hb]; exact mem_slicelist.1 (by decide +kernel))
  match runs, hlen with
  | [x], _ =>
    rw [List.mem_singleton] at m1 m2
    rw [← m1] at m2
    cases m2

end CP
