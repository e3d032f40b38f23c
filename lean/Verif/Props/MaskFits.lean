import Verif.Spec.MaskFits
import Verif.Props.Pack
import Verif.Lemmas.PyIter
/-!
# C101: the mask fits the data
-/

namespace CP
open Spec

/-- What can be seen of it: every channel can be had with `nof='filter'`. -/
def Pack.Filters (p : Pack) : Prop := ∀ k, k ∈ dkeys p.data → ∃ r, p.call (.int k) none (some "filter") = .ok r

theorem setMask_isBool (p : Pack) (m : Mask) : (p.setMask m).mask.isBool = m.isBool := by
  rw [setMask_mask]
  split <;> rfl

theorem fitsAll_congr {d : List (Int × Arr)} {m m' : Mask} (h1 : m.bits.length = m'.bits.length) (h2 : m.isBool = m'.isBool) :
    FitsAll d m ↔ FitsAll d m' := by
  unfold FitsAll
  rw [h1, h2]

theorem fitsAll_setMask (p : Pack) (m : Mask) : FitsAll (p.setMask m).data (p.setMask m).mask ↔ FitsAll p.data m := by
  rw [(setMask_frame p m).1]
  exact fitsAll_congr (setMask_length p m) (setMask_isBool p m)

theorem applyMindur_facts (p : Pack) : p.applyMindur.data = p.data ∧ p.applyMindur.mask.bits.length = p.mask.bits.length ∧
    p.applyMindur.mask.isBool = p.mask.isBool := by
  unfold Pack.applyMindur
  split
  · exact ⟨rfl, rfl, rfl⟩
  · exact ⟨rfl, durationFold_length _ _ _ _, rfl⟩

theorem fitsAll_maskReset (p : Pack) : FitsAll p.maskReset.data p.maskReset.mask ↔ OneLength p.data := by
  rcases maskReset_eq p with ⟨hd, hr⟩ | ⟨k, a, ha, _, hr⟩
  · rw [hr, fitsAll_setMask, hd]
    constructor
    · intro _ k k' a a' h; simp [dget] at h
    · intro _; exact ⟨fun k a h => by simp [dget] at h, fun h => absurd rfl h⟩
  · rw [hr, fitsAll_setMask]
    constructor
    · rintro ⟨h, -⟩ k k' b b' hb hb'
      rw [h k b hb, h k' b' hb']
    · intro h
      exact ⟨fun k' b hb => by rw [h k' k b a hb ha]; simp, fun _ => rfl⟩

theorem fitsAll_one {d : List (Int × Arr)} {m : Mask} (h : FitsAll d m) : OneLength d := by
  intro k k' a a' ha ha'
  rw [h.1 k a ha, h.1 k' a' ha']

theorem dget_filter_sub {d : List (Int × Arr)} {k k' : Int} {a : Arr} (h : dget (d.filter (·.1 ≠ k)) k' = some a) :
    dget d k' = some a := by
  induction d with
  | nil => simp [dget] at h
  | cons x xs ih =>
    rw [List.filter_cons] at h
    by_cases hx : x.1 = k
    · rw [if_neg (by simpa using hx)] at h
      have h2 := dget_mem h
      have h3 : k' ≠ k := by
        have := (List.mem_filter.1 h2).2
        simpa using this
      unfold dget
      rw [if_neg (by rw [hx]; exact Ne.symm h3)]
      exact ih h
    · rw [if_pos (by simpa using hx)] at h
      unfold dget at h ⊢
      split
      · rename_i e; rw [if_pos e] at h; exact h
      · rename_i e; rw [if_neg e] at h; exact ih h

theorem boolIndex_ok {a : Arr} {m : Mask} : (∃ r, boolIndex a m = .ok r) ↔ m.isBool = true ∧ m.bits.length = a.els.length := by
  unfold boolIndex
  split
  · exact ⟨fun _ => by assumption, fun _ => ⟨_, rfl⟩⟩
  · rename_i h; exact ⟨fun ⟨r, hr⟩ => by simp at hr, fun h' => absurd h' h⟩

theorem call_filter {p : Pack} {k : Int} {a : Arr} (h : dget p.data k = some a) :
    p.call (.int k) none (some "filter") = boolIndex a p.mask := by
  have hdk : p.datakey (.int k) = .ok k := by
    rw [(C15_lookup_order p).1, if_pos (dget_isSome.1 (by rw [h]; rfl))]
  unfold Pack.call
  rw [hdk]
  simp only [h]
  rfl

/-- C101: every channel can be filtered just when the mask fits the data. -/
theorem C101_filters (p : Pack) : p.Filters ↔ FitsAll p.data p.mask := by
  constructor
  · intro h
    have h1 : ∀ k a, dget p.data k = some a → p.mask.isBool = true ∧ p.mask.bits.length = a.els.length := by
      intro k a ha
      obtain ⟨r, hr⟩ := h k (dget_isSome.1 (by rw [ha]; rfl))
      rw [call_filter ha] at hr
      exact boolIndex_ok.1 ⟨r, hr⟩
    refine ⟨fun k a ha => (h1 k a ha).2.symm, fun hne => ?_⟩
    cases hd : p.data with
    | nil => exact absurd hd hne
    | cons x xs => exact (h1 x.1 x.2 (by rw [hd]; simp [dget])).1
  · intro h k hk
    obtain ⟨a, ha⟩ := Option.isSome_iff_exists.1 (dget_isSome.2 hk)
    rw [call_filter ha]
    refine boolIndex_ok.2 ⟨h.2 ?_, (h.1 k a ha).symm⟩
    intro he; rw [he] at ha; simp [dget] at ha

theorem append_one {E : NpEnv} {p o : Pack} (ho : (dkeys o.data).Nodup) (hp : OneLength p.data)
    (h : (p.appendPack E o).2 = none) : OneLength (p.appendPack E o).1.data ↔ OneLength o.data := by
  obtain ⟨h1, h2, h3, -⟩ := C12_append_concatenates E p o ho h
  generalize (p.appendPack E o).1.data = q at h1 h2 h3
  by_cases hpe : p.data = []
  · rw [h1 hpe]
  by_cases hoe : o.data = []
  · rw [h2 hoe, hoe]
    exact ⟨fun _ k k' a a' h => by simp [dget] at h, fun _ => hp⟩
  obtain ⟨h4, h5, h6⟩ := h3 hpe hoe
  have hkeys : ∀ k : Int, k ∈ dkeys p.data → ∃ a b c, dget p.data k = some a ∧ dget o.data k = some b ∧ dget q k = some c ∧
      c.els.length = a.els.length + b.els.length := by
    intro k hk
    obtain ⟨a, ha⟩ := Option.isSome_iff_exists.1 (dget_isSome.2 hk)
    obtain ⟨b, hb⟩ := Option.isSome_iff_exists.1 (dget_isSome.2 ((h5 k).1 hk))
    obtain ⟨c, hc, hl⟩ := h6 k a b ha hb
    exact ⟨a, b, c, ha, hb, hc, hl.1⟩
  constructor
  · intro h k k' b b' hb hb'
    obtain ⟨a, b1, c, e1, e2, e3, e4⟩ := hkeys k ((h5 k).2 (dget_isSome.1 (by rw [hb]; rfl)))
    obtain ⟨a', b1', c', e1', e2', e3', e4'⟩ := hkeys k' ((h5 k').2 (dget_isSome.1 (by rw [hb']; rfl)))
    rw [hb] at e2; rw [hb'] at e2'
    cases e2; cases e2'
    have := h k k' c c' e3 e3'
    have := hp k k' a a' e1 e1'
    omega
  · intro h k k' c c' hc hc'
    have hk : k ∈ dkeys p.data := by rw [← h4]; exact dget_isSome.1 (by rw [hc]; rfl)
    have hk' : k' ∈ dkeys p.data := by rw [← h4]; exact dget_isSome.1 (by rw [hc']; rfl)
    obtain ⟨a, b, c1, e1, e2, e3, e4⟩ := hkeys k hk
    obtain ⟨a', b', c1', e1', e2', e3', e4'⟩ := hkeys k' hk'
    rw [hc] at e3; rw [hc'] at e3'
    cases e3; cases e3'
    have := h k k' b b' e2 e2'
    have := hp k k' a a' e1 e1'
    omega

theorem appendPack_raised {E : NpEnv} {p o : Pack} (h : (p.appendPack E o).2 ≠ none) : (p.appendPack E o).1.mask = p.mask := by
  unfold Pack.appendPack at h ⊢
  split
  · rfl
  · rename_i d hd
    rw [hd] at h
    dsimp only at h
    split
    · rfl
    · rename_i n hn
      rw [hn] at h
      exact absurd rfl h

theorem appendPack_done {E : NpEnv} {p o : Pack} (h : (p.appendPack E o).2 = none) :
    ∃ q : Pack, (p.appendPack E o).1 = q.maskReset ∧ q.data = (p.appendPack E o).1.data := by
  unfold Pack.appendPack at h ⊢
  split
  · rename_i d e hd; rw [hd] at h; simp at h
  · rename_i d hd
    rw [hd] at h
    dsimp only at h
    split
    · rename_i n e hn; rw [hn] at h; simp at h
    · exact ⟨_, rfl, (maskReset_frame _).1.symm⟩

theorem npIand_facts {m m' : Mask} {r : List Bool} (h : npIand m r = .ok m') : m'.bits.length = m.bits.length ∧ m'.isBool = true := by
  unfold npIand at h
  split at h
  · simp at h
  · split at h
    · rename_i hl
      simp only [Except.ok.injEq] at h
      subst h
      exact ⟨by simp [hl], rfl⟩
    · split at h
      · simp only [Except.ok.injEq] at h
        subst h
        exact ⟨by simp, rfl⟩
      · simp at h

/-- C101: after an operation on a pack whose mask fits, it fits just when the operation is one of `OpFits`. -/
theorem C101_step (E : NpEnv) (p : Pack) (h : p.Filters) (op : Op)
    (ho : ∀ o, op = .appendPack o → (dkeys o.data).Nodup) :
    (p.step E op).1.Filters ↔ OpFits p (p.step E op).1.data (p.step E op).2.isSome op := by
  rw [C101_filters] at h ⊢
  have same : ∀ q : Pack, q.data = p.data → q.mask.bits.length = p.mask.bits.length → q.mask.isBool = p.mask.isBool →
      (FitsAll q.data q.mask ↔ True) := by
    intro q h1 h2 h3
    rw [h1, fitsAll_congr h2 h3]
    exact iff_true_intro h
  cases op with
  | setMask m => exact fitsAll_setMask p m
  | setMaskBad => exact same _ rfl rfl rfl
  | setMindur m =>
    obtain ⟨h1, h2, h3⟩ := applyMindur_facts { p with mindur := m }
    exact same _ h1 h2 h3
  | setMindurBad => exact same _ rfl rfl rfl
  | setNof v =>
    simp only [Pack.step, Pack.setNof]
    split <;> exact same _ rfl rfl rfl
  | setData d => exact fitsAll_maskReset { p with data := d }
  | setDataBad e => exact same _ rfl rfl rfl
  | setDataNp d => exact Iff.rfl
  | setNames n => exact same _ rfl rfl rfl
  | setFn s => exact same _ rfl rfl rfl
  | setFnBad => exact same _ rfl rfl rfl
  | setPrefix s => exact same _ rfl rfl rfl
  | setPrefixBad => exact same _ rfl rfl rfl
  | dataItem k a =>
    show FitsAll (dset p.data k a) p.mask ↔ a.els.length = p.mask.bits.length ∧ p.mask.isBool = true
    constructor
    · rintro ⟨h1, h2⟩
      refine ⟨h1 k a (dget_dset_same _ _ _), h2 ?_⟩
      intro he
      have := dget_dset_same p.data k a
      rw [he] at this; simp [dget] at this
    · rintro ⟨h1, h2⟩
      refine ⟨fun k' b hb => ?_, fun _ => h2⟩
      rw [dget_dset] at hb
      split at hb
      · cases hb; exact h1
      · exact h.1 k' b hb
  | dataDel k =>
    simp only [Pack.step]
    split
    · refine iff_true_intro ⟨fun k' b hb => h.1 k' b (dget_filter_sub hb), fun hne => h.2 ?_⟩
      intro he
      apply hne
      dsimp only
      rw [he]
      rfl
    · exact same _ rfl rfl rfl
  | nameItem k v => exact same _ rfl rfl rfl
  | maskReset =>
    show FitsAll p.maskReset.data p.maskReset.mask ↔ True
    rw [fitsAll_maskReset]
    exact iff_true_intro (fitsAll_one h)
  | duration q m => exact same _ rfl (durationFold_length _ _ _ _) rfl
  | startstop a b apply =>
    show FitsAll (p.step E (.startstop a b apply)).1.data (p.step E (.startstop a b apply)).1.mask ↔ True
    simp only [Pack.step, Pack.startstop]
    cases apply with
    | false => exact same _ rfl rfl rfl
    | true =>
      simp only [if_true]
      cases hi : npIand p.mask (startstopBool a b) with
      | error e => exact same _ rfl rfl rfl
      | ok m =>
        obtain ⟨h1, h2⟩ := npIand_facts hi
        show FitsAll (p.setMask m).data (p.setMask m).mask ↔ True
        rw [fitsAll_setMask]
        exact iff_true_intro ⟨fun k a ha => by rw [h1]; exact h.1 k a ha, fun _ => h2⟩
  | appendPack o =>
    show FitsAll (p.appendPack E o).1.data (p.appendPack E o).1.mask ↔
      if (p.appendPack E o).2.isSome = true then FitsAll (p.appendPack E o).1.data p.mask else OneLength o.data
    cases hr : (p.appendPack E o).2 with
    | some e =>
      rw [if_pos (by rfl), appendPack_raised (by rw [hr]; simp)]
    | none =>
      rw [if_neg (by simp)]
      obtain ⟨q, h1, h2⟩ := appendPack_done hr
      rw [← append_one (ho o rfl) (fitsAll_one h) hr, ← h2, h1]
      have := fitsAll_maskReset q
      rw [(maskReset_frame q).1] at this
      exact this

/-- A new pack fits if the channels given have one length. -/
theorem C101_new (d : List (Int × Arr)) (n : List (Int × Val)) : (Pack.init d n).Filters ↔ OneLength d := by
  rw [C101_filters]
  exact fitsAll_maskReset _

/-- Each operation of a history, with the pack it is made on, has a property. -/
def Along (E : NpEnv) (ok : Pack → Op → Prop) : Pack → List Op → Prop
  | _, [] => True
  | p, op :: ops => ok p op ∧ Along E ok (p.step E op).1 ops

/-- C101 in full: if the channels have one length after each operation, and masks assigned fit the data, then all channels can
be filtered at the end.  `all`: whatever else is done; without it the operations are those of `OpFits`. -/
def MaskFitsAlways (all : Bool) : Prop :=
  ∀ (E : NpEnv) (d : List (Int × Arr)) (n : List (Int × Val)) (ops : List Op), OneLength d →
    Along E (fun p op => OneLength (p.step E op).1.data ∧ (∀ m, op = .setMask m → FitsAll p.data m) ∧
      (∀ o, op = .appendPack o → (dkeys o.data).Nodup) ∧
      (all = false → OpFits p (p.step E op).1.data (p.step E op).2.isSome op)) (Pack.init d n) ops →
    ((Pack.init d n).run E ops).Filters

/-- C101, for the operations of `OpFits` (false else, see `C101_counterexample`; by `C101_step` it is false at once with any
other operation). -/
theorem C101_fits_partial : MaskFitsAlways false := by
  intro E d n ops hd h
  have h0 := (C101_new d n).2 hd
  generalize Pack.init d n = p at h h0
  induction ops generalizing p with
  | nil => exact h0
  | cons op ops ih =>
    obtain ⟨⟨h1, h2, h3, h4⟩, h5⟩ := h
    exact ih _ h5 ((C101_step E p h0 op h3).2 (h4 rfl))

/-- C101: a pack that is made empty and filled channel by channel has no mask for them. -/
theorem C101_counterexample : ¬ MaskFitsAlways true := by
  intro h
  have := h ⟨fun _ _ => none, fun _ v => v⟩ [] [] [.dataItem 0 ⟨.i, [.int 1, .int 2]⟩]
    (fun k k' a a' h => by simp [dget] at h) ⟨⟨?_, by simp, by simp, by simp⟩, trivial⟩
  · obtain ⟨r, hr⟩ := this 0 (by decide)
    have e : ((Pack.init [] []).run ⟨fun _ _ => none, fun _ v => v⟩ [.dataItem 0 ⟨.i, [.int 1, .int 2]⟩]).call (.int 0) none
        (some "filter") = .error .indexError := by decide +kernel
    rw [e] at hr
    cases hr
  · intro k k' a a' ha ha'
    have e : ((Pack.init [] []).step ⟨fun _ _ => none, fun _ v => v⟩ (.dataItem 0 ⟨.i, [.int 1, .int 2]⟩)).1.data =
        [(0, ⟨.i, [.int 1, .int 2]⟩)] := by decide +kernel
    rw [e] at ha ha'
    simp only [dget] at ha ha'
    split at ha <;> split at ha' <;> simp_all

/-- C101: what happens then: IndexError, until the mask is reset; and a NpDict of other data does not reset it, other
dicts do. -/
theorem C101_what_happens :
    ((Pack.init [] []).run exEnv [.dataItem 0 ⟨.i, [.int 1, .int 2]⟩]).call (.int 0) none (some "filter") = .error .indexError ∧
    ((Pack.init [] []).run exEnv [.dataItem 0 ⟨.i, [.int 1, .int 2]⟩, .maskReset]).call (.int 0) none (some "filter") =
      .ok ⟨.i, [.int 1, .int 2]⟩ ∧
    (exA.run exEnv [.setDataNp [(0, ⟨.i, [.int 7]⟩)]]).call (.int 0) none (some "filter") = .error .indexError ∧
    (exA.run exEnv [.setData [(0, ⟨.i, [.int 7]⟩)]]).call (.int 0) none (some "filter") = .ok ⟨.i, [.int 7]⟩ := by
  decide +kernel

/-- An append that raises for the names leaves the longer channels with the old mask. -/
theorem C101_append_counterexample :
    ∃ p o : Pack, (dkeys o.data).Nodup ∧ p.Filters ∧ o.Filters ∧ (p.appendPack exEnv o).2 = some .valueError ∧
      (p.appendPack exEnv o).1.call (.int 0) none (some "filter") = .error .indexError := by
  refine ⟨exA, Pack.init [(0, ⟨.i, [.int 7]⟩)] [(1, .str ['B'])], by decide, ?_, ?_, by decide +kernel, by decide +kernel⟩
  · intro k hk
    have : k = 0 := by simpa [dkeys] using (show k ∈ [(0 : Int)] from hk)
    subst this
    exact ⟨⟨.i, [.int 1, .int 2]⟩, by decide +kernel⟩
  · intro k hk
    have : k = 0 := by simpa [dkeys] using (show k ∈ [(0 : Int)] from hk)
    subst this
    exact ⟨⟨.i, [.int 7]⟩, by decide +kernel⟩

example : OneLength exA.data ∧ OpFits exA (exA.step exEnv (.dataItem 1 ⟨.f, [.int 1, .nan]⟩)).1.data false
    (.dataItem 1 ⟨.f, [.int 1, .nan]⟩) := by
  refine ⟨?_, by decide +kernel, by decide +kernel⟩
  intro k k' a a' ha ha'
  have e : exA.data = [(0, ⟨.i, [.int 1, .int 2]⟩)] := by decide +kernel
  rw [e] at ha ha'
  simp only [dget] at ha ha'
  split at ha <;> split at ha' <;> simp_all

end CP
