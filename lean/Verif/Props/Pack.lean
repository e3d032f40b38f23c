import Verif.Lemmas.Dict
import Verif.Lemmas.Lookup
import Verif.Props.Masks
/-!
# C12, C13, C15-C19, C23: append, lookup, calls, records, file names
-/

namespace CP
open Spec

/-! ## C12, C13: append_pack -/

theorem setMask_frame (p : Pack) (m : Mask) :
    (p.setMask m).data = p.data ∧ (p.setMask m).names = p.names ∧ (p.setMask m).fn = p.fn ∧
    (p.setMask m).filenames = p.filenames ∧ (p.setMask m).nof = p.nof ∧
    (p.setMask m).pre = p.pre ∧ (p.setMask m).mindur = p.mindur := by
  unfold Pack.setMask Pack.applyMindur
  split <;> simp [Pack.duration]

theorem maskReset_frame (p : Pack) :
    p.maskReset.data = p.data ∧ p.maskReset.names = p.names ∧ p.maskReset.fn = p.fn ∧
    p.maskReset.filenames = p.filenames ∧ p.maskReset.nof = p.nof ∧
    p.maskReset.pre = p.pre ∧ p.maskReset.mindur = p.mindur := by
  rcases maskReset_eq p with ⟨_, h⟩ | ⟨k, a, _, _, h⟩ <;> rw [h] <;> exact setMask_frame _ _

theorem setMask_length (p : Pack) (m : Mask) : (p.setMask m).mask.bits.length = m.bits.length := by
  rw [setMask_mask]
  split
  · rfl
  · exact durationFold_length _ _ _ _

theorem maskReset_length (p : Pack) (k : Int) (a : Arr) (h : dget p.data k = some a)
    (hmin : ∀ k' ∈ dkeys p.data, k ≤ k') : p.maskReset.mask.bits.length = a.els.length := by
  rcases maskReset_eq p with ⟨hd, _⟩ | ⟨k', a', ha', hmin', hr⟩
  · rw [hd] at h; simp [dget] at h
  · have hk : k ∈ dkeys p.data := dget_isSome.1 (by rw [h]; rfl)
    have hk' : k' ∈ dkeys p.data := dget_isSome.1 (by rw [ha']; rfl)
    have : k = k' := by have := hmin k' hk'; have := hmin' k hk; omega
    subst this
    rw [h] at ha'
    simp only [Option.some.injEq] at ha'
    subst ha'
    rw [hr, setMask_length]; simp

/-- C12, one append. -/
theorem C12_append_concatenates (E : NpEnv) (p o : Pack) (ho : (dkeys o.data).Nodup)
    (h : (p.appendPack E o).2 = none) :
    let q := (p.appendPack E o).1
    (p.data = [] → q.data = o.data) ∧
    (o.data = [] → q.data = p.data) ∧
    (p.data ≠ [] → o.data ≠ [] →
      dkeys q.data = dkeys p.data ∧ (∀ k, k ∈ dkeys p.data ↔ k ∈ dkeys o.data) ∧
      ∀ k a b, dget p.data k = some a → dget o.data k = some b →
        ∃ c, dget q.data k = some c ∧ Appended a b c) ∧
    q.names = (if p.names = [] then o.names else p.names) ∧
    q.filenames = p.filenames ++ o.filenames ∧ q.fn = p.fn ∧
    (∀ k a, dget q.data k = some a → (∀ k' ∈ dkeys q.data, k ≤ k') →
      q.mask.bits.length = a.els.length) := by
  unfold Pack.appendPack at h ⊢
  split at h
  · simp at h
  · rename_i d hd
    split at h
    · simp at h
    · rename_i n hn
      simp only
      obtain ⟨f1, f2, f3, f4, f5, f6, f7⟩ := maskReset_frame
        { p with data := d, names := n, filenames := p.filenames ++ o.filenames }
      rw [f1, f2, f3, f4]
      refine ⟨?_, ?_, ?_, ?_, rfl, rfl, ?_⟩
      · intro hp; simp [appendData, hp] at hd; exact hd.symm
      · intro ho'
        by_cases hp : p.data = []
        · simp only [appendData, hp, ho', if_true, Prod.mk.injEq, and_true] at hd; rw [hp]; exact hd.symm
        · simp [appendData, hp, ho'] at hd; exact hd.symm
      · intro hp ho'
        simp only [appendData, hp, ho', if_false] at hd
        split at hd
        · rename_i hs
          obtain ⟨h1, _, h3⟩ := appendLoop_spec ho hd
          exact ⟨h1, sameKeys_iff.1 hs, h3⟩
        · simp at hd
      · unfold appendNames at hn
        split at hn
        · rename_i he; simp at hn; simp [he, hn]
        · rename_i he
          rw [if_neg he]
          split at hn
          · simp at hn; exact hn.symm
          · split at hn
            · simp at hn; exact hn.symm
            · simp at hn
      · intro k a ha hmin
        exact maskReset_length _ k a ha hmin

/-- Append a list of packs one after the other; `none` as soon as one raises. -/
def Pack.appendAll (E : NpEnv) (p : Pack) : List Pack → Option Pack
  | [] => some p
  | o :: os =>
    match p.appendPack E o with
    | (q, none) => q.appendAll E os
    | (_, some _) => none

/-- C12 for any number of packs: with one dtype kind per key, the data of every key
is the concatenation in the order of the appends, and so is filenames. -/
theorem C12_append_many (E : NpEnv) (p : Pack) (os : List Pack) (q : Pack)
    (hnd : ∀ o ∈ os, (dkeys o.data).Nodup) (hp : p.data ≠ []) (hos : ∀ o ∈ os, o.data ≠ [])
    (h : p.appendAll E os = some q) (k : Int) (a : Arr) (ha : dget p.data k = some a)
    (hkind : ∀ o ∈ os, ∀ b, dget o.data k = some b → b.kind = a.kind) :
    ∃ bs : List Arr, os.map (fun o => dget o.data k) = bs.map some ∧
      dget q.data k = some ⟨a.kind, a.els ++ (bs.map Arr.els).flatten⟩ ∧
      q.filenames = p.filenames ++ (os.map Pack.filenames).flatten := by
  induction os generalizing p a with
  | nil =>
    simp only [Pack.appendAll, Option.some.injEq] at h
    subst h
    exact ⟨[], by simp, by simpa using ha, by simp⟩
  | cons o os ih =>
    unfold Pack.appendAll at h
    split at h
    · rename_i q' hq'
      have hnone : (p.appendPack E o).2 = none := by rw [hq']
      have H := C12_append_concatenates E p o (hnd o (by simp)) hnone
      rw [hq'] at H
      simp only at H
      obtain ⟨_, _, h3, _, h5, _, _⟩ := H
      obtain ⟨g1, g2, g3⟩ := h3 hp (hos o (by simp))
      have hko : k ∈ dkeys o.data := (g2 k).1 (dget_isSome.1 (by rw [ha]; rfl))
      obtain ⟨b, hb⟩ := Option.isSome_iff_exists.1 (dget_isSome.2 hko)
      obtain ⟨c, hc, happ⟩ := g3 k a b ha hb
      have hbk := hkind o (by simp) b hb
      have hceq := happ.2 hbk.symm
      have hq'ne : q'.data ≠ [] := by
        intro he; rw [he] at hc; simp [dget] at hc
      obtain ⟨bs, i1, i2, i3⟩ := ih q' (fun x hx => hnd x (by simp [hx])) hq'ne
        (fun x hx => hos x (by simp [hx])) h c hc
        (fun x hx b' hb' => by rw [hceq]; exact hkind x (by simp [hx]) b' hb')
      refine ⟨b :: bs, by simp [i1, hb], ?_, ?_⟩
      · rw [i2, hceq]; simp
      · rw [i3, h5]; simp
    · simp at h

/-- Two packs for the examples. -/
def exA : Pack := Pack.init [(0, ⟨.i, [.int 1, .int 2]⟩)] [(0, .str ['A'])]
def exB : Pack := Pack.init [(0, ⟨.i, [.int 3]⟩)] [(0, .str ['B'])]

example : (exA.appendPack exEnv exB).2 = none ∧ (dkeys exB.data).Nodup ∧
    (exA.appendPack exEnv exB).1.data = [(0, ⟨.i, [.int 1, .int 2, .int 3]⟩)] ∧
    (exA.appendAll exEnv [exB, exA]).isSome := by decide +kernel

/-- The packs align: non-empty dicts have the same set of keys. -/
def Aligned (a b : List Int) : Prop := a = [] ∨ b = [] ∨ ∀ k, k ∈ a ↔ k ∈ b

/-- C13 when the names align (missing: names that do not align, see the
counterexample).  Also: ValueError is raised exactly when something does not align,
as long as numpy can append the arrays. -/
theorem C13_append_atomic_partial (E : NpEnv) (p o : Pack)
    (hn : Aligned (dkeys p.names) (dkeys o.names))
    (h : (p.appendPack E o).2 = some .valueError) :
    (p.appendPack E o).1 = p ∧ ¬ Aligned (dkeys p.data) (dkeys o.data) := by
  have hkey : ∀ d o' : List (Int × Arr), (appendLoop E d o').2 ≠ some .valueError := by
    intro d o'
    induction o' generalizing d with
    | nil => simp [appendLoop]
    | cons x xs ih =>
      unfold appendLoop
      split
      · simp
      · split
        · rename_i e he
          unfold npAppend at he
          split at he
          · simp at he
          · split at he
            · simp at he
            · simp at he; subst he; simp
        · exact ih _
  have dk : ∀ {ν : Type} (d : List (Int × ν)), dkeys d = [] ↔ d = [] := by
    intro ν d; simp [dkeys]
  unfold Pack.appendPack at h ⊢
  split at h
  · rename_i d e hd
    simp only [Option.some.injEq] at h
    subst h
    simp only
    unfold appendData at hd
    split at hd
    · simp at hd
    · rename_i hpe
      split at hd
      · simp at hd
      · rename_i hoe
        split at hd
        · have := hkey p.data o.data
          rw [hd] at this; simp at this
        · rename_i hs
          simp only [Prod.mk.injEq, and_true] at hd
          subst hd
          refine ⟨rfl, ?_⟩
          rintro (h1 | h1 | h1)
          · exact hpe ((dk _).1 h1)
          · exact hoe ((dk _).1 h1)
          · exact hs (sameKeys_iff.2 h1)
  · exfalso
    split at h
    · rename_i n e hn'
      simp only [Option.some.injEq] at h
      subst h
      unfold appendNames at hn'
      split at hn'
      · simp at hn'
      · rename_i hpe
        split at hn'
        · simp at hn'
        · rename_i hoe
          split at hn'
          · simp at hn'
          · rename_i hs
            rcases hn with h1 | h1 | h1
            · exact hpe ((dk _).1 h1)
            · exact hoe ((dk _).1 h1)
            · exact hs (sameKeys_iff.2 h1)
    · simp at h

/-- A pack whose data keys differ: the partial theorem applies. -/
example : (exA.appendPack exEnv (Pack.init [(1, ⟨.i, [.int 3]⟩)] [])).2 = some .valueError := by
  decide +kernel

/-- C13 is false: with names that do not align, append_pack raises ValueError after the
data has been appended; the mask is then shorter than the data and filenames lacks the
appended file. -/
theorem C13_counterexample :
    ∃ p o : Pack, Reachable exEnv p ∧ Reachable exEnv o ∧
      (p.appendPack exEnv o).2 = some .valueError ∧ (p.appendPack exEnv o).1 ≠ p ∧
      ∃ a, dget (p.appendPack exEnv o).1.data 0 = some a ∧
        (p.appendPack exEnv o).1.mask.bits.length < a.els.length := by
  refine ⟨exA, Pack.init [(0, ⟨.i, [.int 3]⟩)] [(1, .str ['B'])], Reachable.init _ _ _,
    Reachable.init _ _ _, by decide +kernel, by decide +kernel,
    ⟨.i, [.int 1, .int 2, .int 3]⟩, by decide +kernel, by decide +kernel⟩

/-! ## C15, C16: lookup -/

/-- C15 -/
theorem C15_lookup_order (p : Pack) :
    (∀ k, p.datakey (.int k) = if k ∈ dkeys p.data then .ok k else .error .keyError) ∧
    (∀ s key, p.datakey (.str s) = .ok key ↔
      ResolvesStr p.pre (· ∈ dkeys p.data) p.names s key) ∧
    (∀ s e, p.datakey (.str s) = .error e →
      e = .keyError ∧ ∀ key, ¬ ResolvesStr p.pre (· ∈ dkeys p.data) p.names s key) ∧
    (∀ s key, FirstNamed p.names s key → key ∉ dkeys p.data →
      p.datakey (.str s) = .error .keyError) ∧
    (∀ ch key, p.datakey ch = .ok key → key ∈ dkeys p.data) := by
  have hint : ∀ k, p.datakey (.int k) = if k ∈ dkeys p.data then .ok k else .error .keyError := by
    intro k
    simp only [Pack.datakey, dget_isSome]
  have hstr : ∀ s key, p.datakey (.str s) = .ok key ↔
      ResolvesStr p.pre (· ∈ dkeys p.data) p.names s key := by
    intro s key
    simp only [Pack.datakey]
    constructor
    · intro h
      split at h
      · rename_i r hr
        subst h
        obtain ⟨key', hf, h2⟩ := lookupName_some.1 hr
        split at h2
        · rename_i hd
          simp only [Except.ok.injEq] at h2
          subst h2
          exact ⟨dget_isSome.1 hd, Or.inl hf⟩
        · simp at h2
      · rename_i hr
        split at h
        · rename_i k hk
          split at h
          · rename_i hd
            simp only [Except.ok.injEq] at h
            subst h
            exact ⟨dget_isSome.1 hd, Or.inr ⟨lookupName_none.1 hr, k, matchFallback_iff.1 hk, rfl⟩⟩
          · simp at h
        · simp at h
    · rintro ⟨hk, hf | ⟨hn, k, hfb, rfl⟩⟩
      · have := (lookupName_some (data := p.data)).2 ⟨key, hf, rfl⟩
        rw [this]
        simp [dget_isSome.2 hk]
      · rw [lookupName_none.2 hn, matchFallback_iff.2 hfb]
        simp [dget_isSome.2 hk]
  have herr : ∀ s e, p.datakey (.str s) = .error e → e = .keyError := by
    intro s e h
    simp only [Pack.datakey] at h
    split at h
    · rename_i r hr
      subst h
      obtain ⟨key', hf, h2⟩ := lookupName_some.1 hr
      split at h2 <;> simp at h2
      exact h2
    · split at h
      · split at h <;> simp at h
        exact h.symm
      · simp at h; exact h.symm
  refine ⟨hint, hstr, ?_, ?_, ?_⟩
  · intro s e h
    refine ⟨herr s e h, ?_⟩
    intro key hr
    rw [(hstr s key).2 hr] at h; simp at h
  · intro s key hf hk
    have := (lookupName_some (data := p.data)).2 ⟨key, hf, rfl⟩
    simp only [Pack.datakey, this]
    have hnot : ¬ (dget p.data key).isSome := fun h => hk (dget_isSome.1 h)
    simp [hnot]
  · intro ch key h
    cases ch with
    | int k =>
      rw [hint] at h
      split at h
      · simp at h; subst h; assumption
      · simp at h
    | str s => exact ((hstr s key).1 h).1

/-- The resolution is a function: at most one key. -/
theorem C15_resolution_unique (pre : List Char) (isKey : Int → Prop) (names : List (Int × Val))
    (s : List Char) (k k' : Int) (h : ResolvesStr pre isKey names s k)
    (h' : ResolvesStr pre isKey names s k') : k = k' := by
  obtain ⟨_, h | ⟨hn, i, hi, rfl⟩⟩ := h
  · obtain ⟨_, h' | ⟨hn', _⟩⟩ := h'
    · exact FirstNamed.unique h h'
    · obtain ⟨l1, l2, rfl, _⟩ := h
      exact absurd rfl (hn' _ (List.mem_append.2 (Or.inr (List.mem_cons_self ..))))
  · obtain ⟨_, h' | ⟨_, i', hi', rfl⟩⟩ := h'
    · obtain ⟨l1, l2, rfl, _⟩ := h'
      exact absurd rfl (hn _ (List.mem_append.2 (Or.inr (List.mem_cons_self ..))))
    · rw [IsFallback.unique hi hi']

example : exA.datakey (.str ['A']) = .ok 0 ∧ exA.datakey (.str ['c', 'h', '0']) = .ok 0 ∧
    exA.datakey (.str ['c', 'h', '1']) = .error .keyError := by decide +kernel

/-- C16 -/
theorem C16_fallback_roundtrip (p : Pack) (k : Int) (hk : k ∈ dkeys p.data) (h0 : 0 ≤ k)
    (s : List Char) (hs : p.name (.int k) true = .ok (.str s))
    (hn : ∀ x ∈ p.names, x.2 ≠ .str s) (part : Option Int) (nof : Option String) :
    p.call (.str s) part nof = p.call (.int k) part nof := by
  have hdk : p.datakey (.int k) = .ok k := by
    rw [(C15_lookup_order p).1, if_pos hk]
  have hs' : s = p.pre ++ decNat k.natAbs := by
    simp only [Pack.name, hdk, if_true, Except.ok.injEq, Val.str.injEq] at hs
    rw [← hs]
    have : ¬ (k < 0) := by omega
    simp [decInt, this]
  have hfb : IsFallback p.pre s k.natAbs := by
    refine ⟨decNat k.natAbs, [], by simp [hs'], decNat_ne_nil _, decNat_digits _, by simp, ?_⟩
    rw [← parseNat_eq (decNat_digits _), parseNat_decNat]
  have : p.datakey (.str s) = .ok k :=
    ((C15_lookup_order p).2.1 s k).2 ⟨hk, Or.inr ⟨hn, k.natAbs, hfb, by omega⟩⟩
  simp only [Pack.call, this, hdk]

/-- The fallback name exists for every key. -/
theorem C16_fallback_name_exists (p : Pack) (k : Int) (hk : k ∈ dkeys p.data) :
    ∃ s, p.name (.int k) true = .ok (.str s) := by
  have hdk : p.datakey (.int k) = .ok k := by
    rw [(C15_lookup_order p).1, if_pos hk]
  exact ⟨_, by simp [Pack.name, hdk]; rfl⟩

example : exA.name (.int 0) true = .ok (.str ['c', 'h', '0']) := by decide +kernel

/-! ## C17, C18: calls -/

theorem nof_step (E : NpEnv) (p : Pack) (op : Op) (h : p.nof ∈ nofvalids) :
    (p.step E op).1.nof ∈ nofvalids := by
  cases op <;> simp only [Pack.step]
  case setMask m => rw [(setMask_frame p m).2.2.2.2.1]; exact h
  case setMindur m =>
    unfold Pack.setMindur Pack.applyMindur
    split <;> exact h
  case setNof v =>
    unfold Pack.setNof
    split
    · assumption
    · exact h
  case setData d => rw [(maskReset_frame _).2.2.2.2.1]; exact h
  case dataDel k => split <;> exact h
  case maskReset => rw [(maskReset_frame _).2.2.2.2.1]; exact h
  case startstop a b ap =>
    have : (p.startstop a b ap).1.nof ∈ nofvalids := by
      unfold Pack.startstop
      dsimp only
      split
      · split
        · rw [(setMask_frame _ _).2.2.2.2.1]; exact h
        · exact h
      · exact h
    split
    · rename_i p' r heq; rw [heq] at this; exact this
    · rename_i p' r heq; rw [heq] at this; exact this
  case appendPack o =>
    unfold Pack.appendPack
    split
    · exact h
    · split
      · exact h
      · rw [(maskReset_frame _).2.2.2.2.1]; exact h
  all_goals exact h

/-- C17 -/
theorem C17_nof_dispatch (E : NpEnv) (p : Pack) (hp : Reachable E p) :
    (p.nof = some "nan" ∨ p.nof = some "filter" ∨ p.nof = none) ∧
    ∀ ch key a, p.datakey ch = .ok key → dget p.data key = some a →
      p.call ch none (some "nan") = masked a p.mask ∧
      p.call ch none (some "filter") = boolIndex a p.mask ∧
      p.call ch none (some "ignore") = .ok a ∧
      p.call ch none none =
        (match p.nof with
          | some s => if s = "nan" then masked a p.mask else boolIndex a p.mask
          | none => .ok a) ∧
      (∀ s, s ∉ ["nan", "filter", "ignore"] →
        p.call ch none (some s) = p.call ch none none) := by
  have hv : p.nof ∈ nofvalids := by
    obtain ⟨d, n, ops, rfl⟩ := hp
    have h0 : (Pack.init d n).nof ∈ nofvalids := by
      unfold Pack.init
      rw [(maskReset_frame _).2.2.2.2.1]
      simp [nofvalids]
    generalize Pack.init d n = p at h0
    induction ops generalizing p with
    | nil => exact h0
    | cons op ops ih => exact ih _ (nof_step E p op h0)
  have hv' : p.nof = some "nan" ∨ p.nof = some "filter" ∨ p.nof = none := by
    simpa [nofvalids] using hv
  refine ⟨hv', ?_⟩
  intro ch key a hk ha
  refine ⟨by simp [Pack.call, hk, ha], by simp [Pack.call, hk, ha],
    by simp [Pack.call, hk, ha], ?_, ?_⟩
  · rcases hv' with h | h | h <;> simp [Pack.call, hk, ha, h]
  · intro s hs
    simp only [List.mem_cons, List.not_mem_nil, or_false, not_or] at hs
    simp [Pack.call, hk, ha, hs]

example : exPack.call (.int 0) none (some "filter") = .ok ⟨.f, [.flt 1, .flt 3, .flt 4]⟩ ∧
    (exPack.setNof (some "filter")).1.call (.int 0) none none =
      .ok ⟨.f, [.flt 1, .flt 3, .flt 4]⟩ ∧
    (exPack.setNof (some "bogus")).2 = some .valueError := by decide +kernel

/-- C18: the part argument, for every integer.  A negative one counts from the end. -/
theorem C18_part_argument (E : NpEnv) (p : Pack) (hp : Reachable E p) (ch : Ch) (a : Arr)
    (ha : p.call ch none (some "ignore") = .ok a) (nof : Option String) (i : Int) :
    ((i ≥ p.parts.length ∨ i < -p.parts.length) →
      p.call ch (some i) nof = .error .indexError) ∧
    (0 ≤ i → i < p.parts.length → ∃ s t, IsRun p.mask.bits s t ∧
      (∃ runs : List (Nat × Nat), (∀ s t, (s, t) ∈ runs ↔ IsRun p.mask.bits s t) ∧
        runs.Pairwise (fun x y => x.2 < y.1) ∧ runs[i.toNat]? = some (s, t)) ∧
      p.call ch (some i) nof = .ok ⟨a.kind, (a.els.drop s).take (t - s)⟩) ∧
    (i < 0 → -p.parts.length ≤ i →
      p.call ch (some i) nof = p.call ch (some (i + p.parts.length)) nof) := by
  obtain ⟨key, hk, hd⟩ := call_ignore.1 ha
  have hlen : p.parts.length = p.cached.length := by simp [Pack.parts]
  rw [hlen]
  refine ⟨?_, ?_, ?_⟩
  · intro h
    have : pyIndex p.cached i = .error .indexError := by
      unfold pyIndex
      dsimp only
      by_cases h1 : i < 0
      · simp only [h1, if_true]
        rw [if_pos (by omega)]
      · simp only [h1, if_false]
        have : p.cached[i.toNat]? = none ∨ i < 0 := by
          rcases h with h | h
          · left; exact List.getElem?_eq_none (by omega)
          · right; omega
        rcases this with h2 | h2
        · rw [h2]
        · omega
    simp [Pack.call, hk, hd, this]
  · intro h0 h1
    obtain ⟨runs, r1, r2, r3, r4⟩ := C09_parts_reflect_mask E p hp
    have hl : runs.length = p.cached.length := by
      have := congrArg List.length r3
      simpa [Pack.parts] using this.symm
    have hi : i.toNat < runs.length := by omega
    rcases hst : runs[i.toNat]? with _ | ⟨s, t⟩
    · simp at hst; omega
    · refine ⟨s, t, (r1 s t).1 (List.mem_of_getElem? hst), ⟨runs, r1, r2, hst⟩, ?_⟩
      have := r4 ch a nof ha i.toNat s t hst
      rwa [Int.toNat_of_nonneg h0] at this
  · intro h0 h1
    have : pyIndex p.cached i = pyIndex p.cached (i + p.cached.length) := by
      unfold pyIndex
      have h2 : ¬ (i + (p.cached.length : Int) < 0) := by omega
      simp only [h0, if_true, h2, if_false]
    simp only [Pack.call, hk, hd, this]

example : exPack.call (.int 0) (some 1) none = .ok ⟨.f, [.flt 3, .flt 4]⟩ ∧
    exPack.call (.int 0) (some (-2)) none = .ok ⟨.f, [.flt 1]⟩ ∧
    exPack.call (.int 0) (some 2) none = .error .indexError := by decide +kernel

/-! ## C19: records -/

theorem zipCols_cons2 (c c' : List Val) (cs : List (List Val)) :
    zipCols (c :: c' :: cs) = List.zipWith (· :: ·) c (zipCols (c' :: cs)) := rfl

/-- Transposition: row `i` holds element `i` of every column, and there are as many rows
as the shortest column has elements. -/
theorem zipCols_spec (cols : List (List Val)) (hne : cols ≠ []) :
    (∀ c ∈ cols, (zipCols cols).length ≤ c.length) ∧
    (∃ c ∈ cols, (zipCols cols).length = c.length) ∧
    (∀ (i : Nat) (row : List Val), (zipCols cols)[i]? = some row →
      row.length = cols.length ∧
      ∀ (j : Nat) (c : List Val), cols[j]? = some c → row[j]? = c[i]?) := by
  induction cols with
  | nil => exact absurd rfl hne
  | cons c cs ih =>
    cases cs with
    | nil =>
      simp only [zipCols]
      refine ⟨by simp, ⟨c, by simp, by simp⟩, ?_⟩
      intro i row h
      rw [List.getElem?_map] at h
      cases hc : c[i]? with
      | none => rw [hc] at h; simp at h
      | some v =>
        rw [hc] at h; simp at h; subst h
        refine ⟨rfl, ?_⟩
        intro j c' hj
        cases j with
        | zero => simp at hj; subst hj; simp [hc]
        | succ j => simp at hj
    | cons c' cs =>
      obtain ⟨h1, ⟨m, hm, hm'⟩, h3⟩ := ih (by simp)
      rw [zipCols_cons2]
      refine ⟨?_, ?_, ?_⟩
      · intro x hx
        rcases List.mem_cons.1 hx with h | h
        · subst h; simp; omega
        · have := h1 x h; simp; omega
      · by_cases hle : c.length ≤ (zipCols (c' :: cs)).length
        · exact ⟨c, by simp, by simp; omega⟩
        · exact ⟨m, List.mem_cons_of_mem _ hm, by simp; omega⟩
      · intro i row h
        rw [List.getElem?_zipWith] at h
        cases hc : c[i]? with
        | none => rw [hc] at h; simp at h
        | some v =>
          cases hz : (zipCols (c' :: cs))[i]? with
          | none => rw [hc, hz] at h; simp at h
          | some r =>
            rw [hc, hz] at h
            simp at h
            subst h
            obtain ⟨h4, h5⟩ := h3 i r hz
            refine ⟨by simp [h4], ?_⟩
            intro j x hj
            cases j with
            | zero => simp at hj; subst hj; simp [hc]
            | succ j =>
              simp only [List.getElem?_cons_succ] at hj ⊢
              exact h5 j x hj

theorem callAll_spec {f : List Char → Except Exc Arr} {ns : List (List Char)}
    {cols : List (List Val)} (h : callAll f ns = .ok cols) :
    cols.length = ns.length ∧
    ∀ (j : Nat) (n : List Char), ns[j]? = some n →
      ∃ a, f n = .ok a ∧ cols[j]? = some a.els := by
  induction ns generalizing cols with
  | nil => simp [callAll] at h; subst h; simp
  | cons n ns ih =>
    unfold callAll at h
    split at h
    · simp at h
    · rename_i a ha
      split at h
      · simp at h
      · rename_i as has
        simp only [Except.ok.injEq] at h
        subst h
        obtain ⟨h1, h2⟩ := ih has
        refine ⟨by simp [h1], ?_⟩
        intro j n' hj
        cases j with
        | zero => simp at hj; subst hj; exact ⟨a, ha, by simp⟩
        | succ j => simpa using h2 j n' (by simpa using hj)

theorem strNames_some {vs : List Val} {ns : List (List Char)} (h : strNames vs = some ns) :
    vs = ns.map Val.str := by
  induction vs generalizing ns with
  | nil => simp [strNames] at h; subst h; rfl
  | cons v vs ih =>
    cases v <;> simp only [strNames, reduceCtorEq] at h
    rename_i s
    cases hr : strNames vs with
    | none => rw [hr] at h; simp at h
    | some r =>
      rw [hr] at h; simp at h; subst h
      simp [ih hr]

/-- C19: fields in ascending key order; row `i`, field `n` is element `i` of
`pack(n, part, nof)`; as many rows as the shortest channel involved. -/
theorem C19_records_agree (ident : List Char → Bool) (p : Pack) (part : Option Int)
    (nof : Option String) (fallback : Bool) (ns : List (List Char)) (rows : List (List Val))
    (h : p.records ident part nof fallback = .ok (ns, rows)) :
    (∃ keys : List Int, keys.Pairwise (· ≤ ·) ∧
      (∀ k, k ∈ keys ↔ k ∈ (if fallback then dkeys p.data else dkeys p.names)) ∧
      (if fallback then ns = keys.map (fun k => p.pre ++ decInt k)
        else keys.map (fun k => dget p.names k) = ns.map (fun n => some (.str n)))) ∧
    ns.Nodup ∧
    (ns = [] → rows = []) ∧
    (ns ≠ [] → (∃ n a, n ∈ ns ∧ p.call (.str n) part nof = .ok a ∧ rows.length = a.els.length)) ∧
    (∀ n ∈ ns, ∃ a, p.call (.str n) part nof = .ok a ∧ rows.length ≤ a.els.length) ∧
    (∀ (i : Nat) (row : List Val), rows[i]? = some row → row.length = ns.length ∧
      ∀ (j : Nat) (n : List Char), ns[j]? = some n →
        ∃ a, p.call (.str n) part nof = .ok a ∧ row[j]? = a.els[i]?) := by
  unfold Pack.records at h
  split at h
  · simp at h
  · rename_i ns' hns
    split at h
    · rename_i hv
      split at h
      · simp at h
      · rename_i cols hcols
        simp only [Except.ok.injEq, Prod.mk.injEq] at h
        obtain ⟨rfl, rfl⟩ := h
        obtain ⟨c1, c2⟩ := callAll_spec hcols
        refine ⟨?_, ?_, ?_, ?_, ?_, ?_⟩
        · unfold Pack.recordNames at hns
          cases fallback with
          | true =>
            simp only [if_true, Option.some.injEq] at hns ⊢
            exact ⟨_, sortInts_sorted _, fun k => mem_sortInts, hns.symm⟩
          | false =>
            simp only [Bool.false_eq_true, if_false] at hns ⊢
            refine ⟨sortInts (dkeys p.names), sortInts_sorted _, fun k => mem_sortInts, ?_⟩
            have h1 := strNames_some hns
            have h2 : ∀ l : List Int, (∀ k ∈ l, k ∈ dkeys p.names) →
                l.map (fun k => dget p.names k) = (l.filterMap (dget p.names)).map some := by
              intro l hl
              induction l with
              | nil => simp
              | cons x xs ih =>
                obtain ⟨v, hv⟩ := Option.isSome_iff_exists.1 (dget_isSome.2 (hl x (by simp)))
                simp only [List.map_cons, hv, List.filterMap_cons]
                rw [ih (fun k hk => hl k (by simp [hk]))]
            rw [h2 _ (fun k hk => mem_sortInts.1 hk), h1]
            simp
        · unfold validFields at hv
          simp only [Bool.and_eq_true, decide_eq_true_eq] at hv
          exact hv.2
        · intro he
          subst he
          have : cols = [] := List.length_eq_zero_iff.1 (by simpa using c1)
          simp [this, zipCols]
        · intro hne
          have hcne : cols ≠ [] := by
            intro he; apply hne; apply List.length_eq_zero_iff.1; rw [← c1, he]; rfl
          obtain ⟨_, ⟨m, hm, hm'⟩, _⟩ := zipCols_spec cols hcne
          obtain ⟨j, hj⟩ := List.mem_iff_getElem?.1 hm
          have hjl : j < ns'.length := by
            rw [← c1]
            rcases Nat.lt_or_ge j cols.length with hh | hh
            · exact hh
            · simp [List.getElem?_eq_none hh] at hj
          obtain ⟨a, ha1, ha2⟩ := c2 j ns'[j] (List.getElem?_eq_getElem hjl)
          rw [hj] at ha2
          simp only [Option.some.injEq] at ha2
          exact ⟨ns'[j], a, List.getElem_mem _, ha1, by rw [hm', ha2]⟩
        · intro n hn
          obtain ⟨j, hj⟩ := List.mem_iff_getElem?.1 hn
          obtain ⟨a, ha1, ha2⟩ := c2 j n hj
          have hcne : cols ≠ [] := by rintro rfl; simp at ha2
          exact ⟨a, ha1, (zipCols_spec cols hcne).1 _ (List.mem_of_getElem? ha2)⟩
        · intro i row hrow
          have hcne : cols ≠ [] := by rintro rfl; simp [zipCols] at hrow
          obtain ⟨z1, z2⟩ := (zipCols_spec cols hcne).2.2 i row hrow
          refine ⟨by rw [z1, c1], ?_⟩
          intro j n hj
          obtain ⟨a, ha1, ha2⟩ := c2 j n hj
          exact ⟨a, ha1, z2 j a.els ha2⟩
    · simp at h

example : exPack.records (fun _ => true) none (some "filter") false =
    .ok ([['A']], [[.flt 1], [.flt 3], [.flt 4]]) := by decide +kernel

/-! ## C23: fn and filenames -/

theorem fn_step (E : NpEnv) (p : Pack) (op : Op) (h : p.filenames.head? = some p.fn) :
    (p.step E op).1.filenames.head? = some (p.step E op).1.fn := by
  have hsm : ∀ m, (p.setMask m).filenames.head? = some (p.setMask m).fn := by
    intro m
    obtain ⟨_, _, f3, f4, _⟩ := setMask_frame p m
    rw [f3, f4]; exact h
  have hmr : ∀ q : Pack, q.filenames.head? = some q.fn →
      q.maskReset.filenames.head? = some q.maskReset.fn := by
    intro q hq
    obtain ⟨_, _, f3, f4, _⟩ := maskReset_frame q
    rw [f3, f4]; exact hq
  cases op <;> simp only [Pack.step]
  case setMask m => exact hsm m
  case setMindur m =>
    unfold Pack.setMindur Pack.applyMindur
    split <;> exact h
  case setNof v => unfold Pack.setNof; split <;> exact h
  case setData d => exact hmr _ h
  case setFn s => unfold Pack.setFn; simp; split <;> simp
  case dataDel k => split <;> exact h
  case maskReset => exact hmr _ h
  case startstop a b ap =>
    have : (p.startstop a b ap).1.filenames.head? = some (p.startstop a b ap).1.fn := by
      unfold Pack.startstop
      dsimp only
      split
      · split
        · exact hsm _
        · exact h
      · exact h
    split
    · rename_i p' r heq; rw [heq] at this; exact this
    · rename_i p' r heq; rw [heq] at this; exact this
  case appendPack o =>
    unfold Pack.appendPack
    split
    · exact h
    · split
      · exact h
      · apply hmr
        show (p.filenames ++ o.filenames).head? = some p.fn
        rw [List.head?_append, h]; rfl
  all_goals exact h

/-- C23 -/
theorem C23_filenames_consistent (E : NpEnv) (p : Pack) (hp : Reachable E p) :
    p.filenames ≠ [] ∧ p.filenames.head? = some p.fn ∧
    (∀ s, (p.setFn s).fn = s ∧ (p.setFn s).filenames = s :: p.filenames.tail) ∧
    (∀ o : Pack, (p.appendPack E o).2 = none →
      (p.appendPack E o).1.filenames = p.filenames ++ o.filenames) ∧
    (∀ o : Pack, (p.appendPack E o).2 ≠ none →
      (p.appendPack E o).1.filenames = p.filenames) := by
  have hh : p.filenames.head? = some p.fn := by
    obtain ⟨d, n, ops, rfl⟩ := hp
    have h0 : (Pack.init d n).filenames.head? = some (Pack.init d n).fn := by
      unfold Pack.init
      rw [(maskReset_frame _).2.2.1, (maskReset_frame _).2.2.2.1]; rfl
    generalize Pack.init d n = p at h0
    induction ops generalizing p with
    | nil => exact h0
    | cons op ops ih => exact ih _ (fn_step E p op h0)
  refine ⟨by rintro he; rw [he] at hh; simp at hh, hh, ?_, ?_, ?_⟩
  · intro s
    refine ⟨rfl, ?_⟩
    unfold Pack.setFn
    cases p.filenames <;> rfl
  · intro o ho
    unfold Pack.appendPack at ho ⊢
    split at ho
    · simp at ho
    · split at ho
      · simp at ho
      · simp only
        rw [(maskReset_frame _).2.2.2.1]
  · intro o ho
    unfold Pack.appendPack at ho ⊢
    split at ho
    · rfl
    · split at ho
      · rfl
      · simp at ho

example : (((exA.setFn ['x']).appendPack exEnv (exB.setFn ['y'])).1.setFn ['z']).filenames =
    [['z'], ['y']] := by decide +kernel

end CP
