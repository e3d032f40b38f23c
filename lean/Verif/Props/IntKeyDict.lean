import Verif.Lemmas.PyIter
import Verif.Model.IntKeyDict
import Verif.Lemmas.Dict
/-!
# C20-C22: the dicts of a pack
-/

namespace CP

/-! ## C20: only integer keys -/

/-- All keys are ints. -/
def KeysInt (d : Dict) : Prop := ∀ k v, (k, v) ∈ d → ∃ i, k = .int i

/-- All values are 1-d arrays. -/
def ValsArr (d : Dict) : Prop := ∀ k v, (k, v) ∈ d → ∃ a, v = .arr a

def Item.IsSeq : Item → Prop
  | .seq _ => True
  | _ => False

/-- The arguments C20 speaks about: dicts, lists (for an NpDict also one-shot
iterators) of sequences, and the arguments `dict` itself rejects. -/
def PlainArg (conv : Option Conv) : Arg → Prop
  | .list items => ∀ it ∈ items, it.IsSeq
  | .oneshot items => conv.isSome = true ∧ ∀ it ∈ items, it.IsSeq
  | _ => True

def PlainOp (conv : Option Conv) : DOp → Prop
  | .update arg _ => PlainArg conv arg
  | _ => True

theorem isInt_iff {o : Obj} : o.isInt = true ↔ ∃ i, o = .int i := by
  cases o <;> simp [Obj.isInt]

theorem mem_dset {κ ν : Type} [DecidableEq κ] {d : List (κ × ν)} {k : κ} {v : ν} {p : κ × ν}
    (h : p ∈ dset d k v) : p ∈ d ∨ p = (k, v) := by
  induction d with
  | nil => simp [dset] at h; exact Or.inr h
  | cons q d ih =>
    obtain ⟨k₁, v₁⟩ := q
    unfold dset at h
    split at h
    · rename_i h1
      rcases List.mem_cons.1 h with h2 | h2
      · right; rw [h2, h1]
      · left; exact List.mem_cons_of_mem _ h2
    · rcases List.mem_cons.1 h with h2 | h2
      · left; rw [h2]; exact List.mem_cons_self
      · rcases ih h2 with h3 | h3
        · left; exact List.mem_cons_of_mem _ h3
        · right; exact h3

theorem KeysInt.dset {d : Dict} (h : KeysInt d) {k : Obj} (hk : k.isInt = true) (v : Obj) :
    KeysInt (dset d k v) := by
  intro k' v' hm
  rcases mem_dset hm with h1 | h1
  · exact h k' v' h1
  · simp only [Prod.mk.injEq] at h1; rw [h1.1]; exact isInt_iff.1 hk

theorem ValsArr.dset {d : Dict} (h : ValsArr d) (k : Obj) (a : Arr) :
    ValsArr (dset d k (.arr a)) := by
  intro k' v' hm
  rcases mem_dset hm with h1 | h1
  · exact h k' v' h1
  · simp only [Prod.mk.injEq] at h1; exact ⟨a, h1.2⟩

theorem keysInt_updateItems {items : List Item} {d : Dict} {rest : List Item}
    (hs : ∀ it ∈ items, it.IsSeq) (hc : checkItems items = .left rest) (h : KeysInt d) :
    KeysInt (pyUpdateItems d items).1 := by
  induction items generalizing d with
  | nil => exact h
  | cons it items ih =>
    cases it with
    | seq xs =>
      unfold checkItems at hc
      unfold pyUpdateItems
      simp only [Item.elems]
      split
      · exact h
      · rename_i k v heq
        simp only [Option.some.injEq] at heq
        subst heq
        simp only [List.length_cons, List.length_nil, Nat.zero_add, Nat.reduceAdd, gt_iff_lt,
          Nat.lt_irrefl, if_false] at hc
        split at hc
        · rename_i hk
          exact ih (fun x hx => hs x (by simp [hx])) hc (h.dset hk v)
        · simp at hc
      · exact h
    | _ => exact (hs _ List.mem_cons_self).elim

theorem keysInt_dupdate {d ps : Dict} (h : KeysInt d) (hp : ps.all (·.1.isInt) = true) :
    KeysInt (dupdate d ps) := by
  induction ps generalizing d with
  | nil => exact h
  | cons p ps ih =>
    simp only [List.all_cons, Bool.and_eq_true] at hp
    exact ih (h.dset hp.1 p.2) hp.2

theorem valsArr_dupdate {d ps : Dict} (h : ValsArr d) (hp : ValsArr ps) :
    ValsArr (dupdate d ps) := by
  induction ps generalizing d with
  | nil => exact h
  | cons p ps ih =>
    obtain ⟨k, v⟩ := p
    obtain ⟨a, rfl⟩ := hp k v (by simp)
    exact ih (h.dset k a) (fun k' v' hm => hp k' v' (by simp [hm]))

theorem keysInt_finish {d : Dict} {arg : Arg} {kw : List Obj} (h : KeysInt d)
    (h' : KeysInt (pyUpdate d arg).1) : KeysInt (finishUpdate d arg kw).1 := by
  unfold finishUpdate
  split
  · exact h
  · exact h'

theorem keysInt_update {d : Dict} {arg : Arg} {kw : List Obj} (h : KeysInt d)
    (ha : PlainArg none arg) : KeysInt (intKeyUpdate d arg kw).1 := by
  unfold intKeyUpdate
  cases arg with
  | dict ps =>
    simp only
    split
    · rename_i hp; exact keysInt_finish h (keysInt_dupdate h hp)
    · exact h
  | list items =>
    simp only
    split
    · exact h
    · rename_i rest hc
      exact keysInt_finish h (keysInt_updateItems ha hc h)
  | oneshot items => exact absurd ha.1 (by simp)
  | none => exact keysInt_finish h h
  | str n => exact keysInt_finish h (by cases n <;> exact h)
  | notIterable => exact keysInt_finish h h
  | many => exact keysInt_finish h h

theorem convItems_seq {conv : Conv} {items r : List Item} (h : convItems conv items = .ok r)
    (hs : ∀ it ∈ items, it.IsSeq) :
    ∀ it ∈ r, ∃ xs a, it = .seq (xs ++ [.arr a]) := by
  induction items generalizing r with
  | nil => simp [convItems] at h; subst h; simp
  | cons it items ih =>
    cases it with
    | seq xs =>
      unfold convItems at h
      simp only at h
      split at h
      · simp at h
      · split at h
        · simp at h
        · split at h
          · simp at h
          · rename_i a _ r' hr'
            simp only [Except.ok.injEq] at h
            subst h
            intro it hit
            rcases List.mem_cons.1 hit with h1 | h1
            · exact ⟨_, _, h1⟩
            · exact ih hr' (fun x hx => hs x (by simp [hx])) it h1
    | _ => exact (hs _ List.mem_cons_self).elim

theorem convDict_vals {conv : Conv} {ps r : Dict} (h : convDict conv ps = .ok r) : ValsArr r := by
  induction ps generalizing r with
  | nil => simp [convDict] at h; subst h; intro k v hm; simp at hm
  | cons p ps ih =>
    obtain ⟨k, v⟩ := p
    unfold convDict at h
    split at h
    · simp at h
    · split at h
      · simp at h
      · rename_i a _ r' hr'
        simp only [Except.ok.injEq] at h
        subst h
        intro k' v' hm
        rcases List.mem_cons.1 hm with h1 | h1
        · simp only [Prod.mk.injEq] at h1; exact ⟨_, h1.2⟩
        · exact ih hr' k' v' h1

theorem valsArr_updateItems {items : List Item} {d : Dict} (h : ValsArr d)
    (hs : ∀ it ∈ items, ∃ xs a, it = .seq (xs ++ [.arr a])) :
    ValsArr (pyUpdateItems d items).1 := by
  induction items generalizing d with
  | nil => exact h
  | cons it items ih =>
    obtain ⟨xs, a, rfl⟩ := hs it (by simp)
    unfold pyUpdateItems
    simp only [Item.elems]
    split
    · exact h
    · rename_i k v heq
      simp only [Option.some.injEq] at heq
      have hv : v = .arr a := by
        have := congrArg List.getLast? heq
        simpa using this.symm
      subst hv
      exact ih (h.dset k a) (fun x hx => hs x (by simp [hx]))
    · exact h

/-- The argument as converted by NpDict.update is plain for an IntKeyDict and carries
arrays only. -/
theorem convArg_plain {conv : Conv} {arg arg' : Arg} (h : convArg conv arg = .ok arg')
    (ha : PlainArg (some conv) arg) :
    PlainArg none arg' ∧ ∀ d kw, ValsArr d → ValsArr (intKeyUpdate d arg' kw).1 := by
  have hfin : ∀ d arg kw, ValsArr d → ValsArr (pyUpdate d arg).1 →
      ValsArr (finishUpdate d arg kw).1 := by
    intro d arg kw h1 h2
    unfold finishUpdate
    split
    · exact h1
    · exact h2
  have hlist : ∀ items r, convItems conv items = .ok r → (∀ it ∈ items, it.IsSeq) →
      PlainArg none (.list r) ∧ ∀ d kw, ValsArr d → ValsArr (intKeyUpdate d (.list r) kw).1 := by
    intro items r hr hs
    have h1 := convItems_seq hr hs
    refine ⟨?_, ?_⟩
    · intro it hit
      obtain ⟨xs, a, rfl⟩ := h1 it hit
      trivial
    · intro d kw hd
      unfold intKeyUpdate
      simp only
      split
      · exact hd
      · exact hfin _ _ _ hd (valsArr_updateItems hd h1)
  cases arg with
  | dict ps =>
    unfold convArg at h
    simp only at h
    split at h
    · rename_i r hr
      simp only [Except.ok.injEq] at h
      subst h
      refine ⟨trivial, ?_⟩
      intro d kw hd
      unfold intKeyUpdate
      simp only
      split
      · exact hfin _ _ _ hd (valsArr_dupdate hd (convDict_vals hr))
      · exact hd
    · simp at h
  | list items =>
    unfold convArg at h
    simp only at h
    split at h
    · rename_i r hr
      simp only [Except.ok.injEq] at h
      subst h
      exact hlist items r hr ha
    · simp at h
  | oneshot items =>
    unfold convArg at h
    simp only at h
    split at h
    · rename_i r hr
      simp only [Except.ok.injEq] at h
      subst h
      exact hlist items r hr ha.2
    · simp at h
  | str n =>
    cases n with
    | zero =>
      simp only [convArg, Except.ok.injEq] at h
      subst h
      refine ⟨fun it hit => by simp at hit, ?_⟩
      intro d kw hd
      exact hfin _ _ _ hd hd
    | succ n => simp [convArg] at h
  | none =>
    simp only [convArg, Except.ok.injEq] at h
    subst h
    exact ⟨trivial, fun d kw hd => hfin _ _ _ hd hd⟩
  | notIterable =>
    simp only [convArg, Except.ok.injEq] at h
    subst h
    exact ⟨trivial, fun d kw hd => hfin _ _ _ hd hd⟩
  | many =>
    simp only [convArg, Except.ok.injEq] at h
    subst h
    exact ⟨trivial, fun d kw hd => hfin _ _ _ hd hd⟩

theorem keys_step {conv : Option Conv} {d : Dict} {op : DOp} (hop : PlainOp conv op)
    (h : KeysInt d) (hv : conv.isSome = true → ValsArr d) :
    KeysInt (dStep conv d op).1 ∧ (conv.isSome = true → ValsArr (dStep conv d op).1) := by
  have hset : ∀ k v, KeysInt (intKeySetitem d k v).1 := by
    intro k v
    unfold intKeySetitem
    split
    · rename_i hk; exact h.dset hk v
    · exact h
  have hdef : ∀ k v, KeysInt (intKeySetdefault d k v).1 := by
    intro k v
    unfold intKeySetdefault
    split
    · rename_i hk
      split
      · exact h
      · exact h.dset hk v
    · exact h
  cases op with
  | setitem k v =>
    cases conv with
    | none => exact ⟨hset k v, by simp⟩
    | some c =>
      simp only [dStep, npSetitem]
      split
      · exact ⟨h, hv⟩
      · rename_i a _
        refine ⟨hset _ _, fun hc => ?_⟩
        unfold intKeySetitem
        split
        · exact (hv hc).dset k a
        · exact hv hc
  | setdefault k v =>
    cases conv with
    | none => exact ⟨hdef k v, by simp⟩
    | some c =>
      simp only [dStep, npSetdefault]
      split
      · exact ⟨h, hv⟩
      · rename_i a _
        refine ⟨hdef _ _, fun hc => ?_⟩
        unfold intKeySetdefault
        split
        · split
          · exact hv hc
          · exact (hv hc).dset k a
        · exact hv hc
  | update arg kw =>
    cases conv with
    | none => exact ⟨keysInt_update h hop, by simp⟩
    | some c =>
      simp only [dStep, npUpdate]
      split
      · exact ⟨h, hv⟩
      · rename_i arg' harg'
        split
        · exact ⟨h, hv⟩
        · obtain ⟨h1, h2⟩ := convArg_plain harg' hop
          exact ⟨keysInt_update h h1, fun hc => h2 _ _ (hv hc)⟩
  | del k =>
    simp only [dStep]
    split
    · refine ⟨fun k' v' hm => h k' v' (List.mem_filter.1 hm).1, fun hc k' v' hm =>
        hv hc k' v' (List.mem_filter.1 hm).1⟩
    · exact ⟨h, hv⟩
  | clear => exact ⟨fun k v hm => by simp [dStep] at hm, fun _ k v hm => by simp [dStep] at hm⟩

/-- C20: constructed and operated on in any way, with dicts and sequences of
sequences as arguments and failures on the way, the keys are ints (and the values of an
NpDict 1-d arrays). -/
theorem C20_only_int_keys (conv : Option Conv) (arg : Arg) (kw : List Obj) (d : Dict)
    (ha : PlainArg conv arg) (hd : dInit conv arg kw = some d)
    (ops : List DOp) (hops : ∀ op ∈ ops, PlainOp conv op) :
    KeysInt (ops.foldl (fun d op => (dStep conv d op).1) d) ∧
    (conv.isSome = true → ValsArr (ops.foldl (fun d op => (dStep conv d op).1) d)) := by
  have h0 : KeysInt d ∧ (conv.isSome = true → ValsArr d) := by
    unfold dInit at hd
    split at hd
    · rename_i d' heq
      simp only [Option.some.injEq] at hd
      subst hd
      have := keys_step (d := []) (op := .update arg kw) ha (fun k v hm => by simp at hm)
        (fun _ k v hm => by simp at hm)
      rw [heq] at this
      exact this
    · simp at hd
  clear hd ha
  induction ops generalizing d with
  | nil => exact h0
  | cons op ops ih =>
    exact ih _ (fun o ho => hops o (by simp [ho])) (keys_step (hops op (by simp)) h0.1 h0.2)

/-- A conversion for the examples: arrays are taken as they are, all else has ndim 0. -/
def exConv : Conv
  | .arr a => some a
  | _ => none

example : dInit none (.list [.seq [.int 1, .obj 7], .seq [.int 2, .obj 8]]) [] =
      some [(.int 1, .obj 7), (.int 2, .obj 8)] ∧
    PlainArg none (.list [.seq [.int 1, .obj 7], .seq [.int 2, .obj 8]]) ∧
    dInit none (.list [.seq [.int 1, .obj 7], .seq [.obj 2, .obj 8]]) [] = none := by
  refine ⟨by decide, ?_, by decide⟩
  intro it hit
  simp at hit
  rcases hit with rfl | rfl <;> trivial

/-- Outside the claim: an iterator whose first item is too long lets a later item
through unchecked, without any exception. -/
theorem C20_oneshot_counterexample :
    ∃ d, dInit none (.oneshot [.seq [.int 1, .int 2, .int 3], .seq [.obj 0, .int 1]]) [] = some d ∧
      ¬ KeysInt d := by
  refine ⟨[(.obj 0, .int 1)], by decide, ?_⟩
  intro h
  obtain ⟨i, hi⟩ := h (.obj 0) (.int 1) (by simp)
  simp at hi

/-- Outside the claim: pairs given as iterators are not checked or converted. -/
theorem C20_iterator_item_counterexample :
    (∃ d, dInit none (.list [.iter [.obj 0, .int 1]]) [] = some d ∧ ¬ KeysInt d) ∧
    (∃ d, dInit (some exConv) (.list [.iter [.obj 0, .int 1]]) [] = some d ∧
      ¬ KeysInt d ∧ ¬ ValsArr d) := by
  have h : ¬ KeysInt [(.obj 0, .int 1)] := by
    intro h
    obtain ⟨i, hi⟩ := h (.obj 0) (.int 1) (by simp)
    simp at hi
  refine ⟨⟨_, by decide, h⟩, ⟨[(.obj 0, .int 1)], by decide, h, ?_⟩⟩
  intro h
  obtain ⟨i, hi⟩ := h (.obj 0) (.int 1) (by simp)
  simp at hi

/-! ## C21: update like dict.update -/

/-- What a mapping holds for `k` after plain `dict.update` with `ps`: the last pair for
`k` wins, other keys keep their value. -/
def AfterUpdate (d ps d' : Dict) : Prop :=
  ∀ k, dget d' k = match dget ps.reverse k with
    | some v => some v
    | none => dget d k

theorem dupdate_after (d ps : Dict) : AfterUpdate d ps (dupdate d ps) := by
  induction ps generalizing d with
  | nil => intro k; simp [dupdate, dget]
  | cons p ps ih =>
    intro k
    obtain ⟨k', v⟩ := p
    have := ih (dset d k' v) k
    show dget (dupdate (dset d k' v) ps) k = _
    rw [this, List.reverse_cons, dget_append]
    cases dget ps.reverse k with
    | some w => simp
    | none =>
      simp only [dget, dget_dset]
      by_cases h : k = k'
      · simp [h]
      · simp [h, Ne.symm h]

theorem pyUpdateItems_pairs (d : Dict) (ps : Dict) :
    pyUpdateItems d (ps.map fun p => .seq [p.1, p.2]) = (dupdate d ps, none) := by
  induction ps generalizing d with
  | nil => rfl
  | cons p ps ih => exact ih (dset d p.1 p.2)

theorem checkItems_pairs (ps : Dict) (h : ps.all (·.1.isInt) = true) :
    checkItems (ps.map fun p => .seq [p.1, p.2]) = .left [] := by
  induction ps with
  | nil => rfl
  | cons p ps ih =>
    simp only [List.all_cons, Bool.and_eq_true] at h
    simp [checkItems, h.1, ih h.2]

theorem convDict_ok (conv : Conv) (ps : Dict) (f : Obj → Arr) (h : ∀ p ∈ ps, conv p.2 = some (f p.2)) :
    convDict conv ps = .ok (ps.map fun p => (p.1, .arr (f p.2))) := by
  induction ps with
  | nil => rfl
  | cons p ps ih =>
    obtain ⟨k, v⟩ := p
    have h1 := h (k, v) (by simp)
    simp only at h1
    simp [convDict, h1, ih (fun q hq => h q (by simp [hq]))]

theorem convItems_ok (conv : Conv) (ps : Dict) (f : Obj → Arr)
    (h : ∀ p ∈ ps, conv p.2 = some (f p.2)) :
    convItems conv (ps.map fun p => .seq [p.1, p.2]) =
      .ok ((ps.map fun p => (p.1, Obj.arr (f p.2))).map fun p => .seq [p.1, p.2]) := by
  induction ps with
  | nil => rfl
  | cons p ps ih =>
    obtain ⟨k, v⟩ := p
    have h1 := h (k, v) (by simp)
    simp only at h1
    have h2 := ih (fun q hq => h q (by simp [hq]))
    simp only [List.map_map] at h2
    simp [convItems, h1, h2]

/-- The ways to pass pairs: as a dict, as a list of 2-sequences, as a one-shot iterator
of 2-sequences. -/
inductive Passes : Dict → Arg → Prop where
  | dict (ps) : Passes ps (.dict ps)
  | list (ps) : Passes ps (.list (ps.map fun p => .seq [p.1, p.2]))
  | oneshot (ps) : Passes ps (.oneshot (ps.map fun p => .seq [p.1, p.2]))

/-- C21 for NpDict: all three ways; values are stored as their arrays. -/
theorem C21_npdict_update (conv : Conv) (f : Obj → Arr) (d ps : Dict) (arg : Arg)
    (hp : Passes ps arg) (hint : ∀ p ∈ ps, p.1.isInt = true)
    (hconv : ∀ p ∈ ps, conv p.2 = some (f p.2)) :
    ∃ d', npUpdate conv d arg [] = (d', none) ∧
      AfterUpdate d (ps.map fun p => (p.1, .arr (f p.2))) d' := by
  have hall : (ps.map fun p => (p.1, Obj.arr (f p.2))).all (·.1.isInt) = true := by
    rw [List.all_eq_true]
    intro p hp
    simp only [List.mem_map] at hp
    obtain ⟨q, hq, rfl⟩ := hp
    exact hint q hq
  refine ⟨dupdate d (ps.map fun p => (p.1, .arr (f p.2))), ?_, dupdate_after _ _⟩
  have hl : intKeyUpdate d
      (.list ((ps.map fun p => (p.1, Obj.arr (f p.2))).map fun p => .seq [p.1, p.2])) [] =
      (dupdate d (ps.map fun p => (p.1, .arr (f p.2))), none) := by
    simp only [intKeyUpdate]
    rw [checkItems_pairs _ hall]
    simp only [finishUpdate, ne_eq, not_true_eq_false, if_false, pyUpdate]
    exact pyUpdateItems_pairs _ _
  cases hp with
  | dict =>
    unfold npUpdate
    rw [show convArg conv (.dict ps) = .ok (.dict (ps.map fun p => (p.1, .arr (f p.2)))) by
      simp [convArg, convDict_ok conv ps f hconv]]
    simp only [convKw, intKeyUpdate]
    rw [if_pos hall]
    simp [finishUpdate, pyUpdate]
  | list =>
    simp only [npUpdate, convArg, convItems_ok conv ps f hconv, convKw]
    exact hl
  | oneshot =>
    simp only [npUpdate, convArg, convItems_ok conv ps f hconv, convKw]
    exact hl

/-- C21 for IntKeyDict: dicts and re-iterable collections (missing: one-shot
iterators, see the counterexample). -/
theorem C21_intkeydict_update_partial (d ps : Dict) (arg : Arg) (hp : Passes ps arg)
    (hre : ∀ items, arg ≠ .oneshot items) (hint : ∀ p ∈ ps, p.1.isInt = true) :
    ∃ d', intKeyUpdate d arg [] = (d', none) ∧ AfterUpdate d ps d' := by
  have hall : ps.all (·.1.isInt) = true := by rw [List.all_eq_true]; exact hint
  refine ⟨dupdate d ps, ?_, dupdate_after _ _⟩
  cases hp with
  | dict =>
    simp only [intKeyUpdate]
    rw [if_pos hall]
    simp [finishUpdate, pyUpdate]
  | list =>
    simp only [intKeyUpdate]
    rw [checkItems_pairs _ hall]
    simp only [finishUpdate, ne_eq, not_true_eq_false, if_false, pyUpdate]
    exact pyUpdateItems_pairs _ _
  | oneshot => exact absurd rfl (hre _)

example : Passes [(.int 1, .obj 7)] (.list [.seq [.int 1, .obj 7]]) := Passes.list _

/-- C21 is false for IntKeyDict (`names`) and one-shot iterators: the check consumes
the iterator, the update then sees nothing, and no exception tells. -/
theorem C21_counterexample :
    ∃ (d ps : Dict) (arg : Arg), Passes ps arg ∧ (∀ p ∈ ps, p.1.isInt = true) ∧
      ∃ d', intKeyUpdate d arg [] = (d', none) ∧ ¬ AfterUpdate d ps d' := by
  refine ⟨[], [(.int 0, .obj 7)], _, Passes.oneshot _, by decide, [], by decide, ?_⟩
  intro h
  have := h (.int 0)
  revert this
  decide

/-- In fact an iterator of int-keyed pairs never has any effect on an IntKeyDict. -/
theorem C21_oneshot_is_lost (d ps : Dict) (hint : ∀ p ∈ ps, p.1.isInt = true) :
    intKeyUpdate d (.oneshot (ps.map fun p => .seq [p.1, p.2])) [] = (d, none) := by
  have hall : ps.all (·.1.isInt) = true := by rw [List.all_eq_true]; exact hint
  simp only [intKeyUpdate]
  rw [checkItems_pairs _ hall]
  simp [finishUpdate, pyUpdate, pyUpdateItems]

/-- C21: exactly which updates of an IntKeyDict are those of a dict: all but those from a one-shot iterator that would change anything. -/
theorem C21_exact (d ps : Dict) (arg : Arg) (hp : Passes ps arg) (hint : ∀ p ∈ ps, p.1.isInt = true) :
    (∃ d', intKeyUpdate d arg [] = (d', none) ∧ AfterUpdate d ps d') ↔ (∀ items, arg ≠ .oneshot items) ∨ AfterUpdate d ps d := by
  constructor
  · rintro ⟨d', h1, h2⟩
    cases hp with
    | dict => exact .inl fun _ h => by cases h
    | list => exact .inl fun _ h => by cases h
    | oneshot =>
      rw [C21_oneshot_is_lost d ps hint] at h1
      cases h1
      exact .inr h2
  · intro h
    by_cases hre : ∀ items, arg ≠ .oneshot items
    · exact C21_intkeydict_update_partial d ps arg hp hre hint
    · replace h := h.resolve_left hre
      cases hp with
      | dict => exact absurd (fun _ h => by cases h) hre
      | list => exact absurd (fun _ h => by cases h) hre
      | oneshot => exact ⟨d, C21_oneshot_is_lost d ps hint, h⟩

/-! ## C22: a rejected update changes nothing -/

theorem checkItems_pairs_bad (ps : Dict) (h : ps.all (·.1.isInt) = false) :
    checkItems (ps.map fun p => .seq [p.1, p.2]) = .raises .typeError := by
  induction ps with
  | nil => simp at h
  | cons p ps ih =>
    simp only [List.all_cons, Bool.and_eq_false_iff] at h
    simp only [List.map_cons, checkItems, List.length_cons, List.length_nil, Nat.zero_add,
      Nat.reduceAdd, gt_iff_lt, Nat.lt_irrefl, if_false]
    cases hp : p.1.isInt with
    | false => simp
    | true =>
      simp only [if_true]
      rcases h with h | h
      · rw [hp] at h; simp at h
      · exact ih h

theorem convItems_bad (conv : Conv) (ps : Dict) (h : ∃ p ∈ ps, conv p.2 = none) :
    convItems conv (ps.map fun p => .seq [p.1, p.2]) = .error .valueError := by
  induction ps with
  | nil => obtain ⟨p, hp, _⟩ := h; simp at hp
  | cons q ps ih =>
    simp only [List.map_cons, convItems, List.getLast?_cons_cons, List.getLast?_singleton]
    cases hq : conv q.2 with
    | none => rfl
    | some a =>
      simp only
      obtain ⟨p, hp, hpn⟩ := h
      rcases List.mem_cons.1 hp with h1 | h1
      · rw [h1, hq] at hpn; simp at hpn
      · rw [ih ⟨p, h1, hpn⟩]

theorem convDict_bad (conv : Conv) (ps : Dict) (h : ∃ p ∈ ps, conv p.2 = none) :
    convDict conv ps = .error .valueError := by
  induction ps with
  | nil => obtain ⟨p, hp, _⟩ := h; simp at hp
  | cons q ps ih =>
    obtain ⟨k, v⟩ := q
    simp only [convDict]
    cases hq : conv v with
    | none => rfl
    | some a =>
      simp only
      obtain ⟨p, hp, hpn⟩ := h
      rcases List.mem_cons.1 hp with h1 | h1
      · rw [h1] at hpn; simp only at hpn; rw [hq] at hpn; simp at hpn
      · rw [ih ⟨p, h1, hpn⟩]

/-- C22 for IntKeyDict: a non-int key anywhere means TypeError and no change. -/
theorem C22_intkeydict_rejected (d ps : Dict) (arg : Arg) (kw : List Obj) (hp : Passes ps arg)
    (hbad : (∃ p ∈ ps, p.1.isInt = false) ∨ kw ≠ []) :
    intKeyUpdate d arg kw = (d, some .typeError) := by
  by_cases hall : ps.all (·.1.isInt) = true
  · have hkw : kw ≠ [] := by
      rcases hbad with ⟨p, hp, hpf⟩ | h
      · rw [List.all_eq_true] at hall
        have := hall p hp; rw [hpf] at this; simp at this
      · exact h
    cases hp with
    | dict => simp only [intKeyUpdate, finishUpdate]; simp [hall, hkw]
    | list =>
      simp only [intKeyUpdate]
      rw [checkItems_pairs _ hall]; simp [finishUpdate, hkw]
    | oneshot =>
      simp only [intKeyUpdate]
      rw [checkItems_pairs _ hall]; simp [finishUpdate, hkw]
  · have hall' : ps.all (·.1.isInt) = false := by simpa using hall
    cases hp with
    | dict => simp only [intKeyUpdate]; rw [if_neg (by rw [hall']; simp)]
    | list => simp only [intKeyUpdate]; rw [checkItems_pairs_bad _ hall']
    | oneshot => simp only [intKeyUpdate]; rw [checkItems_pairs_bad _ hall']

/-- C22 for NpDict: a value that is not 1-d means ValueError, otherwise a non-int key
TypeError; in both cases no change. -/
theorem C22_npdict_rejected (conv : Conv) (d ps : Dict) (arg : Arg) (hp : Passes ps arg) :
    ((∃ p ∈ ps, conv p.2 = none) → npUpdate conv d arg [] = (d, some .valueError)) ∧
    (∀ f : Obj → Arr, (∀ p ∈ ps, conv p.2 = some (f p.2)) → (∃ p ∈ ps, p.1.isInt = false) →
      npUpdate conv d arg [] = (d, some .typeError)) ∧
    (∀ k v, conv v = none → npSetitem conv d k v = (d, some .valueError)) ∧
    (∀ k v a, conv v = some a → k.isInt = false → npSetitem conv d k v = (d, some .typeError)) := by
  refine ⟨?_, ?_, ?_, ?_⟩
  · intro h
    cases hp with
    | dict => simp [npUpdate, convArg, convDict_bad conv ps h]
    | list => simp [npUpdate, convArg, convItems_bad conv ps h]
    | oneshot => simp [npUpdate, convArg, convItems_bad conv ps h]
  · intro f hf hbad
    have hbad' : ∃ p ∈ (ps.map fun p => (p.1, Obj.arr (f p.2))), p.1.isInt = false := by
      obtain ⟨p, hp, hpf⟩ := hbad
      exact ⟨(p.1, .arr (f p.2)), List.mem_map.2 ⟨p, hp, rfl⟩, hpf⟩
    cases hp with
    | dict =>
      simp only [npUpdate, convArg, convDict_ok conv ps f hf, convKw]
      exact C22_intkeydict_rejected _ _ _ _ (Passes.dict _) (Or.inl hbad')
    | list =>
      simp only [npUpdate, convArg, convItems_ok conv ps f hf, convKw]
      exact C22_intkeydict_rejected _ _ _ _ (Passes.list _) (Or.inl hbad')
    | oneshot =>
      simp only [npUpdate, convArg, convItems_ok conv ps f hf, convKw]
      exact C22_intkeydict_rejected _ _ _ _ (Passes.list _) (Or.inl hbad')
  · intro k v h; simp [npSetitem, h]
  · intro k v a h hk; simp [npSetitem, h, intKeySetitem, hk]

example : intKeyUpdate [(.int 5, .obj 1)] (.list [.seq [.int 1, .obj 7], .seq [.obj 2, .obj 8]]) [] =
    ([(.int 5, .obj 1)], some .typeError) := by decide

end CP
