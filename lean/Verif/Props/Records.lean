import Verif.Lemmas.Records
/-!
# C87: records and what happens meanwhile

As one would have it, `pack.records()` gives the records of the pack as it is when called.  That is false:
the generator looks at the pack at the first `next`, and may run over the very arrays of the channels.
-/

namespace CP
open Spec

/-- An array that a generator runs over: out of reach (`priv`), or one of the channels `C`; no mask. -/
structure Col (priv : Prop) (C : Nat → Prop) (s : GHands) (l : Nat) : Prop where
  lt : l < s.hands.world.heap.nArrs
  mask : ¬ IsMask s.hands.world l
  hid : priv → ¬ Known s.hands l
  chan : ¬ priv → C l

theorem col_step {E : NpEnv} {S : Store} {ident : List Char → Bool} {s : GHands} {op : GOp} {priv : Prop}
    {C : Nat → Prop} {l : Nat} (hs : GOk s) (ho : SensibleG s op) (hc : Col priv C s l)
    (hq : priv ∨ (C l → ¬ MakesMask l op ∧ ¬ WritesG l s op)) :
    (s.step E S ident op).1.hands.world.heap.arrs l = s.hands.world.heap.arrs l ∧
      Col priv C (s.step E S ident op).1 l := by
  obtain ⟨-, hn, -⟩ := gOk_step (E := E) (S := S) (ident := ident) hs ho
  cases op with
  | hands op =>
    have hlt : l < (s.hands.step E S op).1.world.heap.nArrs := Nat.lt_of_lt_of_le hc.lt hn
    by_cases hp : priv
    · obtain ⟨a1, a2⟩ := unknown_step (E := E) (S := S) hs.hands ho.1 ho.2 hc.lt (hc.hid hp)
      exact ⟨a1, hlt, fun h => a2 (.inr (.inl h)), fun _ => a2, fun h => absurd hp h⟩
    · obtain ⟨b1, b2⟩ := (hq.resolve_left hp) (hc.chan hp)
      obtain ⟨a1, a2⟩ := unwritten_step (E := E) (S := S) hs.hands ho.1 hc.lt hc.mask b1 b2
      exact ⟨a1, hlt, a2, fun h => absurd h hp, hc.chan⟩
  | records i part nof fb => exact ⟨rfl, hc.lt, hc.mask, hc.hid, hc.chan⟩
  | next g =>
    unfold GHands.step
    dsimp only
    cases hg : s.gens[g]? with
    | none => exact ⟨rfl, hc⟩
    | some gen =>
      have k := next_grown ident hs.hands gen (fun i p n f e => hs.gens i p n f (e ▸ List.mem_of_getElem? hg))
      refine ⟨k.arrs l hc.lt, Nat.lt_of_lt_of_le hc.lt k.nArrs, hc.mask, fun hp hk => hc.hid hp ?_, hc.chan⟩
      rcases hk with ⟨d, hd, key, hk⟩ | h | h
      · left
        refine ⟨d, ?_, key, ?_⟩
        · have hd : d < (gen.next ident s.hands.world.packs s.hands.world.heap).1.nDicts := hd
          rw [k.nDicts] at hd; exact hd
        · have hk : (key, l) ∈ (gen.next ident s.hands.world.packs s.hands.world.heap).1.dicts d := hk
          rw [k.dicts] at hk; exact hk
      · exact .inr (.inl h)
      · exact .inr (.inr h)

/-- The generator has given the first `m` of the records `res` and will give the rest. -/
def Steady (res : Except Exc (List (List Char) × List (List Val))) (priv : Prop) (C : Nat → Prop) (g m : Nat)
    (s : GHands) : Prop :=
  (s.gens[g]? = some .done ∧ ∀ k, m ≤ k → expected res k = .stop) ∨
  ∃ ns ws, s.gens[g]? = some (.running ns ws m) ∧
    res = .ok (ns, zipCols (ws.map fun w => (w.read s.hands.world.heap).els)) ∧
    ∀ w ∈ ws, Col priv C s w.arr

theorem expected_after {ns : List (List Char)} {rows : List (List Val)} {m : Nat} (h : rows.length ≤ m) :
    ∀ k, m + 1 ≤ k → expected (.ok (ns, rows)) k = .stop := by
  intro k hk
  unfold expected
  dsimp only
  rw [List.getElem?_eq_none (by omega)]

theorem gens_other {E : NpEnv} {S : Store} {ident : List Char → Bool} {s : GHands} {op : GOp} {g : Nat} {gen : Gen}
    (h : s.gens[g]? = some gen) (hne : op ≠ .next g) : (s.step E S ident op).1.gens[g]? = some gen := by
  cases op with
  | hands op => exact h
  | records i part nof fb =>
    show (s.gens ++ _)[g]? = _
    rw [List.getElem?_append_left (List.getElem?_eq_some_iff.1 h).1]
    exact h
  | next g' =>
    have hne : g' ≠ g := fun e => hne (by rw [e])
    unfold GHands.step
    dsimp only
    split
    · exact h
    · dsimp only
      rw [List.getElem?_set_ne hne]
      exact h

theorem steady_other {E : NpEnv} {S : Store} {ident : List Char → Bool} {s : GHands} {op : GOp}
    {res : Except Exc (List (List Char) × List (List Val))} {priv : Prop} {C : Nat → Prop} {g m : Nat} (hs : GOk s)
    (ho : SensibleG s op) (hq : ∀ l, priv ∨ (C l → ¬ MakesMask l op ∧ ¬ WritesG l s op)) (hne : op ≠ .next g)
    (h : Steady res priv C g m s) : Steady res priv C g m (s.step E S ident op).1 := by
  rcases h with ⟨h1, h2⟩ | ⟨ns, ws, h1, h2, h3⟩
  · exact .inl ⟨gens_other h1 hne, h2⟩
  · refine .inr ⟨ns, ws, gens_other h1 hne, ?_, fun w hw => (col_step hs ho (h3 w hw) (hq _)).2⟩
    rw [h2]
    congr 3
    apply List.map_congr_left
    intro w hw
    unfold Win.read
    rw [(col_step (E := E) (S := S) (ident := ident) hs ho (h3 w hw) (hq _)).1]

theorem next_step {E : NpEnv} {S : Store} {ident : List Char → Bool} {s : GHands} {g : Nat} {gen : Gen}
    (h : s.gens[g]? = some gen) :
    s.step E S ident (.next g) =
      (⟨⟨{ s.hands.world with heap := (gen.next ident s.hands.world.packs s.hands.world.heap).1 }, s.hands.held⟩,
        s.gens.set g (gen.next ident s.hands.world.packs s.hands.world.heap).2.1⟩,
       (gen.next ident s.hands.world.packs s.hands.world.heap).2.2) := by
  unfold GHands.step
  dsimp only
  rw [h]

theorem set_get {s : GHands} {g : Nat} {gen gen' : Gen} (h : s.gens[g]? = some gen) :
    (s.gens.set g gen')[g]? = some gen' := by
  rw [List.getElem?_set_self (List.getElem?_eq_some_iff.1 h).1]

theorem steady_turn {E : NpEnv} {S : Store} {ident : List Char → Bool} {s : GHands}
    {res : Except Exc (List (List Char) × List (List Val))} {priv : Prop} {C : Nat → Prop} {g m : Nat}
    (h : Steady res priv C g m s) :
    (s.step E S ident (.next g)).2 = expected res m ∧ Steady res priv C g (m + 1) (s.step E S ident (.next g)).1 := by
  rcases h with ⟨h1, h2⟩ | ⟨ns, ws, h1, h2, h3⟩
  · rw [next_step h1]
    exact ⟨(h2 m (Nat.le_refl _)).symm, .inl ⟨set_get h1, fun k hk => h2 k (by omega)⟩⟩
  · rw [next_step h1]
    obtain ⟨t1, t2⟩ := turn_spec s.hands.world.heap ns ws m
    refine ⟨by rw [h2]; exact t1, ?_⟩
    rcases t2 with ⟨t2, t3⟩ | t2
    · refine .inl ⟨?_, ?_⟩
      · rw [← t2]; exact set_get h1
      · rw [h2]; exact expected_after t3
    · refine .inr ⟨ns, ws, ?_, h2, fun w hw => ⟨(h3 w hw).lt, (h3 w hw).mask, (h3 w hw).hid, (h3 w hw).chan⟩⟩
      rw [← t2]; exact set_get h1

/-- Until its first `next` a generator is as made. -/
theorem made_run {E : NpEnv} {S : Store} {ident : List Char → Bool} {P : GHands → GOp → Prop} {s t : GHands}
    {g : Nat} {gen : Gen} {outs : List Out} (hr : Run E S ident P g s outs t) (ho : outs = [])
    (h : s.gens[g]? = some gen) : t.gens[g]? = some gen := by
  induction hr with
  | here => exact h
  | other _ _ _ hne ih => exact gens_other (ih ho) hne
  | turn _ _ => simp at ho

theorem run_ok {E : NpEnv} {S : Store} {ident : List Char → Bool} {P : GHands → GOp → Prop} {s t : GHands}
    {g : Nat} {outs : List Out} (hr : Run E S ident P g s outs t) (hs : GOk s) :
    GOk t ∧ s.hands.world.n ≤ t.hands.world.n := by
  induction hr with
  | here => exact ⟨hs, Nat.le_refl _⟩
  | other _ ho _ _ ih =>
    obtain ⟨a, -, b⟩ := gOk_step (E := E) (S := S) (ident := ident) ih.1 ho
    exact ⟨a, Nat.le_trans ih.2 b⟩
  | turn _ _ ih =>
    obtain ⟨a, -, b⟩ := gOk_step (E := E) (S := S) (ident := ident) (op := .next g) ih.1 trivial
    exact ⟨a, Nat.le_trans ih.2 b⟩

/-- The first `next`. -/
theorem first_next {E : NpEnv} {S : Store} {ident : List Char → Bool} {t : GHands} {g i : Nat} {part : Option Int}
    {nof : Option String} {fb : Bool} (ht : GOk t) (hg : t.gens[g]? = some (.made i part nof fb)) :
    (t.step E S ident (.next g)).2 =
      expected ((World.view t.hands.world i).records ident part nof fb) 0 ∧
    Steady ((World.view t.hands.world i).records ident part nof fb) (Masking (World.view t.hands.world i) part nof)
      (fun l => ∃ key, channelObj t.hands.world i key = some l) g 1 (t.step E S ident (.next g)).1 := by
  have hi : i < t.hands.world.n := ht.gens i part nof fb (List.mem_of_getElem? hg)
  have hv : World.view t.hands.world i = (t.hands.world.packs i).now t.hands.world.heap := rfl
  have err : ∀ e, (Gen.made i part nof fb).next ident t.hands.world.packs t.hands.world.heap =
      (((Gen.made i part nof fb).next ident t.hands.world.packs t.hands.world.heap).1, .done, .raised e) →
      (World.view t.hands.world i).records ident part nof fb = .error e →
      (t.step E S ident (.next g)).2 = expected ((World.view t.hands.world i).records ident part nof fb) 0 ∧
      Steady ((World.view t.hands.world i).records ident part nof fb) (Masking (World.view t.hands.world i) part nof)
        (fun l => ∃ key, channelObj t.hands.world i key = some l) g 1 (t.step E S ident (.next g)).1 := by
    intro e h1 h2
    rw [next_step hg, h2, h1]
    refine ⟨rfl, .inl ⟨set_get hg, ?_⟩⟩
    intro k hk
    cases k with
    | zero => omega
    | succ k => rfl
  have hu : ∀ fs, (Gen.made i part nof fb).next ident t.hands.world.packs t.hands.world.heap = fs →
      fs = match ((t.hands.world.packs i).now t.hands.world.heap).recordNames fb with
        | none => (t.hands.world.heap, .done, .raised .valueError)
        | some ns =>
          if validFields ident ns then
            match callCols t.hands.world.heap (t.hands.world.packs i) part nof ns with
            | (h, .error e) => (h, .done, .raised e)
            | (h, .ok cols) => (h, turn h ns cols 0)
          else (t.hands.world.heap, .done, .raised .valueError) := by
    intro fs h
    rw [← h]
    unfold Gen.next
    dsimp only
    cases ((t.hands.world.packs i).now t.hands.world.heap).recordNames fb with
    | none => rfl
    | some ns =>
      dsimp only
      split
      · cases callCols t.hands.world.heap (t.hands.world.packs i) part nof ns with
        | mk h r => cases r <;> rfl
      · rfl
  have hu := hu _ rfl
  have hrec : (World.view t.hands.world i).records ident part nof fb =
      match ((t.hands.world.packs i).now t.hands.world.heap).recordNames fb with
      | none => .error .valueError
      | some ns =>
        if validFields ident ns then
          match callAll (fun n => ((t.hands.world.packs i).now t.hands.world.heap).call (.str n) part nof) ns with
          | .error e => .error e
          | .ok cols => .ok (ns, zipCols cols)
        else .error .valueError := by
    rw [hv]
    unfold Pack.records
    cases ((t.hands.world.packs i).now t.hands.world.heap).recordNames fb with
    | none => rfl
    | some ns =>
      dsimp only
      split
      · cases callAll (fun n => ((t.hands.world.packs i).now t.hands.world.heap).call (.str n) part nof) ns <;> rfl
      · rfl
  cases hn : ((t.hands.world.packs i).now t.hands.world.heap).recordNames fb with
  | none =>
    rw [hn] at hu hrec
    exact err .valueError (by rw [hu]) hrec
  | some ns =>
    rw [hn] at hu hrec
    dsimp only at hu hrec
    by_cases hval : validFields ident ns = true
    · rw [if_pos hval] at hu hrec
      obtain ⟨h', g1, h1 | ⟨ws, h1, h2, h3⟩⟩ :=
        callCols_spec (t.hands.world.packs i) part nof ns t.hands.world.heap (ht.hands.refs hi)
      · obtain ⟨e, h1, h2⟩ := h1
        rw [h2] at hu
        rw [h1] at hrec
        exact err e (by rw [hu]) hrec
      · rw [h2] at hu
        rw [h1] at hrec
        dsimp only at hu hrec
        have hst : t.step E S ident (.next g) =
            (⟨⟨{ t.hands.world with heap := h' }, t.hands.held⟩, t.gens.set g (turn h' ns ws 0).1⟩,
              (turn h' ns ws 0).2) := by
          rw [next_step hg, hu]
        obtain ⟨t1, t2⟩ := turn_spec h' ns ws 0
        rw [hst, hrec]
        refine ⟨t1, ?_⟩
        rcases t2 with ⟨t2, t3⟩ | t2
        · refine .inl ⟨?_, expected_after t3⟩
          rw [← t2]; exact set_get hg
        · refine .inr ⟨ns, ws, ?_, rfl, ?_⟩
          · rw [← t2]; exact set_get hg
          · intro w hw
            obtain ⟨p1, p2⟩ := h3 w hw
            have chan_lt : ∀ l, IsChannel t.hands.world l → l < t.hands.world.heap.nArrs := by
              rintro l ⟨d, hd, k, hk⟩
              exact (ht.hands.inv.dicts.arr d hd _ hk).1
            rcases p2 with ⟨q1, q2⟩ | ⟨q1, key, q2⟩
            · refine ⟨p1, ?_, ?_, fun h => absurd q1 h⟩
              · intro hm
                have := ht.hands.inv.dicts.masks _ hm
                omega
              · rintro - (⟨d, hd, k, hk⟩ | hm | ⟨r, hr, e⟩)
                · have hd : d < h'.nDicts := hd
                  have hk : (k, w.arr) ∈ h'.dicts d := hk
                  rw [g1.nDicts] at hd
                  rw [g1.dicts] at hk
                  have := chan_lt w.arr ⟨d, hd, k, hk⟩
                  omega
                · have := ht.hands.inv.dicts.masks _ hm
                  omega
                · have := ht.hands.held r hr
                  omega
            · refine ⟨p1, ?_, fun h => absurd h q1, fun _ => ⟨key, q2⟩⟩
              intro hm
              exact (ht.hands.inv.dicts.arr _ (ht.hands.inv.data i hi) _ (dget_mem q2)).2 hm
    · rw [if_neg hval] at hu hrec
      exact err .valueError (by rw [hu]) hrec

/-- C87: a generator gives the records of its pack as of its first `next`, whatever is done to packs
before, and after: for data as masked whatever is done, otherwise as long as client code does not
write to the arrays that were the channels then, nor make one of them a mask. -/
theorem C87_records (E : NpEnv) (S : Store) (ident : List Char → Bool) (s : GHands) (hs : GPrograms E S ident s)
    (i : Nat) (hi : i < s.hands.world.n) (part : Option Int) (nof : Option String) (fb : Bool)
    (t : GHands) (ht : Run E S ident (fun _ _ => True) s.gens.length (s.step E S ident (.records i part nof fb)).1 [] t)
    (outs : List Out) (u : GHands)
    (hu : Run E S ident (fun v op => Masking (World.view t.hands.world i) part nof ∨ Undisturbed t i v op)
      s.gens.length (t.step E S ident (.next s.gens.length)).1 outs u) :
    ∀ k o, ((t.step E S ident (.next s.gens.length)).2 :: outs)[k]? = some o →
      o = expected ((World.view t.hands.world i).records ident part nof fb) k := by
  have hs0 := (gOk_step (E := E) (S := S) (ident := ident) (op := .records i part nof fb) (gPrograms_ok hs) hi).1
  obtain ⟨tok, -⟩ := run_ok ht hs0
  have hg : t.gens[s.gens.length]? = some (.made i part nof fb) :=
    made_run ht rfl List.getElem?_concat_length
  obtain ⟨f1, f2⟩ := first_next (E := E) (S := S) (ident := ident) tok hg
  have tok1 := (gOk_step (E := E) (S := S) (ident := ident) (op := .next s.gens.length) tok trivial).1
  have main : GOk u ∧ Steady ((World.view t.hands.world i).records ident part nof fb)
      (Masking (World.view t.hands.world i) part nof) (fun l => ∃ key, channelObj t.hands.world i key = some l)
      s.gens.length (outs.length + 1) u ∧
      ∀ k o, outs[k]? = some o → o = expected ((World.view t.hands.world i).records ident part nof fb) (k + 1) := by
    have quiet : ∀ v op, Masking (World.view t.hands.world i) part nof ∨ Undisturbed t i v op → ∀ l,
        Masking (World.view t.hands.world i) part nof ∨
          ((∃ key, channelObj t.hands.world i key = some l) → ¬ MakesMask l op ∧ ¬ WritesG l v op) :=
      fun v op hp l => hp.imp id (fun h ⟨key, hk⟩ => h key l hk)
    induction hu with
    | here => exact ⟨tok1, f2, fun k o h => by simp at h⟩
    | other _ ho hp hne ih =>
      obtain ⟨i1, i2, i3⟩ := ih
      exact ⟨(gOk_step i1 ho).1, steady_other i1 ho (quiet _ _ hp) hne i2, i3⟩
    | turn _ _ ih =>
      obtain ⟨i1, i2, i3⟩ := ih
      obtain ⟨j1, j2⟩ := steady_turn (E := E) (S := S) (ident := ident) i2
      refine ⟨(gOk_step (op := .next s.gens.length) i1 trivial).1, by rw [List.length_append]; exact j2, ?_⟩
      intro k o hk
      rcases Nat.lt_trichotomy k (List.length _) with hlt | heq | hgt
      · rw [List.getElem?_append_left hlt] at hk; exact i3 k o hk
      · rw [heq, List.getElem?_concat_length] at hk
        rw [heq, ← j1]; exact (Option.some.inj hk).symm
      · rw [List.getElem?_eq_none (by rw [List.length_append, List.length_singleton]; omega)] at hk
        cases hk
  intro k o hk
  cases k with
  | zero => exact (Option.some.inj hk).symm.trans f1
  | succ k => exact main.2.2 k o hk

/-- C87: iterating changes no pack and no array in hand. -/
theorem C87_pure (E : NpEnv) (S : Store) (ident : List Char → Bool) (s : GHands) (hs : GPrograms E S ident s)
    (g : Nat) :
    (s.step E S ident (.next g)).1.hands.world.n = s.hands.world.n ∧
    (∀ j, j < s.hands.world.n →
      World.view (s.step E S ident (.next g)).1.hands.world j = World.view s.hands.world j) ∧
    ∀ k, Hands.holds (s.step E S ident (.next g)).1.hands k = Hands.holds s.hands k := by
  have ok := gPrograms_ok hs
  cases hg : s.gens[g]? with
  | none =>
    have : s.step E S ident (.next g) = (s, .raised .nameError) := by
      unfold GHands.step
      dsimp only
      rw [hg]
    rw [this]
    exact ⟨rfl, fun _ _ => rfl, fun _ => rfl⟩
  | some gen =>
    have k := next_grown ident ok.hands gen (fun i p n f e => ok.gens i p n f (e ▸ List.mem_of_getElem? hg))
    rw [next_step hg]
    refine ⟨rfl, fun j hj => now_grown (ok.hands.refs hj) k, fun m => ?_⟩
    unfold Hands.holds
    dsimp only
    cases hr : s.hands.held[m]? with
    | none => rfl
    | some r => exact congrArg some (read_grown (ok.hands.held r (List.mem_of_getElem? hr)) k)

/-- The statement of C87: records are those of the pack when `records` was called.  `all`: whatever is done
meanwhile; otherwise if the pack is the same at the first `next`, and from then on for data as
masked, or if client code writes to none of the channels and makes none of them a mask. -/
def RecordsFixed (all : Bool) : Prop :=
  ∀ (E : NpEnv) (S : Store) (ident : List Char → Bool) (s : GHands) (i : Nat) (part : Option Int)
    (nof : Option String) (fb : Bool) (t : GHands) (outs : List Out) (u : GHands),
    GPrograms E S ident s → i < s.hands.world.n →
    Run E S ident (fun _ _ => True) s.gens.length (s.step E S ident (.records i part nof fb)).1 [] t →
    (all = false → World.view t.hands.world i = World.view s.hands.world i) →
    Run E S ident (fun v op => all = false → Masking (World.view t.hands.world i) part nof ∨ Undisturbed t i v op)
      s.gens.length (t.step E S ident (.next s.gens.length)).1 outs u →
    ∀ k o, ((t.step E S ident (.next s.gens.length)).2 :: outs)[k]? = some o →
      o = expected ((World.view s.hands.world i).records ident part nof fb) k

theorem run_mono {E : NpEnv} {S : Store} {ident : List Char → Bool} {P Q : GHands → GOp → Prop} {s t : GHands}
    {g : Nat} {outs : List Out} (hr : Run E S ident P g s outs t) (h : ∀ s op, P s op → Q s op) :
    Run E S ident Q g s outs t := by
  induction hr with
  | here => exact .here
  | other _ ho hp hne ih => exact .other ih ho (h _ _ hp) hne
  | turn _ hp ih => exact .turn ih (h _ _ hp)

/-- C87 in terms of the call of `records`.  The full statement is `RecordsFixed true`; it is false
(`C87_counterexample`). -/
theorem C87_records_fixed_partial : RecordsFixed false := by
  intro E S ident s i part nof fb t outs u hs hi ht hv hu k o hk
  have := C87_records E S ident s hs i hi part nof fb t ht outs u (run_mono hu (fun _ _ h => h rfl)) k o hk
  rw [this, hv rfl]

/-! ### The counterexamples -/

/-- `p = ChannelPack({0: [1, 2, 3]}, {0: 'a'}); p.mask = np.array([True, False, True])` -/
def exRec : GHands :=
  let s0 : GHands := ⟨⟨World.empty, []⟩, []⟩
  let s1 := (s0.step exEnv exStore (fun _ => true)
    (.hands (.world (.make [(0, .new ⟨.i, [.int 1, .int 2, .int 3]⟩)] [(0, .str ['a'])])))).1
  (s1.step exEnv exStore (fun _ => true)
    (.hands (.world (.act 0 (.setMask (.new ⟨.b, [.bool true, .bool false, .bool true]⟩)))))).1

theorem exRec_programs : GPrograms exEnv exStore (fun _ => true) exRec := by
  refine .next (.next .start ⟨?_, ?_⟩) ⟨⟨by show 0 < 1; omega, trivial⟩, fun l h => h.elim⟩
  · intro p hp; simp at hp; rw [hp]; trivial
  · rintro l ⟨p, hp, h⟩
    simp at hp
    rw [hp] at h
    exact h.elim

/-- A step of the example. -/
def exStep (s : GHands) (op : GOp) : GHands := (s.step exEnv exStore (fun _ => true) op).1

/-- `g = p.records(); p.nof = 'filter'; next(g); next(g)` gives the record of 3 the second time, not that
of 2. -/
theorem C87_counterexample : ¬ RecordsFixed true := by
  intro h
  have := h exEnv exStore (fun _ => true) exRec 0 none none false
    (exStep (exStep exRec (.records 0 none none false)) (.hands (.world (.act 0 (.setNof (some "filter"))))))
    _ _ exRec_programs (by show 0 < 1; omega)
    (.other .here ⟨⟨by show 0 < 1; omega, trivial⟩, fun l h => h.elim⟩ trivial (fun h => nomatch h))
    (fun h => nomatch h) (.turn .here (fun h => nomatch h)) 1 (.record [['a']] [.int 3]) (by decide +kernel)
  revert this
  decide +kernel

/-- `g = p.records(); next(g); r = p(0); r[1] = 99; next(g)`: the record holds 99, though the generator has begun. -/
theorem C87_counterexample_write :
    let s1 := exStep exRec (.records 0 none none false)
    let s2 := exStep s1 (.next 0)
    let s3 := exStep (exStep s2 (.hands (.call 0 (.int 0) none none))) (.hands (.write 0 1 (.int 99)))
    (World.view exRec.hands.world 0).records (fun _ => true) none none false =
      .ok ([['a']], [[.int 1], [.int 2], [.int 3]]) ∧
    (s1.step exEnv exStore (fun _ => true) (.next 0)).2 = .record [['a']] [.int 1] ∧
    (s3.step exEnv exStore (fun _ => true) (.next 0)).2 = .record [['a']] [.int 99] :=
  ⟨by decide +kernel, by decide +kernel, by decide +kernel⟩

/-- Hypotheses can be met: after the first `next` data are appended, the mask, `nof` and names change, and a
second generator runs; the first one goes on with the records as they were. -/
example :
    let s1 := exStep exRec (.records 0 none none false)
    let s2 := exStep s1 (.next 0)
    let s3 := exStep (exStep (exStep s2 (.hands (.world (.act 0 (.append 0)))))
      (.hands (.world (.act 0 (.setNof (some "filter")))))) (.hands (.world (.act 0 (.setNames []))))
    let s4 := exStep (exStep s3 (.records 0 none none true)) (.next 1)
    ∃ outs u, Run exEnv exStore (fun _ => true) (fun v op => Undisturbed s1 0 v op) 0 s2 outs u ∧
      outs = [.record [['a']] [.int 2], .record [['a']] [.int 3], .stop, .stop] ∧
      (s4.step exEnv exStore (fun _ => true) (.next 1)).2 = .record [['c', 'h', '0']] [.int 2] := by
  refine ⟨_, _, .turn (.turn (.turn (.turn (.other (.other (.other (.other (.other .here
    (op := .hands (.world (.act 0 (.append 0)))) ⟨⟨by show 0 < 1; omega, by show 0 < 1; omega⟩, fun l h => h.elim⟩ ?_ (fun h => nomatch h))
    (op := .hands (.world (.act 0 (.setNof (some "filter"))))) ⟨⟨by show 0 < 1; omega, trivial⟩, fun l h => h.elim⟩ ?_ (fun h => nomatch h))
    (op := .hands (.world (.act 0 (.setNames [])))) ⟨⟨by show 0 < 1; omega, trivial⟩, fun l h => h.elim⟩ ?_ (fun h => nomatch h))
    (op := .records 0 none none true) (by show 0 < 1; omega) ?_ (fun h => nomatch h))
    (op := .next 1) trivial ?_ (by simp)) ?_) ?_) ?_) ?_, by decide +kernel, by decide +kernel⟩
  all_goals exact fun key l _ => ⟨id, id⟩

end CP
