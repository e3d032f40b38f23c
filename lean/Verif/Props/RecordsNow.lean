import Verif.Props.Records

/-!
# C87: what records hold when the arrays change
-/

namespace CP
open Spec

/-- A record was given. -/
def GivesRecord (o : Out) : Prop := ∃ names row, o = .record names row

theorem turn_done {h : Heap} {ns : List (List Char)} {ws : List Win} {m : Nat} (hd : (turn h ns ws m).1 = .done) :
    (turn h ns ws m).2 = .stop := by
  revert hd
  unfold turn
  split
  · exact fun _ => rfl
  · exact fun _ => rfl
  · exact fun hd => nomatch hd

theorem next_done {ident : List Char → Bool} {ps : Nat → PObj} {h : Heap} {gen : Gen} (hd : (gen.next ident ps h).2.1 = .done) :
    ¬ GivesRecord (gen.next ident ps h).2.2 := by
  rintro ⟨ns, row, e⟩
  revert hd e
  unfold Gen.next
  split
  · exact fun _ e => nomatch e
  · intro hd e
    have := turn_done hd
    rw [e] at this
    cases this
  · split
    · exact fun _ e => nomatch e
    · split
      · split
        · exact fun _ e => nomatch e
        · intro hd e
          have := turn_done hd
          rw [e] at this
          cases this
      · exact fun _ e => nomatch e

/-- While a generator runs it is at the next row of its arrays; at its end it stays. -/
theorem running_run {E : NpEnv} {S : Store} {ident : List Char → Bool} {P : GHands → GOp → Prop} {g : Nat} {s v : GHands} {outs : List Out}
    {ns : List (List Char)} {ws : List Win} {m : Nat} (hr : Run E S ident P g s outs v) (h : s.gens[g]? = some (.running ns ws m)) :
    ((∀ o ∈ outs, GivesRecord o) ∧ v.gens[g]? = some (.running ns ws (m + outs.length))) ∨
      (¬ (∀ o ∈ outs, GivesRecord o) ∧ v.gens[g]? = some .done) := by
  induction hr with
  | here => exact .inl ⟨by simp, h⟩
  | other _ _ _ hne ih => exact ih.imp (fun a => ⟨a.1, gens_other a.2 hne⟩) fun a => ⟨a.1, gens_other a.2 hne⟩
  | @turn outs t _ _ ih =>
    rcases ih with ⟨h1, h2⟩ | ⟨h1, h2⟩
    · rw [next_step h2]
      obtain ⟨t1, t2⟩ := turn_spec t.hands.world.heap ns ws (m + outs.length)
      rcases t2 with ⟨t2, t3⟩ | t2
      · refine .inr ⟨fun hall => ?_, ?_⟩
        · exact next_done (gen := .running ns ws (m + outs.length)) (ident := ident) (ps := t.hands.world.packs) (h := t.hands.world.heap)
            (by exact t2) (hall _ (by simp))
        · dsimp only
          rw [set_get h2]
          exact congrArg some t2
      · refine .inl ⟨fun o ho => ?_, ?_⟩
        · rcases List.mem_append.1 ho with ho | ho
          · exact h1 o ho
          · rw [List.mem_singleton.1 ho]
            show GivesRecord (turn t.hands.world.heap ns ws (m + outs.length)).2
            revert t2
            unfold turn
            split
            · exact fun e => nomatch e
            · exact fun e => nomatch e
            · exact fun _ => ⟨_, _, rfl⟩
        · dsimp only
          rw [set_get h2, List.length_append]
          exact congrArg some t2
    · rw [next_step h2]
      exact .inr ⟨fun hall => h1 fun o ho => hall o (List.mem_append_left _ ho), set_get h2⟩

theorem done_run {E : NpEnv} {S : Store} {ident : List Char → Bool} {P : GHands → GOp → Prop} {g : Nat} {s v : GHands} {outs : List Out}
    (hr : Run E S ident P g s outs v) (h : s.gens[g]? = some .done) : v.gens[g]? = some .done := by
  induction hr with
  | here => exact h
  | other _ _ _ hne ih => exact gens_other ih hne
  | turn _ _ ih =>
    rw [next_step ih]
    exact set_get ih

/-- C87 whatever is done: at its first `next` a generator takes hold of arrays, those of the channels
unless data are masked, with the records of the pack in them; each `next` gives the next row of what
these arrays hold then, until they have none, and from then on StopIteration. -/
theorem C87_now (E : NpEnv) (S : Store) (ident : List Char → Bool) (s : GHands) (hs : GPrograms E S ident s)
    (i : Nat) (hi : i < s.hands.world.n) (part : Option Int) (nof : Option String) (fb : Bool)
    (t : GHands) (ht : Run E S ident (fun _ _ => True) s.gens.length (s.step E S ident (.records i part nof fb)).1 [] t) :
    ∃ (names : List (List Char)) (ws : List Win), (GivesRecord (t.step E S ident (.next s.gens.length)).2 →
        (World.view t.hands.world i).records ident part nof fb = .ok (names,
          zipCols (ws.map fun w : Win => (w.read (t.step E S ident (.next s.gens.length)).1.hands.world.heap).els)) ∧
        ∀ w ∈ ws, Masking (World.view t.hands.world i) part nof ∨ ∃ key, channelObj t.hands.world i key = some w.arr) ∧
      ∀ outs v, Run E S ident (fun _ _ => True) s.gens.length (t.step E S ident (.next s.gens.length)).1 outs v →
        ((∀ o ∈ (t.step E S ident (.next s.gens.length)).2 :: outs, GivesRecord o) → (v.step E S ident (.next s.gens.length)).2 =
          expected (.ok (names, zipCols (ws.map fun w : Win => (w.read v.hands.world.heap).els))) (outs.length + 1)) ∧
        (¬ (∀ o ∈ (t.step E S ident (.next s.gens.length)).2 :: outs, GivesRecord o) →
          (v.step E S ident (.next s.gens.length)).2 = .stop) := by
  have hs0 := (gOk_step (E := E) (S := S) (ident := ident) (op := .records i part nof fb) (gPrograms_ok hs) hi).1
  obtain ⟨tok, -⟩ := run_ok ht hs0
  have hg : t.gens[s.gens.length]? = some (.made i part nof fb) := made_run ht rfl List.getElem?_concat_length
  obtain ⟨-, f2⟩ := first_next (E := E) (S := S) (ident := ident) tok hg
  have stops : ∀ v : GHands, v.gens[s.gens.length]? = some .done → (v.step E S ident (.next s.gens.length)).2 = .stop := by
    intro v hv
    rw [next_step hv]
    rfl
  rcases f2 with ⟨h1, _⟩ | ⟨ns, ws, h1, h2, h3⟩
  · have hno : ¬ GivesRecord (t.step E S ident (.next s.gens.length)).2 := by
      rw [next_step hg] at h1 ⊢
      dsimp only at h1 ⊢
      rw [set_get hg] at h1
      exact next_done (Option.some.inj h1)
    refine ⟨[], [], fun h => absurd h hno, fun outs v hr => ⟨fun h => absurd (h _ (List.mem_cons_self ..)) hno, fun _ => ?_⟩⟩
    exact stops v (done_run hr h1)
  · have hyes : GivesRecord (t.step E S ident (.next s.gens.length)).2 := by
      rw [next_step hg] at h1 ⊢
      dsimp only at h1 ⊢
      rw [set_get hg] at h1
      have h1 := Option.some.inj h1
      revert h1
      unfold Gen.next
      dsimp only
      split
      · exact fun e => nomatch e
      · split
        · split
          · exact fun e => nomatch e
          · unfold turn
            split
            · exact fun e => nomatch e
            · exact fun e => nomatch e
            · exact fun _ => ⟨_, _, rfl⟩
        · exact fun e => nomatch e
    refine ⟨ns, ws, fun _ => ⟨h2, fun w hw => ?_⟩, fun outs v hr => ?_⟩
    · rcases Classical.em (Masking (World.view t.hands.world i) part nof) with hm | hm
      · exact .inl hm
      · exact .inr ((h3 w hw).chan hm)
    · rcases running_run hr h1 with ⟨a1, a2⟩ | ⟨a1, a2⟩
      · refine ⟨fun _ => ?_, fun hn => absurd (fun o ho => ?_) hn⟩
        · rw [next_step a2]
          obtain ⟨t1, _⟩ := turn_spec v.hands.world.heap ns ws (1 + outs.length)
          rw [Nat.add_comm outs.length 1]
          exact t1
        · rcases List.mem_cons.1 ho with rfl | ho
          · exact hyes
          · exact a1 o ho
      · exact ⟨fun hall => absurd (fun o ho => hall o (List.mem_cons_of_mem _ ho)) a1, fun _ => stops v a2⟩

/-- The hypotheses can be met: the program of `C87_counterexample_write`, where a record shows what was
written to the array of the channel after the first `next`. -/
example : ∃ (names : List (List Char)) (ws : List Win) (outs : List Out) (v : GHands), Run exEnv exStore (fun _ => true) (fun _ _ => True) 0
      (exStep (exStep exRec (.records 0 none none false)) (.next 0)) outs v ∧
    expected (.ok (names, zipCols (ws.map fun w : Win => (w.read v.hands.world.heap).els))) (outs.length + 1) =
      .record [['a']] [.int 99] := by
  obtain ⟨names, ws, _, h⟩ := C87_now exEnv exStore (fun _ => true) exRec exRec_programs 0 (by show 0 < 1; omega) none none false _ .here
  have hr : Run exEnv exStore (fun _ => true) (fun _ _ => True) 0 (exStep (exStep exRec (.records 0 none none false)) (.next 0)) []
      (exStep (exStep (exStep (exStep exRec (.records 0 none none false)) (.next 0)) (.hands (.call 0 (.int 0) none none)))
        (.hands (.write 0 1 (.int 99)))) :=
    .other (.other .here (op := .hands (.call 0 (.int 0) none none)) ⟨by show 0 < 1; omega, fun l h => h.elim⟩ trivial (fun h => nomatch h))
      (op := .hands (.write 0 1 (.int 99))) ⟨trivial, fun l h => h.elim⟩ trivial (fun h => nomatch h)
  refine ⟨names, ws, [], _, hr, ?_⟩
  rw [← (h [] _ hr).1 (by
    intro o ho
    rw [List.mem_singleton.1 ho]
    exact ⟨[['a']], [.int 1], C87_counterexample_write.2.1⟩)]
  exact C87_counterexample_write.2.2

end CP
