import Verif.Model.ContextOpen
/-!
# C42: streams are left in order
-/

namespace CP

/-- An open stream that can be read where it is. -/
def Stream.Readable (s : Stream) : Prop :=
  s.closed = false ∧ s.tells = true ∧ s.bad s.pos = false

theorem sneak_readable {w : Streams} {i : Nat} (h : (w.at_ i).Readable) (closeit : Bool) :
    contextSneak w i closeit = (w, .ok { fo := i, closeit := closeit, bytehint := (w.at_ i).bytes }) := by
  obtain ⟨h1, h2, h3⟩ := h
  obtain ⟨at_, next⟩ := w
  unfold contextSneak Stream.tell Stream.sneak
  dsimp only at h1 h2 h3 ⊢
  rw [h1, h2, h3]
  simp only [Bool.false_eq_true, if_false, if_true, Streams.set, Stream.seek, Prod.mk.injEq, Streams.mk.injEq,
    and_true]
  funext j
  split
  · rename_i hj
    subst hj
    cases hs : at_ j
    rw [hs] at h1 h2
    simp_all
  · rfl

/-- C42 for a stream of the caller: the body finds the streams exactly as they were, and
they are left exactly as the body leaves them, whether it returns or raises. -/
theorem C42_callers_stream {α : Type} (disk : List Char → Except Exc Stream) (w : Streams) (i : Nat)
    (h : (w.at_ i).Readable) (body : Context → Streams → Streams × Except Exc α) :
    ∃ c, c.fo = i ∧ c.bytehint = (w.at_ i).bytes ∧ withContext disk (.stream i) body w = body c w := by
  refine ⟨{ fo := i, closeit := false, bytehint := (w.at_ i).bytes }, rfl, rfl, ?_⟩
  unfold withContext contextInit
  dsimp only
  rw [sneak_readable h]
  rfl

/-- C42 for a path: the body finds the stream at its start, other streams as they were; the
stream is closed after it, whether it returns or raises, and nothing else is changed.
(Missing: a stream that can not be read, see `C42_counterexample`.) -/
theorem C42_path_partial {α : Type} (disk : List Char → Except Exc Stream) (w : Streams)
    (p : List Char) (s : Stream) (hd : disk p = .ok s) (hs : s.Readable)
    (body : Context → Streams → Streams × Except Exc α) :
    ∃ c w', c.fo = w.next ∧ c.bytehint = s.bytes ∧ w'.at_ w.next = s ∧ w'.next = w.next + 1 ∧
      (∀ j, j ≠ w.next → w'.at_ j = w.at_ j) ∧
      (withContext disk (.path p) body w).2 = (body c w').2 ∧
      ((withContext disk (.path p) body w).1.at_ w.next).closed = true ∧
      ((withContext disk (.path p) body w).1.next = (body c w').1.next) ∧
      ∀ j, j ≠ w.next → (withContext disk (.path p) body w).1.at_ j = (body c w').1.at_ j := by
  let w' : Streams := { at_ := fun j => if j = w.next then s else w.at_ j, next := w.next + 1 }
  have hat : w'.at_ w.next = s := by simp [w']
  have hinit : contextInit disk w (.path p) =
      (w', .ok { fo := w.next, closeit := true, bytehint := s.bytes }) := by
    unfold contextInit Streams.open_
    dsimp only
    rw [hd]
    have := sneak_readable (w := w') (i := w.next) (by rw [hat]; exact hs) true
    rw [hat] at this
    exact this
  have hwith : withContext disk (.path p) body w =
      (contextExit (body { fo := w.next, closeit := true, bytehint := s.bytes } w').1
        { fo := w.next, closeit := true, bytehint := s.bytes },
       (body { fo := w.next, closeit := true, bytehint := s.bytes } w').2) := by
    unfold withContext
    rw [hinit]
  refine ⟨{ fo := w.next, closeit := true, bytehint := s.bytes }, w', rfl, rfl, hat, rfl, ?_, ?_, ?_, ?_, ?_⟩
  · intro j hj; simp [w', hj]
  · rw [hwith]
  · rw [hwith]; simp [contextExit, Streams.set]
  · rw [hwith]; simp [contextExit, Streams.set]
  · intro j hj; rw [hwith]; simp [contextExit, Streams.set, hj]

/-- C42: no stream that the caller has is ever closed by the manager: when it raises before
the body, all streams of the caller are as open or closed as they were, and at their places.
A path that can not be opened changes nothing. -/
theorem C42_failed_init {α : Type} (disk : List Char → Except Exc Stream) (w : Streams) (src : Source)
    (hsrc : ∀ i, src = .stream i → ¬ (w.at_ i).Readable)
    (hpath : ∀ p s, src = .path p → disk p = .ok s → ¬ s.Readable)
    (body : Context → Streams → Streams × Except Exc α) :
    (∃ e, (withContext disk src body w).2 = .error e) ∧
    (∀ j, j ≠ w.next ∨ (∃ i, src = .stream i) → (withContext disk src body w).1.at_ j = w.at_ j) := by
  have key : ∀ (w : Streams) (i : Nat) (b : Bool), ¬ (w.at_ i).Readable → ∃ e,
      contextSneak w i b = (w, .error e) := by
    intro w i b h
    unfold contextSneak Stream.tell Stream.sneak
    by_cases h1 : (w.at_ i).closed = true
    · exact ⟨.valueError, by simp [h1]⟩
    · by_cases h2 : (w.at_ i).tells = true
      · have h3 : (w.at_ i).bad (w.at_ i).pos = true := by
          cases h4 : (w.at_ i).bad (w.at_ i).pos with
          | true => rfl
          | false => exact absurd ⟨by simpa using h1, h2, h4⟩ h
        refine ⟨.unicodeError, ?_⟩
        simp only [h1, h2, h3, Bool.false_eq_true, if_false, if_true, Streams.set]
        have : (fun j => if j = i then w.at_ i else w.at_ j) = w.at_ := by
          funext j; split
          · rename_i hj; rw [hj]
          · rfl
        cases w
        exact congrArg (fun f => ((⟨f, _⟩ : Streams), _)) this
      · exact ⟨.osError, by simp [h1, h2]⟩
  cases src with
  | stream i =>
    obtain ⟨e, he⟩ := key w i false (hsrc i rfl)
    unfold withContext contextInit
    dsimp only
    rw [he]
    exact ⟨⟨e, rfl⟩, fun j _ => rfl⟩
  | path p =>
    cases hd : disk p with
    | error e =>
      unfold withContext contextInit Streams.open_
      dsimp only
      rw [hd]
      exact ⟨⟨e, rfl⟩, fun j _ => rfl⟩
    | ok s =>
      have hr := hpath p s rfl hd
      obtain ⟨e, he⟩ := key { at_ := fun j => if j = w.next then s else w.at_ j, next := w.next + 1 }
        w.next true (by simpa using hr)
      unfold withContext contextInit Streams.open_
      dsimp only
      rw [hd]
      dsimp only at he ⊢
      rw [he]
      refine ⟨⟨e, rfl⟩, ?_⟩
      rintro j (hj | ⟨i, hi⟩)
      · simp [hj]
      · cases hi

/-- C42: exactly which files that are opened are closed in the end, whatever the body does: those that can be read (and what is opened closed). -/
theorem C42_exact {α : Type} (disk : List Char → Except Exc Stream) (w : Streams) (p : List Char) (s : Stream) (hd : disk p = .ok s)
    (body : Context → Streams → Streams × Except Exc α) :
    ((withContext disk (.path p) body w).1.at_ w.next).closed = true ↔ s.Readable ∨ s.closed = true := by
  by_cases h : s.Readable
  · obtain ⟨c, w', _, _, _, _, _, _, h7, _⟩ := C42_path_partial disk w p s hd h body
    exact ⟨fun _ => .inl h, fun _ => h7⟩
  · have key : ((withContext disk (.path p) body w).1.at_ w.next).closed = s.closed := by
      unfold withContext contextInit Streams.open_
      dsimp only
      rw [hd]
      dsimp only
      unfold contextSneak Stream.tell Stream.sneak
      simp only [if_true]
      by_cases h1 : s.closed = true
      · simp [h1]
      · by_cases h2 : s.tells = true
        · have h3 : s.bad s.pos = true := by
            cases h4 : s.bad s.pos with
            | true => rfl
            | false => exact absurd ⟨by simpa using h1, h2, h4⟩ h
          simp [h1, h2, h3, Streams.set]
        · simp [h1, h2]
    rw [key]
    exact ⟨.inr, fun k => k.resolve_left h⟩

/-- A file that starts with bytes that can not be decoded is opened and not closed. -/
theorem C42_counterexample : ∃ (disk : List Char → Except Exc Stream) (w : Streams),
    ∀ (α : Type) (body : Context → Streams → Streams × Except Exc α),
      (withContext disk (.path ['f']) body w).2 = .error .unicodeError ∧
      (withContext disk (.path ['f']) body w).1.next = w.next + 1 ∧
      ((withContext disk (.path ['f']) body w).1.at_ w.next).closed = false :=
  ⟨fun _ => .ok { content := ['x'], bad := fun n => n = 0 }, ⟨fun _ => {}, 0⟩, fun _ _ => by
    simp [withContext, contextInit, contextSneak, Streams.open_, Stream.tell, Stream.sneak, Streams.set]⟩

example : Stream.Readable { content := ['a', 'b'], pos := 1 } := ⟨rfl, rfl, rfl⟩

example : ¬ Stream.Readable { content := ['a', 'b'], closed := true } := by simp [Stream.Readable]

end CP
