import Verif.Lemmas.XlsNames
import Verif.Model.NameCells
import Verif.Spec.NameCells
/-!
# Lemmas: names that stand for cells
-/

namespace CP
open CP.Spec
variable {ν : Type}

/-! ### Other names leave a name alone -/

section
variable {B : FmlaBook ν} {P : Evals ν → Prop}

/-- Evaluations keep `P`. -/
def KeepsEvals (P : Evals ν → Prop) (deep : Nat → Int → Evals ν → Except Exc (Evals ν)) : Prop :=
  ∀ j tgt ev ev', deep j tgt ev = .ok ev' → P ev → P ev'

theorem useName_keeps {deep : Nat → Int → Evals ν → Except Exc (Evals ν)} (hd : KeepsEvals P deep) {tgt : Int} {s s' : FmlaSt ν}
    (h : useName B deep tgt s = .ok s') (hp : P s.evals) : P s'.evals := by
  unfold useName at h
  dsimp only at h
  generalize (if tgt < 0 then tgt + (B.st.names.length : Int) else tgt).toNat = j at h
  split at h
  · cases h
  split at h
  · cases h
  rename_i ev he
  have hev : P ev := by
    unfold evaluated at he
    split at he
    · cases he
      exact hp
    · exact hd _ _ _ _ he hp
  split at h
  · cases h
  split at h
  · cases h
  · cases h
    exact hev

theorem map_evals {s s' : FmlaSt ν} {x : Except Exc (List (Opnd ν))} (h : (x.map fun st => { s with stack := st }) = .ok s') : s'.evals = s.evals := by
  cases x with
  | error _ => cases h
  | ok st => cases h; rfl

theorem classToken_keeps {deep : Nat → Int → Evals ν → Except Exc (Evals ν)} (hd : KeepsEvals P deep) {namex : Int} {data : Bytes} {pos opcode optype : Nat}
    {s s' : FmlaSt ν} (h : classToken B deep namex data pos opcode optype s = .ok s') (hp : P s.evals) : P s'.evals := by
  unfold classToken at h
  dsimp only at h
  by_cases c0 : opcode = 0
  · rw [if_pos c0] at h
    rw [map_evals h]
    exact hp
  rw [if_neg c0] at h
  by_cases c1 : opcode = 1
  · rw [if_pos c1] at h
    split at h
    · cases h
    · rw [map_evals h]
      exact hp
  rw [if_neg c1] at h
  by_cases c2 : opcode = 2
  · rw [if_pos c2] at h
    split at h
    · rw [map_evals h]
      exact hp
    · cases h
  rw [if_neg c2] at h
  by_cases c3 : opcode = 3
  · rw [if_pos c3] at h
    split at h
    · cases h
    · exact useName_keeps hd h hp
  rw [if_neg c3] at h
  by_cases c4 : opcode = 4
  · rw [if_pos c4] at h
    split at h
    · cases h
    · rw [map_evals h]
      exact hp
  rw [if_neg c4] at h
  by_cases c5 : opcode = 5
  · rw [if_pos c5] at h
    split at h
    · cases h
    · rw [map_evals h]
      exact hp
  rw [if_neg c5] at h
  by_cases c6 : opcode = 6
  · rw [if_pos c6] at h
    cases h
  rw [if_neg c6] at h
  by_cases c9 : opcode = 9
  · rw [if_pos c9] at h
    split at h
    · cases h
    · cases h
      exact hp
  rw [if_neg c9] at h
  by_cases c12 : opcode = 0xC ∨ opcode = 0xD
  · rw [if_pos c12] at h
    cases h
  rw [if_neg c12] at h
  by_cases c0x1A : opcode = 0x1A
  · rw [if_pos c0x1A] at h
    generalize cellAddr B.v8 data _ = x at h
    cases x with
    | error _ => cases h
    | ok c =>
      dsimp only at h
      split at h
      · cases h
      · cases h
        exact hp
  rw [if_neg c0x1A] at h
  by_cases c0x1B : opcode = 0x1B
  · rw [if_pos c0x1B] at h
    generalize cellRangeAddr B.v8 data _ = x at h
    cases x with
    | error _ => cases h
    | ok c =>
      dsimp only at h
      split at h
      · cases h
      · cases h
        exact hp
  rw [if_neg c0x1B] at h
  by_cases c0x19 : opcode = 0x19
  · rw [if_pos c0x19] at h
    split at h
    · cases h
    · exact useName_keeps hd h hp
    · cases h
      exact hp
  rw [if_neg c0x19] at h
  split at h
  · cases h
    exact hp
  · cases h
    exact hp

theorem fmlaToken_keeps {deep : Nat → Int → Evals ν → Except Exc (Evals ν)} (hd : KeepsEvals P deep) {namex : Int} {data : Bytes} {pos sz : Nat}
    {s s' : FmlaSt ν} (h : fmlaToken B deep namex data pos s = .ok (s', sz)) (hp : P s.evals) : P s'.evals := by
  unfold fmlaToken at h
  split at h
  · cases h
  dsimp only at h
  generalize ((if B.v8 then sztab4 else sztab3).getD _ (-2) : Int) = z at h
  split at h
  · cases h
  split at h
  · rename_i op _ _ _
    generalize plainToken B data pos (op.toNat % 32) z s.stack = x at h
    cases x with
    | error _ => cases h
    | ok p => cases h; exact hp
  · rename_i op _ _ _
    cases hx : classToken B deep namex data pos (op.toNat % 32) (op.toNat / 32 % 4) s with
    | error _ => rw [hx] at h; cases h
    | ok s1 =>
      rw [hx] at h
      cases h
      exact classToken_keeps hd hx hp

theorem fmlaLoop_keeps {deep : Nat → Int → Evals ν → Except Exc (Evals ν)} (hd : KeepsEvals P deep) {namex : Int} {data : Bytes} {len : Nat} :
    ∀ {n pos : Nat} {s s' : FmlaSt ν}, fmlaLoop B deep namex data len n pos s = .ok s' → P s.evals → P s'.evals
  | 0, _, _, _, h, hp => by cases h; exact hp
  | n + 1, pos, s, s', h, hp => by
    unfold fmlaLoop at h
    split at h
    · split at h
      · cases h
      · rename_i s1 sz he
        exact fmlaLoop_keeps hd h (fmlaToken_keeps hd he hp)
    · cases h
      exact hp

/-- What holds of the names evaluated so far holds on, if it is kept where one of the others is stored, and where the name
number `j0` is stored with its value `v`. -/
structure Stays (B : FmlaBook ν) (P : Evals ν → Prop) (j0 : Nat) (v : List (Opnd ν) × Bool) : Prop where
  other : ∀ ev j x, j ≠ j0 → P ev → P (ev.set j x)
  this : ∀ ev, P ev → P (ev.set j0 (some v))
  value : ∀ n namex ev ev', evalName B n j0 namex ev = .ok ev' → ev' = ev.set j0 (some v)

theorem evalName_keeps {j0 : Nat} {v : List (Opnd ν) × Bool} (hS : Stays B P j0 v) : ∀ n, KeepsEvals P (evalName B n)
  | 0, _, _, _, _, h, _ => by cases h
  | n + 1, j, namex, ev, ev', h, hp => by
    by_cases hj : j = j0
    · subst hj
      rw [hS.value _ _ _ _ h]
      exact hS.this _ hp
    unfold evalName at h
    split at h
    · cases h
    split at h
    · cases h
      exact hS.other _ _ _ hj hp
    split at h
    · cases h
    · rename_i s he
      cases h
      exact hS.other _ _ _ hj (fmlaLoop_keeps (evalName_keeps hS n) he hp)

theorem evalNames_keeps {j0 : Nat} {v : List (Opnd ν) × Bool} (hS : Stays B P j0 v) : ∀ {rest : List NameObj} {j : Nat} {ev ev' : Evals ν},
    evalNames B j rest ev = .ok ev' → P ev → P ev'
  | [], _, _, _, h, hp => by cases h; exact hp
  | o :: rest, j, ev, ev', h, hp => by
    unfold evalNames at h
    split at h
    · exact evalNames_keeps hS h hp
    split at h
    · exact evalNames_keeps hS h hp
    split at h
    · cases h
    · rename_i ev1 he
      exact evalNames_keeps hS h (evalName_keeps hS 11 _ _ _ _ he hp)

/-- A name that is not special has its value in the end. -/
theorem evalNames_value {j0 : Nat} {v : List (Opnd ν) × Bool} (hv : ∀ n namex ev ev', evalName B n j0 namex ev = .ok ev' → ev' = ev.set j0 (some v))
    {o : NameObj} (ho : ¬ (o.macroFlag ∨ o.binary)) : ∀ {rest : List NameObj} {j i : Nat} {ev ev' : Evals ν}, evalNames B j rest ev = .ok ev' →
      rest[i]? = some o → j + i = j0 → j0 < ev.length → (ev.getD j0 none = none ∨ ev.getD j0 none = some v) → ev'.getD j0 none = some v
  | [], _, _, _, _, _, hi, _, _, _ => by simp at hi
  | o' :: rest, j, i, ev, ev', h, hi, hj, hl, hp => by
    have later : Stays B (fun ev => j0 < ev.length ∧ ev.getD j0 none = some v) j0 v := by
      refine ⟨?_, ?_, hv⟩
      · intro ev j x hne hp
        refine ⟨by rw [List.length_set]; exact hp.1, ?_⟩
        rw [List.getD_eq_getElem?_getD, List.getElem?_set_ne hne, ← List.getD_eq_getElem?_getD]
        exact hp.2
      · intro ev hp
        refine ⟨by rw [List.length_set]; exact hp.1, ?_⟩
        rw [List.getD_eq_getElem?_getD, List.getElem?_set_self hp.1]
        rfl
    have sofar : Stays B (fun ev => j0 < ev.length ∧ (ev.getD j0 none = none ∨ ev.getD j0 none = some v)) j0 v := by
      refine ⟨?_, ?_, hv⟩
      · intro ev j x hne hp
        refine ⟨by rw [List.length_set]; exact hp.1, ?_⟩
        rw [List.getD_eq_getElem?_getD, List.getElem?_set_ne hne, ← List.getD_eq_getElem?_getD]
        exact hp.2
      · intro ev hp
        refine ⟨by rw [List.length_set]; exact hp.1, .inr ?_⟩
        rw [List.getD_eq_getElem?_getD, List.getElem?_set_self hp.1]
        rfl
    unfold evalNames at h
    cases i with
    | zero =>
      rw [List.getElem?_cons_zero] at hi
      cases hi
      rw [if_neg ho] at h
      have e : j = j0 := by omega
      subst e
      split at h
      · rename_i x hx
        rcases hp with hp | hp
        · rw [hp] at hx
          cases hx
        · exact (evalNames_keeps later h ⟨hl, hp⟩).2
      · split at h
        · cases h
        · rename_i ev1 he
          rw [hv _ _ _ _ he] at h
          refine (evalNames_keeps later h ⟨by rw [List.length_set]; exact hl, ?_⟩).2
          rw [List.getD_eq_getElem?_getD, List.getElem?_set_self hl]
          rfl
    | succ i =>
      rw [List.getElem?_cons_succ] at hi
      split at h
      · exact evalNames_value hv ho h hi (by omega) hl hp
      split at h
      · exact evalNames_value hv ho h hi (by omega) hl hp
      split at h
      · cases h
      · rename_i ev1 he
        obtain ⟨h1, h2⟩ := evalName_keeps sofar 11 _ _ _ _ he ⟨hl, hp⟩
        exact evalNames_value hv ho h hi (by omega) h1 h2

end

/-! ### The tokens of areas -/

section
variable {B : FmlaBook ν}

/-- Some tokens leave one operand on the stack and nothing else. -/
def Pushes (B : FmlaBook ν) (t : Bytes) (x : Opnd ν) : Prop :=
  ∀ deep namex data len b post (s : FmlaSt ν), data = b ++ (t ++ post) → (b ++ t).length ≤ len → ∃ m, m ≤ t.length ∧ ∀ n,
    fmlaLoop B deep namex data len (m + n) b.length s = fmlaLoop B deep namex data len n (b ++ t).length { s with stack := x :: s.stack }

/-- One token leads from the one stack to the other. -/
theorem loop_token {deep : Nat → Int → Evals ν → Except Exc (Evals ν)} {namex : Int} {data : Bytes} {len : Nat} {b t : Bytes} {s s' : FmlaSt ν} {sz : Nat}
    (h : fmlaToken B deep namex data b.length s = .ok (s', sz)) (hsz : sz = t.length) (ht : t ≠ []) (hl : (b ++ t).length ≤ len) (n : Nat) :
    fmlaLoop B deep namex data len (1 + n) b.length s = fmlaLoop B deep namex data len n (b ++ t).length s' := by
  have : 0 < t.length := List.length_pos_iff.2 ht
  rw [List.length_append] at hl
  rw [Nat.add_comm 1 n, fmlaLoop, if_pos (by omega), h, List.length_append, hsz]

theorem pushes_two {f : Opnd ν → Opnd ν → Except Exc (Opnd ν)} {op : UInt8} {x y : Bytes} {a b z : Opnd ν} (hop : 0xF ≤ op.toNat) (hop' : op.toNat ≤ 0x11)
    (hf : f = if op.toNat = 0xF then doIsect else if op.toNat = 0x10 then doList else doRange) (hx : Pushes B x a) (hy : Pushes B y b)
    (hz : f a b = .ok z) : Pushes B (x ++ (y ++ [op])) z := by
  intro deep namex data len pre post s hd hl
  obtain ⟨m1, h1, e1⟩ := hx deep namex data len pre (y ++ ([op] ++ post)) s (by rw [hd]; simp) (by simp at hl ⊢; omega)
  obtain ⟨m2, h2, e2⟩ := hy deep namex data len (pre ++ x) ([op] ++ post) { s with stack := a :: s.stack } (by rw [hd]; simp) (by simp at hl ⊢; omega)
  refine ⟨m1 + (m2 + 1), by simp; omega, fun n => ?_⟩
  rw [show m1 + (m2 + 1) + n = m1 + (m2 + (1 + n)) by omega, e1, e2]
  have htab : ∀ c, 0xF ≤ c → c ≤ 0x11 → sztab4.getD c (-2) = 1 ∧ sztab3.getD c (-2) = 1 := by
    intro c h h'
    have key : ∀ i, i < 3 → sztab4.getD (i + 0xF) (-2) = 1 ∧ sztab3.getD (i + 0xF) (-2) = 1 := by decide
    have := key (c - 0xF) (by omega)
    rwa [Nat.sub_add_cancel h] at this
  have htok : fmlaToken B deep namex data (pre ++ x ++ y).length { s with stack := b :: a :: s.stack } = .ok ({ s with stack := z :: s.stack }, 1) := by
    rw [token_plain (op := op) (c := op.toNat) (sz := 1) (rest := post) rfl (by omega)
      (by cases B.v8; exact (htab _ hop hop').2; exact (htab _ hop hop').1) (by decide) (by rw [hd]; simp)]
    have : plainToken B data (pre ++ x ++ y).length op.toNat 1 (b :: a :: s.stack) = .ok (z :: s.stack, 1) := by
      unfold plainToken
      dsimp only
      rw [if_neg (by omega), if_neg (by omega)]
      subst hf
      by_cases c2 : op.toNat = 0xF
      · rw [if_pos c2] at hz ⊢
        rw [onTwo, hz]
        rfl
      rw [if_neg c2] at hz ⊢
      by_cases c3 : op.toNat = 0x10
      · rw [if_pos c3] at hz ⊢
        rw [onTwo, hz]
        rfl
      rw [if_neg c3] at hz ⊢
      rw [if_pos (by omega), onTwo, hz]
      rfl
    rw [this]
    rfl
  rw [loop_token (t := [op]) htok rfl (by simp) (by simp at hl ⊢; omega)]
  simp

/-- A token without a value. -/
theorem noop_token {deep : Nat → Int → Evals ν → Except Exc (Evals ν)} {namex : Int} {data b t post : Bytes} {s : FmlaSt ν} (ht : Noop t)
    (hd : data = b ++ (t ++ post)) : fmlaToken B deep namex data b.length s = .ok (s, t.length) := by
  cases ht with
  | @attr sub x y h1 h2 =>
    rw [token_plain (op := 0x19) (c := 0x19) (sz := -1) (rest := [sub, x, y] ++ post) rfl (by decide) (by cases B.v8 <;> rfl) (by decide) hd]
    unfold plainToken
    simp only [Nat.reduceLeDiff, Nat.reduceEqDiff, ↓reduceIte]
    rw [slice_after (x := [sub, x, y]) (e := b.length + 4) hd rfl rfl]
    dsimp only
    rw [if_neg h1, if_neg h2]
    rfl
  | @choose n more hn h =>
    rw [token_plain (op := 0x19) (c := 0x19) (sz := -1) (rest := [4] ++ leBytes 2 n ++ more ++ post) rfl (by decide) (by cases B.v8 <;> rfl) (by decide)
      (by rw [hd]; simp)]
    unfold plainToken
    simp only [Nat.reduceLeDiff, Nat.reduceEqDiff, ↓reduceIte]
    have e : leBytes 2 n = [UInt8.ofNat (n % 256), UInt8.ofNat (n / 256 % 256)] := rfl
    have e2 : leNat [UInt8.ofNat (n % 256), UInt8.ofNat (n / 256 % 256)] = n := by rw [← e]; exact leNat_leBytes (by omega)
    rw [slice_after (data := data) (op := 0x19) (b := b) (x := [4, UInt8.ofNat (n % 256), UInt8.ofNat (n / 256 % 256)]) (rest := more ++ post)
      (e := b.length + 4) (by rw [hd, e]; simp) rfl rfl]
    dsimp only
    rw [if_pos rfl, e2]
    simp only [List.length_append, leBytes_length, h, List.length_cons, List.length_nil]
    rw [show 0 + 1 + 1 + 2 + (2 * n + 2) = n * 2 + 6 by omega]
    rfl
  | paren =>
    rw [token_plain (op := 0x15) (c := 0x15) (sz := 1) (rest := post) rfl (by decide) (by cases B.v8 <;> rfl) (by decide) hd]
    rfl
  | @mem op x y hT =>
    rw [token_class (sz := 3) (rest := [x, y] ++ post) hT (by cases B.v8 <;> rfl) hd]
    unfold classToken
    simp only [Nat.reduceEqDiff, ↓reduceIte]
    rw [slice_after (x := [x, y]) (e := b.length + 3) hd rfl rfl]
    rfl

theorem pushes_before {t x : Bytes} {a : Opnd ν} (ht : Noop t) (hx : Pushes B x a) : Pushes B (t ++ x) a := by
  intro deep namex data len pre post s hd hl
  obtain ⟨m, h1, e1⟩ := hx deep namex data len (pre ++ t) post s (by rw [hd]; simp) (by simp at hl ⊢; omega)
  have := List.length_pos_iff.2 (noop_ne ht)
  refine ⟨1 + m, by simp; omega, fun n => ?_⟩
  rw [Nat.add_assoc, loop_token (noop_token ht (b := pre) (post := x ++ post) (by rw [hd]; simp)) rfl (noop_ne ht) (by simp at hl ⊢; omega), e1,
    List.append_assoc]

theorem pushes_after {t x : Bytes} {a : Opnd ν} (hx : Pushes B x a) (ht : Noop t) : Pushes B (x ++ t) a := by
  intro deep namex data len pre post s hd hl
  obtain ⟨m, h1, e1⟩ := hx deep namex data len pre (t ++ post) s (by rw [hd]; simp) (by simp at hl ⊢; omega)
  have := List.length_pos_iff.2 (noop_ne ht)
  refine ⟨m + 1, by simp; omega, fun n => ?_⟩
  rw [Nat.add_assoc, e1, loop_token (noop_token ht (b := pre ++ x) (post := post) (by rw [hd]; simp)) rfl (noop_ne ht) (by simp at hl ⊢; omega),
    List.append_assoc]

end

end CP
