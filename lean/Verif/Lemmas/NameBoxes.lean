import Verif.Lemmas.NameArea
/-!
# Lemmas: the boxes of all results are of sheets that are there
-/

namespace CP
open CP.Spec
variable {ν : Type}

/-- A box of `n` sheets that begins in them. -/
def GoodBox (n : Nat) (x : Ref3) : Prop := ∃ b : Box6, x.coords = b.list ∧ b.s2 ≤ n ∧ 0 ≤ b.r1 ∧ 0 ≤ b.c1

/-- Fixed references are to such boxes. -/
def GoodOp (n : Nat) : Opnd ν → Prop
  | .opnd k (.refs l) => k = oRef → ∀ x ∈ l, GoodBox n x
  | _ => True

theorem goodOp_other {n : Nat} {k : Int} {v : OVal ν} (h : k ≠ oRef) : GoodOp n (.opnd k v) := by
  cases v with
  | refs l => exact fun c => absurd c h
  | _ => trivial

theorem goodOp_unk {n : Nat} : GoodOp n (unkItem : Opnd ν) := trivial

def GoodEvals (n : Nat) (ev : Evals ν) : Prop := ∀ j st err, ev.getD j none = some (st, err) → ∀ x ∈ st, GoodOp n x

theorem binop_good {N : NumEnv ν} {n op : Nat} {a b x : Opnd ν} (h : doBinop N op a b = .ok x) : GoodOp n x := by
  unfold doBinop at h
  dsimp only at h
  have hk : (if op ≤ 7 then oNum else if op = 8 then oStrg else oBool : Int) ≠ oRef := by
    split
    · decide
    · split <;> decide
  generalize (if op ≤ 7 then oNum else if op = 8 then oStrg else oBool : Int) = kind at h hk
  split at h
  · split at h
    · cases h; trivial
    split at h
    · cases h; trivial
    split at h
    · cases h
    split at h
    · cases h
    rename_i va' _
    generalize binFunc N op va' _ = y at h
    cases y with
    | error _ => cases h
    | ok v => cases h; exact goodOp_other hk
  · cases h

theorem unary_good {N : NumEnv ν} {n op : Nat} {a x : Opnd ν} (h : doUnary N op a = .ok x) : GoodOp n x := by
  unfold doUnary at h
  split at h
  · cases h; trivial
  · rename_i y
    generalize N.unary op y = z at h
    cases z with
    | error _ => cases h
    | ok v => cases h; trivial
  · split at h
    · cases h
      exact goodOp_other (by decide)
    · cases h
  · cases h

theorem boxFuncs_list (lo hi : Int → Int → Int) (a b : Box6) :
    boxFuncs lo hi a.list b.list = Box6.list ⟨lo a.s1 b.s1, hi a.s2 b.s2, lo a.r1 b.r1, hi a.r2 b.r2, lo a.c1 b.c1, hi a.c2 b.c2⟩ := rfl

theorem box_good {n : Nat} {lo hi : Int → Int → Int} (hlo : ∀ x y, 0 ≤ x → 0 ≤ y → 0 ≤ lo x y) (hhi : ∀ x y : Int, x ≤ n → y ≤ n → hi x y ≤ n)
    {va vb v : OVal ν} (ha : GoodOp n (.opnd oRef va)) (hb : GoodOp n (.opnd oRef vb)) (h : boxValue lo hi oRef va vb = .ok v) :
    GoodOp n (.opnd oRef v) := by
  unfold boxValue at h
  split at h
  · rename_i x y
    dsimp only at h
    rw [if_pos rfl] at h
    cases h
    obtain ⟨a, ea, a1, a2, a3⟩ := ha rfl x (by simp)
    obtain ⟨b, eb, b1, b2, b3⟩ := hb rfl y (by simp)
    intro _ z hz
    rw [List.mem_singleton] at hz
    subst hz
    rw [ea, eb, boxFuncs_list]
    exact ⟨_, rfl, hhi _ _ a1 b1, hlo _ _ a2 b2, hlo _ _ a3 b3⟩
  · cases h; trivial
  · cases h; trivial
  · cases h
  · cases h

theorem isect_good {n : Nat} {a b x : Opnd ν} (ha : GoodOp n a) (hb : GoodOp n b) (h : doIsect a b = .ok x) : GoodOp n x := by
  unfold doIsect at h
  split at h
  · rename_i ka va kb vb
    split at h
    · cases h; trivial
    split at h
    · cases h; trivial
    split at h
    · rename_i c
      obtain ⟨rfl, rfl⟩ := c
      cases hx : boxValue max min oRef va vb with
      | error _ => rw [hx] at h; cases h
      | ok v =>
        rw [hx] at h
        cases h
        exact box_good (fun x y _ _ => by omega) (fun x y _ _ => by omega) ha hb hx
    split at h
    · generalize boxValue max min oRel va vb = y at h
      cases y with
      | error _ => cases h
      | ok v => cases h; exact goodOp_other (by decide)
    · cases h; trivial
  · cases h

theorem range_good {n : Nat} {a b x : Opnd ν} (ha : GoodOp n a) (hb : GoodOp n b) (h : doRange a b = .ok x) : GoodOp n x := by
  unfold doRange at h
  split at h
  · rename_i ka va kb vb
    split at h
    · cases h; trivial
    split at h
    · rename_i c
      obtain ⟨rfl, rfl⟩ := c
      cases hx : boxValue min max oRef va vb with
      | error _ => rw [hx] at h; cases h
      | ok v =>
        rw [hx] at h
        cases h
        exact box_good (fun x y _ _ => by omega) (fun x y _ _ => by omega) ha hb hx
    split at h
    · generalize boxValue min max oRel va vb = y at h
      cases y with
      | error _ => cases h
      | ok v => cases h; exact goodOp_other (by decide)
    · cases h; trivial
  · cases h

theorem list_good {n : Nat} {a b x : Opnd ν} (ha : GoodOp n a) (hb : GoodOp n b) (h : doList a b = .ok x) : GoodOp n x := by
  unfold doList at h
  split at h
  · rename_i ka va kb vb
    split at h
    · cases h; trivial
    split at h
    · rename_i c
      dsimp only at h
      by_cases k : ka = oRel ∨ kb = oRel
      · rw [if_pos k] at h
        split at h
        · cases h; trivial
        · cases h; trivial
        · split at h
          · cases h; exact goodOp_other (by decide)
          · cases h
        · cases h
      · rw [if_neg k] at h
        have e1 : ka = oRef := by omega
        have e2 : kb = oRef := by omega
        subst e1 e2
        split at h
        · cases h; trivial
        · cases h; trivial
        · split at h
          · cases h
            intro _ z hz
            rcases List.mem_append.1 hz with hz | hz
            · exact ha rfl z hz
            · exact hb rfl z hz
          · cases h
        · cases h
    · cases h; trivial
  · cases h

theorem onTwo_good {n : Nat} {f : Opnd ν → Opnd ν → Except Exc (Opnd ν)} (hf : ∀ a b x, GoodOp n a → GoodOp n b → f a b = .ok x → GoodOp n x)
    {st st' : List (Opnd ν)} (hs : ∀ x ∈ st, GoodOp n x) (h : onTwo f st = .ok st') : ∀ x ∈ st', GoodOp n x := by
  unfold onTwo at h
  split at h
  · rename_i b a rest
    cases hx : f a b with
    | error _ => rw [hx] at h; cases h
    | ok x =>
      rw [hx] at h
      cases h
      intro y hy
      rcases List.mem_cons.1 hy with rfl | hy
      · exact hf _ _ _ (hs a (by simp)) (hs b (by simp)) hx
      · exact hs y (by simp [hy])
  · cases h

theorem onOne_good {n : Nat} {f : Opnd ν → Except Exc (Opnd ν)} (hf : ∀ a x, f a = .ok x → GoodOp n x)
    {st st' : List (Opnd ν)} (hs : ∀ x ∈ st, GoodOp n x) (h : onOne f st = .ok st') : ∀ x ∈ st', GoodOp n x := by
  unfold onOne at h
  split at h
  · rename_i a rest
    cases hx : f a with
    | error _ => rw [hx] at h; cases h
    | ok x =>
      rw [hx] at h
      cases h
      intro y hy
      rcases List.mem_cons.1 hy with rfl | hy
      · exact hf _ _ hx
      · exact hs y (by simp [hy])
  · cases h

theorem cons_good {n : Nat} {x : Opnd ν} {st : List (Opnd ν)} (hx : GoodOp n x) (hs : ∀ y ∈ st, GoodOp n y) : ∀ y ∈ x :: st, GoodOp n y := by
  intro y hy
  rcases List.mem_cons.1 hy with rfl | hy
  · exact hx
  · exact hs y hy

theorem plain_good {B : FmlaBook ν} {n : Nat} {data : Bytes} {pos opcode sz' : Nat} {sz : Int} {st st' : List (Opnd ν)} (hs : ∀ x ∈ st, GoodOp n x)
    (h : plainToken B data pos opcode sz st = .ok (st', sz')) : ∀ x ∈ st', GoodOp n x := by
  unfold plainToken at h
  dsimp only at h
  have sized : ∀ {x : Except Exc (List (Opnd ν))}, (match x with
      | .error e => .error e
      | .ok st => if sz ≤ 0 then .error .generic else .ok (st, sz.toNat) : Except Exc (List (Opnd ν) × Nat)) = .ok (st', sz') → x = .ok st' := by
    intro x h
    cases x with
    | error _ => cases h
    | ok st =>
      dsimp only at h
      split at h
      · cases h
      · cases h; rfl
  by_cases c : opcode ≤ 2
  · rw [if_pos c] at h; cases h
  rw [if_neg c] at h; clear c
  by_cases c : opcode ≤ 0xE
  · rw [if_pos c] at h
    exact onTwo_good (fun a b x _ _ hx => binop_good hx) hs (sized h)
  rw [if_neg c] at h; clear c
  by_cases c : opcode = 0xF
  · rw [if_pos c] at h
    exact onTwo_good (fun a b x ha hb hx => isect_good ha hb hx) hs (sized h)
  rw [if_neg c] at h; clear c
  by_cases c : opcode = 0x10
  · rw [if_pos c] at h
    exact onTwo_good (fun a b x ha hb hx => list_good ha hb hx) hs (sized h)
  rw [if_neg c] at h; clear c
  by_cases c : opcode = 0x11
  · rw [if_pos c] at h
    exact onTwo_good (fun a b x ha hb hx => range_good ha hb hx) hs (sized h)
  rw [if_neg c] at h; clear c
  by_cases c : opcode ≤ 0x14
  · rw [if_pos c] at h
    exact onOne_good (fun a x hx => unary_good hx) hs (sized h)
  rw [if_neg c] at h; clear c
  by_cases c : opcode = 0x15
  · rw [if_pos c] at h
    cases (sized (x := .ok _) h)
    exact hs
  rw [if_neg c] at h; clear c
  by_cases c : opcode = 0x16
  · rw [if_pos c] at h
    cases (sized (x := .ok _) h)
    exact cons_good trivial hs
  rw [if_neg c] at h; clear c
  by_cases c : opcode = 0x17
  · rw [if_pos c] at h
    generalize (if B.v8 = true then unpackUnicodeUpd data (pos + 1) 1 none
      else (unpackStringUpd B.text data (pos + 1) 1 none).map fun p => (p.1, (p.2 : Int))) = y at h
    cases y with
    | error _ => cases h
    | ok p =>
      dsimp only at h
      split at h
      · cases h
      · cases h
        exact cons_good trivial hs
  rw [if_neg c] at h; clear c
  by_cases c : opcode = 0x18
  · rw [if_pos c] at h; cases h
  rw [if_neg c] at h; clear c
  by_cases c : opcode = 0x19
  · rw [if_pos c] at h
    split at h
    · rename_i sub n0 n1 _
      by_cases c4 : sub = 4
      · rw [if_pos c4] at h
        cases h
        exact hs
      rw [if_neg c4] at h
      by_cases c5 : sub = 0x10
      · rw [if_pos c5] at h
        split at h
        · cases h
        · cases h
        · cases h
          exact cons_good trivial fun y hy => hs y (by simp [hy])
      · rw [if_neg c5] at h
        cases h
        exact hs
    · cases h
  rw [if_neg c] at h; clear c
  by_cases c : opcode ≤ 0x1B
  · rw [if_pos c] at h; cases h
  rw [if_neg c] at h; clear c
  by_cases c : opcode = 0x1C
  · rw [if_pos c] at h
    split at h
    · rename_i x _
      by_cases c4 : x.toNat ∈ errorTexts
      · rw [if_pos c4] at h
        cases (sized (x := .ok _) h)
        exact cons_good trivial hs
      · rw [if_neg c4] at h; cases h
    · cases h
  rw [if_neg c] at h; clear c
  by_cases c : opcode = 0x1D
  · rw [if_pos c] at h
    split at h
    · rename_i x _
      by_cases c4 : x.toNat ≤ 1
      · rw [if_pos c4] at h
        cases (sized (x := .ok _) h)
        exact cons_good trivial hs
      · rw [if_neg c4] at h; cases h
    · cases h
  rw [if_neg c] at h; clear c
  by_cases c : opcode = 0x1E
  · rw [if_pos c] at h
    generalize unpackNat 2 _ = y at h
    cases y with
    | error _ => cases h
    | ok k =>
      dsimp only at h
      cases (sized (x := .ok _) h)
      exact cons_good trivial hs
  rw [if_neg c] at h; clear c
  split at h
  · cases (sized (x := .ok _) h)
    exact cons_good trivial hs
  · cases h

theorem pyIndex_mem {α : Type} {l : List α} {i : Int} {x : α} (h : pyIndex l i = .ok x) : x ∈ l := by
  unfold pyIndex at h
  dsimp only at h
  generalize (if i < 0 then i + (l.length : Int) else i) = j at h
  split at h
  · cases h
  split at h
  · rename_i y hy
    cases h
    exact List.mem_of_getElem? hy
  · cases h

theorem chosen_good {n : Nat} {c x : Opnd ν} {zero : ν} (hc : GoodOp n c) (h : chosenItem c (.num zero) = .ok x) : GoodOp n x := by
  unfold chosenItem at h
  split at h
  · split at h
    · cases h; trivial
    · cases h; exact hc
  · cases h

theorem doIf_good {N : NumEnv ν} {n nargs : Nat} {st : List (Opnd ν)} {x : Opnd ν} (hs : ∀ x ∈ st, GoodOp n x) (h : doIf N nargs st = .ok x) : GoodOp n x := by
  unfold doIf at h
  split at h
  · cases h
  · cases h
  rename_i k v _
  by_cases c : ¬ (k = oNum ∨ k = oBool)
  · rw [if_pos c] at h; cases h; trivial
  rw [if_neg c] at h
  split at h
  · split at h
    · cases h; trivial
    · rename_i b _
      by_cases c2 : nargs = 2 ∧ b = false
      · rw [if_pos c2] at h; cases h; trivial
      rw [if_neg c2] at h
      split at h
      · cases h
      split at h
      · cases h
      · rename_i hc
        exact chosen_good (hs _ (pyIndex_mem hc)) h
  · cases h; trivial

theorem doChoose_good {N : NumEnv ν} {n nargs : Nat} {st : List (Opnd ν)} {x : Opnd ν} (hs : ∀ x ∈ st, GoodOp n x) (h : doChoose N nargs st = .ok x) :
    GoodOp n x := by
  unfold doChoose at h
  split at h
  · cases h
  · cases h
  rename_i k v _
  by_cases c : k ≠ oNum
  · rw [if_pos c] at h; cases h; trivial
  rw [if_neg c] at h
  split at h
  · split at h
    · cases h
    · cases h; trivial
    · split at h
      · cases h
      split at h
      · cases h
      · rename_i hc
        exact chosen_good (hs _ (pyIndex_mem hc)) h
  · cases h

theorem drop_good {n k : Nat} {st : List (Opnd ν)} (hs : ∀ x ∈ st, GoodOp n x) : ∀ x ∈ st.drop k, GoodOp n x :=
  fun x hx => hs x (List.mem_of_mem_drop hx)

theorem doFunc_good {n f : Nat} {st st' : List (Opnd ν)} (hs : ∀ x ∈ st, GoodOp n x) (h : doFunc f st = .ok st') : ∀ x ∈ st', GoodOp n x := by
  unfold doFunc at h
  split at h
  · cases h
    exact cons_good trivial hs
  split at h
  · split at h
    · cases h
      exact cons_good trivial (drop_good hs)
    · cases h
  · cases h

theorem doFuncVar_good {N : NumEnv ν} {n f nargs : Nat} {st st' : List (Opnd ν)} (hs : ∀ x ∈ st, GoodOp n x) (h : doFuncVar N f nargs st = .ok st') :
    ∀ x ∈ st', GoodOp n x := by
  have hrev : ∀ x ∈ st.reverse, GoodOp n x := fun x hx => hs x (List.mem_reverse.1 hx)
  unfold doFuncVar at h
  split at h
  · cases h
    exact cons_good trivial hs
  split at h
  · split at h
    · dsimp only at h
      generalize (if nargs = 0 then st.length else nargs) = k at h
      split at h
      · cases hx : (if f = 1 then doIf N nargs st.reverse else if f = 100 then doChoose N nargs st.reverse else .ok unkItem : Except Exc (Opnd ν)) with
        | error _ => rw [hx] at h; cases h
        | ok x =>
          rw [hx] at h
          cases h
          refine cons_good ?_ (drop_good hs)
          split at hx
          · exact doIf_good hrev hx
          split at hx
          · exact doChoose_good hrev hx
          · cases hx; trivial
      · cases h
    · cases h
  · cases h

/-! ### Tokens with a class -/

theorem localRange_good {n : Nat} {map : List Int} (hm : ∀ x ∈ map, x < n) {first last bad : Int} (hb : bad ≤ -1) :
    (localRange map first last bad).2 + 1 ≤ n := by
  unfold localRange
  split
  · show bad + 1 ≤ n
    omega
  dsimp only
  split
  · show (-3 : Int) + 1 ≤ n
    omega
  · rename_i c1 c2
    show map.getD last.toNat (-1) + 1 ≤ n
    have : map.getD last.toNat (-1) < n := by
      rw [List.getD_eq_getElem?_getD]
      cases hx : map[last.toNat]? with
      | none => show (-1 : Int) < n; omega
      | some x => exact hm x (List.mem_of_getElem? hx)
    omega

theorem refSheets_good {B : FmlaBook ν} {n : Nat} (hm : ∀ x ∈ B.map, x < n) {data : Bytes} {pos : Nat} {sh : Int × Int}
    (h : refSheets B data pos = .ok sh) : sh.2 + 1 ≤ n := by
  unfold refSheets at h
  split at h
  · split at h
    · cases h
    · rename_i refx _
      unfold externRange at h
      split at h
      · cases h; show (-101 : Int) + 1 ≤ n; omega
      split at h
      · split at h
        · cases h; show (-5 : Int) + 1 ≤ n; omega
        · cases h
      split at h
      · cases h; show (-4 : Int) + 1 ≤ n; omega
      split at h
      · cases h; show (-1 : Int) + 1 ≤ n; omega
      split at h
      · cases h; show (-2 : Int) + 1 ≤ n; omega
      · cases h
        exact localRange_good hm (by decide)
  · dsimp only at h
    split at h
    · cases h
      unfold externRange57
      split
      · show (-4 : Int) + 1 ≤ n; omega
      split
      · show (-2 : Int) + 1 ≤ n; omega
      · exact localRange_good hm (by decide)
    · cases h

theorem adjust_good (v8 : Bool) (r c : Nat) : (adjustCell v8 r c).2.2.1 = 0 → (adjustCell v8 r c).2.2.2 = 0 → 0 ≤ (adjustCell v8 r c).1 ∧ 0 ≤ (adjustCell v8 r c).2.1 := by
  unfold adjustCell
  cases v8 with
  | true =>
    rw [if_pos rfl]
    dsimp only
    intro h1 h2
    rw [if_neg (by omega), if_neg (by omega)]
    omega
  | false =>
    rw [if_neg (by decide)]
    dsimp only
    intro h1 h2
    rw [if_neg (by omega), if_neg (by omega)]
    omega

theorem refItem_good {n : Nat} {ty : Nat} {sh : Int × Int} {c1 c2 : Int × Int × Nat × Nat} (hs : sh.2 + 1 ≤ n)
    (hc : c1.2.2.1 = 0 → c1.2.2.2 = 0 → 0 ≤ c1.1 ∧ 0 ≤ c1.2.1) : GoodOp n (refItem ty sh c1 c2 : Opnd ν) := by
  unfold refItem
  dsimp only
  by_cases h : c1.2.2.1 ≠ 0 ∨ c1.2.2.2 ≠ 0 ∨ c2.2.2.1 ≠ 0 ∨ c2.2.2.2 ≠ 0
  · rw [if_pos h]
    exact goodOp_other (by decide)
  · rw [if_neg h, if_neg h]
    split
    · intro _ x hx
      rw [List.mem_singleton] at hx
      subst hx
      obtain ⟨a, b⟩ := hc (by omega) (by omega)
      exact ⟨⟨_, _, _, _, _, _⟩, rfl, hs, a, b⟩
    · trivial

theorem relItem_good {n : Nat} {ty : Nat} {c1 c2 : Int × Int × Nat × Nat} : GoodOp n (relItem ty c1 c2 : Opnd ν) := by
  unfold relItem
  split
  · exact goodOp_other (by decide)
  · trivial

section
variable {B : FmlaBook ν} {n : Nat}

/-- The operands and the values of names are good. -/
def GoodSt (n : Nat) (s : FmlaSt ν) : Prop := (∀ x ∈ s.stack, GoodOp n x) ∧ GoodEvals n s.evals

theorem useName_good {deep : Nat → Int → Evals ν → Except Exc (Evals ν)} (hd : KeepsEvals (GoodEvals n) deep) {tgt : Int} {s s' : FmlaSt ν}
    (h : useName B deep tgt s = .ok s') (hp : GoodSt n s) : GoodSt n s' := by
  unfold useName at h
  dsimp only at h
  generalize (if tgt < 0 then tgt + (B.st.names.length : Int) else tgt).toNat = j at h
  split at h
  · cases h
  split at h
  · cases h
  rename_i ev he
  have hev : GoodEvals n ev := by
    unfold evaluated at he
    split at he
    · cases he
      exact hp.2
    · exact hd _ _ _ _ he hp.2
  split at h
  · cases h
  rename_i x hx
  split at h
  · cases h
  · cases h
    refine ⟨cons_good ?_ hp.1, hev⟩
    unfold nameItem at hx
    split at hx
    · cases hx; trivial
    split at hx
    · cases hx
    · rename_i y _ hst
      cases hx
      cases hr : ev.getD j none with
      | none => rw [hr] at hst; cases hst
      | some p =>
        obtain ⟨st, err⟩ := p
        rw [hr] at hst
        exact hev j st err hr x (by rw [show st = [x] from hst]; simp)
    · cases hx

theorem map_good {s s' : FmlaSt ν} {x : Except Exc (List (Opnd ν))} (h : (x.map fun st => { s with stack := st }) = .ok s')
    (hx : ∀ st, x = .ok st → ∀ y ∈ st, GoodOp n y) (he : GoodEvals n s.evals) : GoodSt n s' := by
  cases x with
  | error _ => cases h
  | ok st => cases h; exact ⟨hx st rfl, he⟩

theorem class_good (hm : ∀ x ∈ B.map, x < n) {deep : Nat → Int → Evals ν → Except Exc (Evals ν)} (hd : KeepsEvals (GoodEvals n) deep) {namex : Int} {data : Bytes}
    {pos opcode optype : Nat} {s s' : FmlaSt ν} (h : classToken B deep namex data pos opcode optype s = .ok s') (hp : GoodSt n s) : GoodSt n s' := by
  unfold classToken at h
  dsimp only at h
  by_cases c : opcode = 0
  · rw [if_pos c] at h
    exact map_good h (fun st e => by cases e; exact cons_good trivial hp.1) hp.2
  rw [if_neg c] at h; clear c
  by_cases c : opcode = 1
  · rw [if_pos c] at h
    split at h
    · cases h
    · exact map_good h (fun st e => doFunc_good hp.1 e) hp.2
  rw [if_neg c] at h; clear c
  by_cases c : opcode = 2
  · rw [if_pos c] at h
    split at h
    · exact map_good h (fun st e => doFuncVar_good hp.1 e) hp.2
    · cases h
  rw [if_neg c] at h; clear c
  by_cases c : opcode = 3
  · rw [if_pos c] at h
    split at h
    · cases h
    · exact useName_good hd h hp
  rw [if_neg c] at h; clear c
  by_cases c : opcode = 4
  · rw [if_pos c] at h
    split at h
    · cases h
    · exact map_good h (fun st e => by cases e; exact cons_good relItem_good hp.1) hp.2
  rw [if_neg c] at h; clear c
  by_cases c : opcode = 5
  · rw [if_pos c] at h
    split at h
    · cases h
    · exact map_good h (fun st e => by cases e; exact cons_good relItem_good hp.1) hp.2
  rw [if_neg c] at h; clear c
  by_cases c : opcode = 6
  · rw [if_pos c] at h; cases h
  rw [if_neg c] at h; clear c
  by_cases c : opcode = 9
  · rw [if_pos c] at h
    split at h
    · cases h
    · cases h; exact hp
  rw [if_neg c] at h; clear c
  by_cases c : opcode = 0xC ∨ opcode = 0xD
  · rw [if_pos c] at h; cases h
  rw [if_neg c] at h; clear c
  by_cases c : opcode = 0x1A
  · rw [if_pos c] at h
    generalize (pos + if B.v8 = true then 3 else 15) = p at h
    cases hx : cellAddr B.v8 data p with
    | error _ => rw [hx] at h; cases h
    | ok q =>
      rw [hx] at h
      dsimp only at h
      split at h
      · cases h
      · rename_i sh hsh
        cases h
        refine ⟨cons_good (refItem_good (refSheets_good hm hsh) ?_) hp.1, hp.2⟩
        unfold cellAddr at hx
        dsimp only at hx
        generalize (if B.v8 = true then 4 else 3) = w at hx
        split at hx
        · cases hx
          exact adjust_good _ _ _
        · cases hx
  rw [if_neg c] at h; clear c
  by_cases c : opcode = 0x1B
  · rw [if_pos c] at h
    generalize (pos + if B.v8 = true then 3 else 15) = p at h
    cases hx : cellRangeAddr B.v8 data p with
    | error _ => rw [hx] at h; cases h
    | ok q =>
      rw [hx] at h
      dsimp only at h
      split at h
      · cases h
      · rename_i sh hsh
        cases h
        refine ⟨cons_good (refItem_good (refSheets_good hm hsh) ?_) hp.1, hp.2⟩
        unfold cellRangeAddr at hx
        dsimp only at hx
        generalize (if B.v8 = true then 2 else 1) = w at hx
        split at hx
        · cases hx
          exact adjust_good _ _ _
        · cases hx
  rw [if_neg c] at h; clear c
  by_cases c : opcode = 0x19
  · rw [if_pos c] at h
    split at h
    · cases h
    · exact useName_good hd h hp
    · cases h
      exact ⟨cons_good trivial hp.1, hp.2⟩
  rw [if_neg c] at h; clear c
  split at h
  · cases h
    exact ⟨cons_good trivial hp.1, hp.2⟩
  · cases h
    exact hp

theorem token_good (hm : ∀ x ∈ B.map, x < n) {deep : Nat → Int → Evals ν → Except Exc (Evals ν)} (hd : KeepsEvals (GoodEvals n) deep) {namex : Int} {data : Bytes} {pos sz : Nat}
    {s s' : FmlaSt ν} (h : fmlaToken B deep namex data pos s = .ok (s', sz)) (hp : GoodSt n s) : GoodSt n s' := by
  unfold fmlaToken at h
  split at h
  · cases h
  dsimp only at h
  generalize ((if B.v8 then sztab4 else sztab3).getD _ (-2) : Int) = z at h
  split at h
  · cases h
  split at h
  · rename_i op _ _ _
    cases hx : plainToken B data pos (op.toNat % 32) z s.stack with
    | error _ => rw [hx] at h; cases h
    | ok p =>
      rw [hx] at h
      cases h
      exact ⟨plain_good hp.1 hx, hp.2⟩
  · rename_i op _ _ _
    cases hx : classToken B deep namex data pos (op.toNat % 32) (op.toNat / 32 % 4) s with
    | error _ => rw [hx] at h; cases h
    | ok s1 =>
      rw [hx] at h
      cases h
      exact class_good hm hd hx hp

theorem loop_good (hm : ∀ x ∈ B.map, x < n) {deep : Nat → Int → Evals ν → Except Exc (Evals ν)} (hd : KeepsEvals (GoodEvals n) deep) {namex : Int} {data : Bytes} {len : Nat} :
    ∀ {k pos : Nat} {s s' : FmlaSt ν}, fmlaLoop B deep namex data len k pos s = .ok s' → GoodSt n s → GoodSt n s'
  | 0, _, _, _, h, hp => by cases h; exact hp
  | k + 1, pos, s, s', h, hp => by
    unfold fmlaLoop at h
    split at h
    · split at h
      · cases h
      · rename_i s1 sz he
        exact loop_good hm hd h (token_good hm hd he hp)
    · cases h
      exact hp

theorem set_good {ev : Evals ν} (h : GoodEvals n ev) {j : Nat} {st : List (Opnd ν)} {err : Bool} (hs : ∀ x ∈ st, GoodOp n x) :
    GoodEvals n (ev.set j (some (st, err))) := by
  intro i st' err' hi
  rw [List.getD_eq_getElem?_getD, List.getElem?_set] at hi
  split at hi
  · split at hi
    · cases hi; exact hs
    · cases hi
  · rw [← List.getD_eq_getElem?_getD] at hi
    exact h i st' err' hi

theorem evalName_good (hm : ∀ x ∈ B.map, x < n) : ∀ k, KeepsEvals (GoodEvals n) (evalName B k)
  | 0, _, _, _, _, h, _ => by cases h
  | k + 1, j, namex, ev, ev', h, hp => by
    unfold evalName at h
    split at h
    · cases h
    split at h
    · cases h
      exact set_good hp (by intro x hx; rw [List.mem_singleton] at hx; subst hx; trivial)
    split at h
    · cases h
    · rename_i s he
      cases h
      have := loop_good hm (evalName_good hm k) he ⟨by simp, hp⟩
      exact set_good this.2 this.1

theorem evalNames_good (hm : ∀ x ∈ B.map, x < n) : ∀ {rest : List NameObj} {j : Nat} {ev ev' : Evals ν},
    evalNames B j rest ev = .ok ev' → GoodEvals n ev → GoodEvals n ev'
  | [], _, _, _, h, hp => by cases h; exact hp
  | o :: rest, j, ev, ev', h, hp => by
    unfold evalNames at h
    split at h
    · exact evalNames_good hm h hp
    split at h
    · exact evalNames_good hm h hp
    split at h
    · cases h
    · rename_i ev1 he
      exact evalNames_good hm h (evalName_good hm 11 _ _ _ _ he hp)

end

theorem sheetMap_lt {all : List (List Char × Nat)} : ∀ k, ∀ x ∈ sheetMap k all, x < ((k + (all.filter fun p => p.2 = 0).length : Nat) : Int) := by
  induction all with
  | nil => intro k x hx; cases hx
  | cons p all ih =>
    intro k x hx
    unfold sheetMap at hx
    split at hx
    · rename_i ht
      rw [List.filter_cons, if_pos (by simpa using ht), List.length_cons]
      rcases List.mem_cons.1 hx with rfl | hx
      · omega
      · have := ih (k + 1) x hx
        omega
    · rename_i ht
      rw [List.filter_cons, if_neg (by simpa using ht)]
      rcases List.mem_cons.1 hx with rfl | hx
      · omega
      · exact ih k x hx

/-- The results of all names, whatever the records. -/
theorem result_good {N : NumEnv ν} {bv : Nat} {text : Bytes → Except Exc (List Char)} {s : NameSt} {all : List (List Char × Nat)} {evals : Evals ν}
    (h : namesEvaluated N bv text s all = .ok evals) {j : Nat} {x : Opnd ν} (hx : nameResult evals j = some x) :
    GoodOp (all.filter fun p => p.2 = 0).length x := by
  unfold namesEvaluated at h
  split at h
  · cases h
  dsimp only at h
  have hg := evalNames_good (n := (all.filter fun p => p.2 = 0).length) (fun x hx => by simpa using sheetMap_lt 0 x hx) h (fun j st err hj => by
    rw [List.getD_eq_getElem?_getD, List.getElem?_map] at hj
    cases hn : s.names[j]? with
    | none => rw [hn] at hj; cases hj
    | some _ => rw [hn] at hj; cases hj)
  unfold nameResult at hx
  split at hx
  · rename_i y err he
    cases hx
    exact hg j _ _ he x (by simp)
  · cases hx

end CP
