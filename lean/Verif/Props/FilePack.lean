import Verif.Props.PackSheet
import Verif.Props.FullFile
import Verif.Spec.FilePack
/-!
# C97: from a spread sheet file to the channels of a pack
-/

namespace CP
open CP.Spec

/-! ## The cells of files are typed -/

/-- What is put in the cells is of their types. -/
def OpsTyped (ops : List CellOp) : Prop := ∀ r c p, .put r c p ∈ ops → CellTyped p.typ p.value

theorem OpsTyped.append {a b : List CellOp} (ha : OpsTyped a) (hb : OpsTyped b) : OpsTyped (a ++ b) := fun r c p h =>
  (List.mem_append.1 h).elim (ha r c p) (hb r c p)

theorem opsTyped_nil : OpsTyped [] := fun _ _ _ h => by cases h

theorem opsTyped_cons {r c : Nat} {p : PutCell} {ops : List CellOp} (hp : CellTyped p.typ p.value) (h : OpsTyped ops) :
    OpsTyped (.put r c p :: ops) := by
  intro r' c' p' hm
  rcases List.mem_cons.1 hm with e | hm
  · cases e; exact hp
  · exact h _ _ _ hm

theorem opsTyped_one {r c : Nat} {p : PutCell} (hp : CellTyped p.typ p.value) : OpsTyped [.put r c p] := opsTyped_cons hp opsTyped_nil

theorem numeric_typed {t : Nat} {v : Val} (ht : t = 2 ∨ t = 3) (hv : Numeric v) : CellTyped t v := by
  rcases ht with rfl | rfl <;> exact hv

theorem double_numeric {n : Nat} {v : Val} (h : DoubleIs n v) : Numeric v := by
  obtain ⟨neg, e, m, -, -, -, rfl⟩ := h
  unfold ieee
  dsimp only
  split
  · split
    · exact .inr (.inr ⟨_, rfl⟩)
    · exact .inr (.inl rfl)
  · split
    · exact .inl ⟨_, rfl⟩
    · exact .inl ⟨_, rfl⟩

theorem rk_numeric {rnd : Rat → Rat} {n : Nat} {v : Val} (h : RkIs rnd n v) : Numeric v := by
  obtain ⟨hundred, int, k, w, -, -, h1, h2, h3, h4⟩ := h
  have hw : Numeric w := by
    cases int
    · exact double_numeric (h2 rfl)
    · exact .inl ⟨_, h1 rfl⟩
  cases hundred
  · rw [h3 rfl]; exact hw
  · rw [h4 rfl]
    rcases hw with ⟨q, rfl⟩ | rfl | ⟨b, rfl⟩
    · exact .inl ⟨_, rfl⟩
    · exact .inr (.inl rfl)
    · exact .inr (.inr ⟨_, rfl⟩)

theorem rkItems_typed {ctx : XlsCtx} (hx : ∀ i t, ctx.xfType i = some t → t = 2 ∨ t = 3) {row col : Nat} {b : List UInt8} {ops : List CellOp}
    (h : RkItems ctx row col b ops) : OpsTyped ops := by
  induction h with
  | nil => exact opsTyped_nil
  | cons _ _ hv ht _ ih => exact opsTyped_cons (numeric_typed (hx _ _ ht) (rk_numeric hv)) ih

theorem cellRecs_typed {whole : Bool} {ctx : XlsCtx} (hx : ∀ i t, ctx.xfType i = some t → t = 2 ∨ t = 3) {rs : List XRec} {ops : List CellOp}
    (h : CellRecs whole ctx rs ops) : OpsTyped ops := by
  cases h with
  | number _ _ hv ht => exact opsTyped_one (numeric_typed (hx _ _ ht) (double_numeric hv))
  | rk _ _ hv ht => exact opsTyped_one (numeric_typed (hx _ _ ht) (rk_numeric hv))
  | mulRk _ _ _ hi => exact rkItems_typed hx hi
  | fmlaNumber _ _ _ hv ht => exact opsTyped_one (numeric_typed (hx _ _ ht) (double_numeric hv))
  | _ => exact opsTyped_one ⟨_, rfl⟩

theorem sheetRecs_typed {whole : Bool} {ctx : XlsCtx} (hx : ∀ i t, ctx.xfType i = some t → t = 2 ∨ t = 3) {fresh : Bool} {rs : List XRec}
    {ops : List CellOp} (h : SheetRecs whole ctx fresh rs ops) : OpsTyped ops := by
  induction h with
  | eof => exact opsTyped_nil
  | cells hc _ ih => exact (cellRecs_typed hx hc).append ih
  | _ => assumption

theorem each_right {α β : Type} {P : α → β → Prop} {l : List α} {m : List β} (h : Each P l m) : ∀ b ∈ m, ∃ a, P a b := by
  induction h with
  | nil => intro b hb; cases hb
  | cons h _ ih =>
    intro b hb
    rcases List.mem_cons.1 hb with rfl | hb
    · exact ⟨_, h⟩
    · exact ih b hb

theorem xlsBook_typed {whole : Bool} {c : BookCtx} {stream : List UInt8} {mode : Nat} {sheets : List (List Char × List CellOp)}
    (h : XlsBookIs whole c stream mode sheets) : ∀ s ∈ sheets, OpsTyped s.2 := by
  obtain ⟨bof, rs, items, xfType, after, -, -, -, -, -, -, hx, -, he⟩ := h
  intro s hs
  obtain ⟨w, -, before, version, bof', rs', after', -, -, -, -, hr, -⟩ := each_right he s hs
  refine sheetRecs_typed (fun i t ht => ?_) hr
  rcases (hx i t).1 ht with ⟨k, -, ⟨-, h⟩ | ⟨-, h⟩⟩ | ⟨-, -, h⟩
  · exact .inr h
  · exact .inl h
  · exact .inl h

theorem formatType_two {code : List Char} {t : Nat} (h : FormatType code t) : t = 2 ∨ t = 3 := by
  rcases h with ⟨-, h⟩ | ⟨-, h⟩
  · exact .inr h
  · exact .inl h

theorem oldXf_two {s : OldInfo} {i t : Nat} (h : OldXfType s i t) : t = 2 ∨ t = 3 := by
  rcases h with ⟨k, code, -, -, h⟩ | ⟨-, -, h⟩
  · exact formatType_two h
  · exact .inl h

theorem oldHead_two {s : OldInfo} {row col t : Nat} {head : List UInt8} (h : OldHead s row col t head) : t = 2 ∨ t = 3 := by
  obtain ⟨-, -, attr, ⟨a, b, x, -, h⟩, -⟩ := h
  rcases h with ⟨-, -, h⟩ | ⟨-, -, i, -, h⟩ | ⟨-, -, ⟨code, -, h⟩ | ⟨-, h⟩⟩
  · exact oldXf_two h
  · exact oldXf_two h
  · exact formatType_two h
  · exact .inl h

theorem oldCells_typed {whole : Bool} {c : BookCtx} {s : OldInfo} {rs : List XRec} {ops : List CellOp} (h : OldCells whole c s rs ops) :
    OpsTyped ops := by
  cases h with
  | number hh _ hv => exact opsTyped_one (numeric_typed (oldHead_two hh) (double_numeric hv))
  | integer hh _ => exact opsTyped_one (numeric_typed (oldHead_two hh) (.inl ⟨_, rfl⟩))
  | fmlaNumber hh _ hv _ => exact opsTyped_one (numeric_typed (oldHead_two hh) (double_numeric hv))
  | _ => exact opsTyped_one ⟨_, rfl⟩

theorem oldRecs_typed {whole : Bool} {c : BookCtx} {v : OldVer} {s : OldInfo} {fresh : Bool} {rs : List XRec} {ops : List CellOp}
    {page : Option Nat} {mode : Nat} (h : OldRecs whole c v s fresh rs ops page mode) : OpsTyped ops := by
  induction h with
  | eof => exact opsTyped_nil
  | cells2 _ hc _ ih => exact (oldCells_typed hc).append ih
  | cells _ hx hc _ ih => exact (cellRecs_typed (fun i t ht => oldXf_two ((hx i t).1 ht)) hc).append ih
  | _ => assumption

theorem oldSheet_typed {whole : Bool} {c : BookCtx} {v : OldVer} {s : OldInfo} {bytes : List UInt8} {ops : List CellOp} {page : Option Nat}
    {mode : Nat} (h : OldSheetIs whole c v s bytes ops page mode) : OpsTyped ops := by
  obtain ⟨version, bof, rs, -, -, -, h, -⟩ := h
  exact oldRecs_typed h

theorem old4_typed {whole : Bool} {c : BookCtx} {s : Old4Info} {bytes : List UInt8} {mode : Nat} {sheets : List (List Char × List CellOp)}
    (h : Old4Recs whole c s bytes mode sheets) : ∀ s ∈ sheets, OpsTyped s.2 := by
  induction h with
  | eof => intro s hs; cases hs
  | sheet _ _ _ _ hsheet _ ih =>
    intro s hs
    rcases List.mem_cons.1 hs with rfl | hs
    · exact oldSheet_typed hsheet
    · exact ih s hs
  | _ => assumption

theorem oldFile_typed {whole : Bool} {c : BookCtx} {file : List UInt8} {mode : Nat} {sheets : List (List Char × List CellOp)}
    (h : OldFileIs whole c file mode sheets) : ∀ s ∈ sheets, OpsTyped s.2 := by
  rcases h with ⟨v, ops, page, h, rfl⟩ | ⟨version, bof, recs, -, -, h⟩
  · intro s hs
    cases List.mem_singleton.1 hs
    exact oldSheet_typed h
  · exact old4_typed h

theorem shows_typed {R : Reading} (hf : ∀ t v, R.float t = .ok v → Numeric v) (ht : ∀ i t, R.typeOf i = some t → t = 2 ∨ t = 3) {cell : Elem}
    {xf : Nat} {p : PutCell} (h : Shows R cell xf (some p)) : CellTyped p.typ p.value := by
  cases h with
  | number _ _ _ _ hv hty => exact numeric_typed (ht _ _ hty) (hf _ _ hv)
  | _ => exact ⟨_, rfl⟩

theorem cellsAre_typed {R : Reading} (hf : ∀ t v, R.float t = .ok v → Numeric v) (ht : ∀ i t, R.typeOf i = some t → t = 2 ∨ t = 3) {r n : Nat}
    {es : List Elem} {ops : List CellOp} (h : CellsAre R r n es ops) : OpsTyped ops := by
  induction h with
  | nil => exact opsTyped_nil
  | blank _ _ _ _ ih => exact ih
  | put _ _ hs _ ih => exact opsTyped_cons (shows_typed hf ht hs) ih

theorem rowsAre_typed {R : Reading} (hf : ∀ t v, R.float t = .ok v → Numeric v) (ht : ∀ i t, R.typeOf i = some t → t = 2 ∨ t = 3) {n : Nat}
    {es : List Elem} {ops : List CellOp} (h : RowsAre R n es ops) : OpsTyped ops := by
  induction h with
  | nil => exact opsTyped_nil
  | row _ _ _ hc _ ih => exact (cellsAre_typed hf ht hc).append ih

theorem mergesAre_typed {es : List Elem} {ops : List CellOp} (h : MergesAre es ops) : OpsTyped ops := by
  induction h with
  | nil => exact opsTyped_nil
  | cons _ _ _ _ _ _ ih =>
    intro r c p hm
    rcases List.mem_cons.1 hm with e | hm
    · cases e
    · exact ih _ _ _ hm

theorem otherParts_typed {es : List Elem} {ops : List CellOp} (h : OtherParts es ops) : OpsTyped ops := by
  induction h with
  | nil => exact opsTyped_nil
  | quiet _ _ ih => exact ih
  | dimension _ _ _ _ ih => exact ih
  | merges _ hm _ ih => exact (mergesAre_typed hm).append ih

theorem styles_two {E : XlEnv} {zf : Zip} {types : List Nat} (h : PartStyles E zf types) (i t : Nat) (hi : (styleTypes types)[i]? = some t) :
    t = 2 ∨ t = 3 := by
  have hm := List.mem_of_getElem? hi
  unfold styleTypes at hm
  split at hm
  · exact .inl (List.mem_singleton.1 hm)
  · rcases h with ⟨-, rfl⟩ | ⟨root, -, a, x, b, fs, after, -, -, -, -, -, -, he, -⟩
    · cases hm
    · obtain ⟨e, n, -, ⟨-, h⟩ | ⟨-, h⟩⟩ := each_right he t hm
      · exact .inr h
      · exact .inl h

theorem book_typed {E : XlEnv} (hf : ∀ t v, E.float t = .ok v → Numeric v) {zf : Zip} {mode : Nat} {sheets : List (List Char × List CellOp)}
    (h : BookIs E zf mode sheets) : ∀ s ∈ sheets, OpsTyped s.2 := by
  obtain ⟨-, relsRoot, rels, wb, targets, types, s1, s2, -, -, -, -, -, hst, -, -, he⟩ := h
  intro s hs
  obtain ⟨w, -, ⟨root, -, a, data, b, o1, cs, o2, -, -, -, h1, h2, h3, e⟩, -⟩ := each_right he s hs
  rw [e]
  exact ((otherParts_typed h1).append (rowsAre_typed hf (styles_two hst) h2)).append (otherParts_typed h3)

theorem xlFloat_numeric {dec : Char → Option Nat} {t : List Char} {v : Val} (h : xlFloat dec t = .ok v) : Numeric v := by
  unfold xlFloat at h
  split at h
  · cases h
  · rename_i w hw
    cases h
    exact float_numeric (h := .text) hw

/-- C97: what is in the cells of a file is of their types. -/
theorem C97_cells {whole : Bool} {E : XlEnv} {dec : Char → Option Nat} (hf : E.float = xlFloat dec) {zip : Bytes → Except Exc Zip}
    {rnd : Rat → Rat} {codec : List Char → List UInt8 → Option (List Char)} {funcs : Nat → Option (Nat × Nat)} {height : Nat} {file : Bytes}
    {mode : Nat} {sheets : List (List Char × List CellOp)} (h : FullFileIs whole E zip rnd codec funcs height file mode sheets) :
    ∀ s ∈ sheets, ∀ r c, CellTyped (cellOf s.2 r c).typ (cellOf s.2 r c).value := by
  have key : ∀ s ∈ sheets, OpsTyped s.2 := by
    rcases h with ⟨v8, country, ⟨-, zf, -, h⟩ | h | ⟨_, _, stream, _, _, _, _, h⟩⟩ | ⟨country, book, after, -, h⟩
    · exact book_typed (E := withNames E) (fun t v (ht : E.float t = .ok v) => xlFloat_numeric (hf ▸ ht)) h
    · exact xlsBook_typed h
    · exact xlsBook_typed h
    · exact oldFile_typed h
  intro s hs r c
  have hl : ∀ ops p, lastPut r c ops = some p → .put r c p ∈ ops := by
    intro ops
    induction ops with
    | nil => intro p hp; cases hp
    | cons op ops ih =>
      intro p hp
      unfold lastPut at hp
      split at hp
      · rename_i q hq
        cases hp
        exact List.mem_cons_of_mem _ (ih _ hq)
      · split at hp
        · split at hp
          · rename_i he
            cases hp
            rw [he.1, he.2]
            exact List.mem_cons_self ..
          · cases hp
        · cases hp
  unfold cellOf
  cases hp : lastPut r c s.2 with
  | none => exact rfl
  | some p => exact key s hs r c p (hl _ _ hp)

/-! ## Columns -/

theorem reads_kept {M : XlMul} {dm : Int} {cells : List PutCell} {ws : List Val} (hty : ∀ p ∈ cells, CellTyped p.typ p.value)
    (h1 : ∀ w ∈ ws, ∃ p ∈ cells, Reads M dm (cells.map (·.typ)) p.typ p.value w)
    (h2 : ∀ p ∈ cells, ∃ w ∈ ws, Reads M dm (cells.map (·.typ)) p.typ p.value w) : SheetColumn ws ↔ ColumnKept cells := by
  have hin : ∀ p ∈ cells, p.typ ∈ cells.map (·.typ) := fun p hp => List.mem_map.2 ⟨p, hp, rfl⟩
  have hcases : ∀ p ∈ cells, p.typ = 1 ∨ p.typ = 2 ∨ p.typ = 3 ∨ p.typ = 4 ∨ NoCell p.typ := by
    intro p hp
    have := hty p hp
    unfold NoCell
    generalize p.typ = t at this
    match t, this with
    | 0, _ => simp
    | 1, _ => simp
    | 2, _ => simp
    | 3, _ => simp
    | 4, _ => simp
    | 5, _ => simp
    | 6, _ => simp
  have htext : ∀ p ∈ cells, p.typ = 1 → ∃ s, p.value = .str s := by
    intro p hp h
    have := hty p hp
    rw [h] at this
    exact this
  have hnum : ∀ p ∈ cells, p.typ = 2 → Numeric p.value := by
    intro p hp h
    have := hty p hp
    rw [h] at this
    exact this
  by_cases hn : NumericCol (cells.map (·.typ))
  · have hno : ∀ p ∈ cells, p.typ ≠ 1 := by
      intro p hp h
      rcases hn _ (hin p hp) with h' | h' | h' | h' <;> rw [h] at h' <;> cases h'
    refine ⟨fun _ => .inl hno, fun _ => .inl fun w hw => ?_⟩
    obtain ⟨p, hp, hr⟩ := h1 w hw
    generalize hpt : p.typ = t at hr
    generalize hpv : p.value = v at hr
    cases hr with
    | number _ _ _ hm =>
      subst hpt hpv
      rcases hn _ (hin p hp) with h' | h'
      · exact .inl (hnum p hp h')
      · exact absurd h' hm
    | noNumber => exact .inl (.inr (.inl rfl))
    | text _ _ h => exact absurd hn h
    | noText _ _ h => exact absurd hn h
    | nothing _ _ h => exact absurd hn h
    | date _ _ _ _ h => exact absurd hn h
    | bool _ h => exact absurd hn h
    | other _ _ h => exact absurd hn h
  by_cases ht : TextCol (cells.map (·.typ))
  · have hall : ∀ p ∈ cells, p.typ = 1 ∨ NoCell p.typ := fun p hp => ht _ (hin p hp)
    have hw1 : ∀ p ∈ cells, ∀ w, Reads M dm (cells.map (·.typ)) p.typ p.value w → (p.typ = 1 ∧ w = p.value) ∨ (NoCell p.typ ∧ w = .str []) := by
      intro p hp w hr
      have hp' := hall p hp
      generalize p.typ = t at hr hp'
      generalize p.value = v at hr
      cases hr with
      | number _ _ h => exact absurd h hn
      | noNumber _ _ h => exact absurd h hn
      | text _ _ _ _ hm => exact .inl ⟨hp'.resolve_right hm, rfl⟩
      | noText _ _ _ _ hm => exact .inr ⟨hm, rfl⟩
      | nothing _ _ _ h => exact absurd ht h
      | date _ _ _ _ _ h => exact absurd ht h
      | bool _ _ h => exact absurd ht h
      | other _ _ _ h => exact absurd ht h
    have hsome : ∃ p ∈ cells, p.typ = 1 := by
      refine Classical.byContradiction fun h => hn fun t htm => .inr ?_
      obtain ⟨p, hp, rfl⟩ := List.mem_map.1 htm
      exact (hall p hp).resolve_left fun h' => h ⟨p, hp, h'⟩
    have hstr : ∀ w ∈ ws, ∃ s, w = .str s := by
      intro w hw
      obtain ⟨p, hp, hr⟩ := h1 w hw
      rcases hw1 p hp w hr with ⟨h, rfl⟩ | ⟨-, rfl⟩
      · exact htext p hp h
      · exact ⟨_, rfl⟩
    obtain ⟨p0, hp0, ht0⟩ := hsome
    obtain ⟨w0, hw0, hr0⟩ := h2 p0 hp0
    constructor
    · rintro (h | h | ⟨v, hv, h⟩)
      · obtain ⟨s, rfl⟩ := hstr w0 hw0
        rcases h _ hw0 with (⟨q, h⟩ | h | ⟨q, h⟩) | ⟨q, h⟩ <;> cases h
      · refine .inr (.inr (.inl ⟨hall, fun p hp hp1 he => ?_⟩))
        obtain ⟨w, hw, hr⟩ := h2 p hp
        rcases hw1 p hp w hr with ⟨-, rfl⟩ | ⟨hm, -⟩
        · obtain ⟨s, hs, hl⟩ := h _ hw
          rw [hs] at he
          exact hl he
        · rw [hp1] at hm
          rcases hm with h' | h' | h' <;> cases h'
      · obtain ⟨s, rfl⟩ := hstr v hv
        rcases h with h | ⟨d, ms, h⟩ <;> cases h
    · rintro (h | ⟨p, hp, h⟩ | ⟨-, h⟩ | ⟨⟨p, hp, h⟩, -⟩)
      · exact absurd ht0 (h p0 hp0)
      · rcases hall p hp with h' | h' | h' | h' <;> rw [h] at h' <;> cases h'
      · refine .inr (.inl fun w hw => ?_)
        obtain ⟨p, hp, hr⟩ := h1 w hw
        rcases hw1 p hp w hr with ⟨h', rfl⟩ | ⟨-, rfl⟩
        · obtain ⟨s, hs⟩ := htext p hp h'
          refine ⟨s, hs, fun hl => h p hp h' ?_⟩
          rw [hs]
          exact hl
        · exact ⟨[], rfl, by simp⟩
      · rcases hall p hp with h' | h' | h' | h' <;> rcases h with h | h <;> rw [h] at h' <;> cases h'
  -- a column of several types
  have hw2 : ∀ p ∈ cells, ∀ w, Reads M dm (cells.map (·.typ)) p.typ p.value w →
      (NoCell p.typ ∧ w = .none) ∨ (p.typ = 3 ∧ ∃ d ms, w = .datetime d ms) ∨ (p.typ = 4 ∧ ∃ b, w = .bool b) ∨ (p.typ = 1 ∧ ∃ s, w = .str s) ∨
        (p.typ = 2 ∧ Numeric w) := by
    intro p hp w hr
    generalize hpt : p.typ = t at hr
    generalize hpv : p.value = v at hr
    cases hr with
    | number _ _ h => exact absurd h hn
    | noNumber _ _ h => exact absurd h hn
    | text _ _ _ h => exact absurd h ht
    | noText _ _ _ h => exact absurd h ht
    | nothing _ _ _ _ hm => exact .inl ⟨hm, rfl⟩
    | date => exact .inr (.inl ⟨rfl, _, _, rfl⟩)
    | bool => exact .inr (.inr (.inl ⟨rfl, _, rfl⟩))
    | other _ _ _ _ hm h3 h4 =>
      subst hpv
      rcases hcases p hp with h | h | h | h | h
      · exact .inr (.inr (.inr (.inl ⟨hpt ▸ h, htext p hp h⟩)))
      · exact .inr (.inr (.inr (.inr ⟨hpt ▸ h, hnum p hp h⟩)))
      · exact absurd (hpt ▸ h) h3
      · exact absurd (hpt ▸ h) h4
      · exact absurd (hpt ▸ h) hm
  have hother : ∃ p ∈ cells, p.typ = 2 ∨ p.typ = 3 ∨ p.typ = 4 := by
    refine Classical.byContradiction fun h => ht fun t htm => ?_
    obtain ⟨p, hp, rfl⟩ := List.mem_map.1 htm
    rcases hcases p hp with h' | h' | h' | h' | h'
    · exact .inl h'
    · exact absurd ⟨p, hp, .inl h'⟩ h
    · exact absurd ⟨p, hp, .inr (.inl h')⟩ h
    · exact absurd ⟨p, hp, .inr (.inr h')⟩ h
    · exact .inr h'
  have hobj : ∀ p ∈ cells, p.typ = 3 ∨ NoCell p.typ → SheetColumn ws := by
    intro p hp h
    obtain ⟨w, hw, hr⟩ := h2 p hp
    refine .inr (.inr ⟨w, hw, ?_⟩)
    rcases hw2 p hp w hr with ⟨-, h'⟩ | ⟨-, h'⟩ | ⟨h', -⟩ | ⟨h', -⟩ | ⟨h', -⟩
    · exact .inl h'
    · exact .inr h'
    all_goals
      rw [h'] at h
      rcases h with h | h | h | h <;> cases h
  constructor
  · intro h
    by_cases h3 : ∃ p ∈ cells, p.typ = 3
    · exact .inr (.inl h3)
    by_cases hm : ∃ p ∈ cells, NoCell p.typ
    · obtain ⟨q, hq, h'⟩ := hother
      refine .inr (.inr (.inr ⟨⟨q, hq, ?_⟩, hm⟩))
      rcases h' with h' | h' | h'
      · exact .inl h'
      · exact absurd ⟨q, hq, h'⟩ h3
      · exact .inr h'
    left
    intro p hp hp1
    obtain ⟨w, hw, hr⟩ := h2 p hp
    have hws : ∃ s, w = .str s := by
      rcases hw2 p hp w hr with ⟨h', -⟩ | ⟨h', -⟩ | ⟨h', -⟩ | ⟨-, h'⟩ | ⟨h', -⟩
      · exact absurd ⟨p, hp, h'⟩ hm
      · exact absurd ⟨p, hp, h'⟩ h3
      · rw [hp1] at h'; cases h'
      · exact h'
      · rw [hp1] at h'; cases h'
    obtain ⟨s, rfl⟩ := hws
    rcases h with h | h | ⟨v, hv, h⟩
    · rcases h _ hw with (⟨q, h⟩ | h | ⟨q, h⟩) | ⟨q, h⟩ <;> cases h
    · obtain ⟨q, hq, hqt⟩ := hother
      obtain ⟨v, hv, hrv⟩ := h2 q hq
      obtain ⟨x, rfl, -⟩ := h v hv
      rcases hw2 q hq _ hrv with ⟨-, h'⟩ | ⟨-, _, _, h'⟩ | ⟨-, _, h'⟩ | ⟨h', -⟩ | ⟨-, (⟨_, h'⟩ | h' | ⟨_, h'⟩)⟩
      · cases h'
      · cases h'
      · cases h'
      · rw [h'] at hqt; rcases hqt with e | e | e <;> cases e
      · cases h'
      · cases h'
      · cases h'
    · obtain ⟨q, hq, hrq⟩ := h1 v hv
      rcases hw2 q hq _ hrq with ⟨h', -⟩ | ⟨h', -⟩ | ⟨-, _, rfl⟩ | ⟨-, _, rfl⟩ | ⟨-, (⟨_, rfl⟩ | rfl | ⟨_, rfl⟩)⟩
      · exact absurd ⟨q, hq, h'⟩ hm
      · exact absurd ⟨q, hq, h'⟩ h3
      all_goals rcases h with h | ⟨_, _, h⟩ <;> cases h
  · rintro (h | ⟨p, hp, h⟩ | ⟨h, -⟩ | ⟨-, p, hp, h⟩)
    · by_cases hx : ∃ p ∈ cells, p.typ = 3 ∨ NoCell p.typ
      · obtain ⟨p, hp, h⟩ := hx
        exact hobj p hp h
      · left
        intro w hw
        obtain ⟨p, hp, hr⟩ := h1 w hw
        rcases hw2 p hp w hr with ⟨h', -⟩ | ⟨h', -⟩ | ⟨-, h'⟩ | ⟨h', -⟩ | ⟨-, h'⟩
        · exact absurd ⟨p, hp, .inr h'⟩ hx
        · exact absurd ⟨p, hp, .inl h'⟩ hx
        · exact .inr h'
        · exact absurd h' (h p hp)
        · exact .inl h'
    · exact hobj p hp (.inl h)
    · obtain ⟨q, hq, hqt⟩ := hother
      rcases h q hq with h' | h' | h' | h' <;> rw [h'] at hqt <;> rcases hqt with e | e | e <;> cases e
    · exact hobj p hp (.inr h)

theorem readsColumn_kept {M : XlMul} {mode : Nat} {ops : List CellOp} {x : Nat} {col : List Val}
    (hty : ∀ r c, CellTyped (cellOf ops r c).typ (cellOf ops r c).value)
    (h : ReadsColumn M (sheetOf mode ops) 1 (largestOf CellOp.rows ops - 1) x col) :
    SheetColumn col ↔ ColumnKept (columnCells ops 1 (largestOf CellOp.rows ops - 1) x) := by
  obtain ⟨hl, types, htl, hr⟩ := h
  have hlen : col.length = largestOf CellOp.rows ops - 1 := by
    rw [hl]
    show (min ((largestOf CellOp.rows ops : Int) - 1 + 1) ((largestOf CellOp.rows ops : Nat) : Int) - 1).toNat = _
    omega
  have hcell : ∀ i, i < col.length → ∃ w, col[i]? = some w ∧ types[i]? = some (cellOf ops (1 + i) x).typ ∧
      Reads M (sheetOf mode ops).datemode types (cellOf ops (1 + i) x).typ (cellOf ops (1 + i) x).value w := by
    intro i hi
    obtain ⟨v, t, w, g1, g2, g3, g4⟩ := hr i hi
    obtain ⟨rfl, rfl⟩ := sheetOf_cell g1
    have e : ((1 : Int) + i).toNat = 1 + i := by omega
    rw [e, Int.toNat_natCast] at g2 g4
    exact ⟨w, g3, g2, g4⟩
  have htypes : types = (columnCells ops 1 (largestOf CellOp.rows ops - 1) x).map (·.typ) := by
    apply List.ext_getElem?
    intro i
    by_cases hi : i < col.length
    · obtain ⟨w, -, h, -⟩ := hcell i hi
      rw [h]
      unfold columnCells
      simp only [List.getElem?_map]
      rw [List.getElem?_range (by omega)]
      rfl
    · rw [List.getElem?_eq_none (by omega), List.getElem?_eq_none]
      unfold columnCells
      simp
      omega
  have hmem : ∀ p ∈ columnCells ops 1 (largestOf CellOp.rows ops - 1) x, ∃ i, i < col.length ∧ p = cellOf ops (1 + i) x := by
    intro p hp
    unfold columnCells at hp
    obtain ⟨i, hi, rfl⟩ := List.mem_map.1 hp
    exact ⟨i, by rw [hlen]; exact List.mem_range.1 hi, rfl⟩
  rw [htypes] at hcell
  refine reads_kept (M := M) (dm := (sheetOf mode ops).datemode) (fun p hp => ?_) (fun w hw => ?_) fun p hp => ?_
  · obtain ⟨i, -, rfl⟩ := hmem p hp
    exact hty _ _
  · obtain ⟨i, hi⟩ := List.getElem?_of_mem hw
    have hlt := (List.getElem?_eq_some_iff.1 hi).1
    obtain ⟨w', h1, -, h3⟩ := hcell i hlt
    rw [hi] at h1
    cases h1
    exact ⟨_, List.mem_map.2 ⟨i, List.mem_range.2 (by omega), rfl⟩, h3⟩
  · obtain ⟨i, hi, rfl⟩ := hmem p hp
    obtain ⟨w, h1, -, h3⟩ := hcell i hi
    exact ⟨w, List.mem_of_getElem? h1, h3⟩

/-! ## The pack -/

theorem npArray_cells {ft : Rat → List Char} {vs : List Val} (h : ∀ v ∈ vs, CellValue v) : ∃ a, npArray ft vs = .ok a := by
  have hi : ∀ k v, CellValue v → ∃ w, npItem ft k v = .ok w := by
    intro k v hv
    rcases hv with (⟨q, rfl⟩ | rfl | ⟨n, rfl⟩) | ⟨b, rfl⟩ | ⟨s, rfl⟩ | rfl | ⟨d, ms, rfl⟩ <;> cases k <;> exact ⟨_, rfl⟩
  have hs : ∀ k (vs : List Val), (∀ v ∈ vs, CellValue v) → ∃ ws, npItems ft k vs = .ok ws := by
    intro k vs
    induction vs with
    | nil => intro _; exact ⟨[], rfl⟩
    | cons v vs ih =>
      intro h
      obtain ⟨w, hw⟩ := hi k v (h v (by simp))
      obtain ⟨ws, hws⟩ := ih fun v hv => h v (by simp [hv])
      exact ⟨w :: ws, by unfold npItems; rw [hw, hws]⟩
  obtain ⟨ws, hws⟩ := hs (npKind vs) vs h
  exact ⟨⟨npKind vs, ws⟩, by unfold npArray; rw [hws]⟩

/-- The channels of the pack of a whole sheet of a file (with the first row for names): the names, and for each column the values that
C80 tells, and the array with them; the values are found in it if and only if `kept` of the cells. -/
def FilePack (kept : List PutCell → Prop) : Prop :=
  ∀ (ft : Rat → List Char) (W : PyEnv) (codec : List Char → List UInt8 → Option (List Char)) (dec : Char → Option Nat), XlLaws W.xlsx →
    W.xlsx.float = xlFloat dec → RndOk W.num → CodecsFit W codec →
    ∀ (height : Nat) (file : Bytes) (mode : Nat) (sheets : List (List Char × List CellOp)),
      FullFileIs true W.xlsx W.zip W.rnd codec (dget funcDefs) height file mode sheets → height < W.depth →
      ∀ (M : XlMul) (k : Nat) (name : List Char) (ops : List CellOp), sheets[k]? = some (name, ops) →
        ops.any (fun op => 0 < op.rows) → ops.any (fun op => 0 < op.cols) → (sheetOf mode ops).DatesOk M →
        ∃ fuel0, ∀ fuel, fuel0 ≤ fuel → ∃ data names p,
          packFile W.reader M fuel file (.index k) .yes none none none = some (.ok (data, names)) ∧ packOfLists ft data names = .ok p ∧
          (∀ x v, dget p.names x = some v ↔ 0 ≤ x ∧ x < largestOf CellOp.cols ops ∧ v = (cellOf ops 0 x.toNat).value) ∧
          (∀ x, (∃ a, dget p.data x = some a) ↔ 0 ≤ x ∧ x < largestOf CellOp.cols ops) ∧
          ∀ (x : Nat) a, dget p.data x = some a → ∃ col, ReadsColumn M (sheetOf mode ops) 1 (largestOf CellOp.rows ops - 1) x col ∧
            (Each2 EqualValue col a.els ↔ kept (columnCells ops 1 (largestOf CellOp.rows ops - 1) x))

/-- C97, exactly: the values of a column are in the channel if and only if the cells are such. -/
theorem C97_exact : FilePack ColumnKept := by
  intro ft W codec dec hE hfl hP hc height file mode sheets h hd M k name ops hs hr hcol hdates
  obtain ⟨f, hw⟩ := C80_whole_sheet_partial W hE hP hc h hd M hs ⟨hr, hcol⟩ hdates
  obtain ⟨f', hp⟩ := C80_file_partial W codec hE hP hc height file mode sheets h hd
  refine ⟨max f f', fun fuel hfuel => ?_⟩
  obtain ⟨data, names, e, h1, h2, h3⟩ := hw fuel (by omega)
  have hsp := (hp fuel (by omega) M .yes none none none).1 k (name, ops) ⟨k, hs, .inl rfl⟩
  rw [e] at hsp
  have hsp := (Option.some.inj hsp).symm
  have hty := C97_cells hfl h (name, ops) (List.mem_of_getElem? hs)
  have hnd := sheetpack_nodup hsp
  have hval := C95_kinds (sheetOf_wf _ _) (fun r c v t hh => by
    obtain ⟨rfl, rfl⟩ := sheetOf_cell hh
    exact hty _ _) hsp
  obtain ⟨d, hdd⟩ := npDict_ok (ft := ft) (data := data) fun x hx => npArray_cells (hval x hx)
  obtain ⟨g1, g2⟩ := npDict_get hdd
  obtain ⟨f1, f2⟩ := init_data d names
  have hget : ∀ x a, dget d x = some a → ∃ col, dget data x = some col ∧ (x, col) ∈ data ∧ npArray ft col = .ok a := by
    intro x a ha
    obtain ⟨i, hi⟩ := List.getElem?_of_mem (dget_mem ha)
    have hk : (data.map Prod.fst)[i]? = some x := by rw [← g1, List.getElem?_map, hi]; rfl
    rw [List.getElem?_map, Option.map_eq_some_iff] at hk
    obtain ⟨⟨k', col⟩, hk1, rfl⟩ := hk
    obtain ⟨b, hb, hb'⟩ := g2 i _ _ hk1
    rw [hi] at hb
    cases hb
    exact ⟨col, dget_of_mem hnd (List.mem_of_getElem? hk1), List.mem_of_getElem? hk1, hb'⟩
  refine ⟨data, names, Pack.init d names, e, by unfold packOfLists; rw [hdd], ?_, ?_, ?_⟩
  · rw [f2]; exact h3
  · intro x
    rw [f1, ← h1]
    constructor
    · rintro ⟨a, ha⟩
      obtain ⟨col, hcl, -, -⟩ := hget x a ha
      exact ⟨col, hcl⟩
    · rintro ⟨col, hcl⟩
      obtain ⟨i, hi⟩ := List.getElem?_of_mem (dget_mem hcl)
      obtain ⟨a, ha, -⟩ := g2 i x col hi
      refine ⟨a, dget_of_mem ?_ (List.mem_of_getElem? ha)⟩
      show (d.map Prod.fst).Nodup
      rw [g1]
      exact hnd
  · intro x a ha
    rw [f1] at ha
    obtain ⟨col, hcl, hmem, har⟩ := hget x a ha
    have hrc := h2 x col hcl
    refine ⟨col, hrc, ?_⟩
    rw [← readsColumn_kept hty hrc, ← cellValue_compatible (hval _ hmem), ← C92_exact ft]
    constructor
    · intro hh; exact ⟨a, har, hh⟩
    · rintro ⟨b, hb, hh⟩
      rw [har] at hb
      cases hb
      exact hh

/-- C97 as a user would have it: the values of the columns of a sheet in a file are in the channels.  With `all` of every sheet, else for
columns that a channel can hold. -/
def FilePackHolds (all : Bool) : Prop :=
  ∀ (ft : Rat → List Char) (W : PyEnv) (codec : List Char → List UInt8 → Option (List Char)) (dec : Char → Option Nat), XlLaws W.xlsx →
    W.xlsx.float = xlFloat dec → RndOk W.num → CodecsFit W codec →
    ∀ (height : Nat) (file : Bytes) (mode : Nat) (sheets : List (List Char × List CellOp)),
      FullFileIs true W.xlsx W.zip W.rnd codec (dget funcDefs) height file mode sheets → height < W.depth →
      ∀ (M : XlMul) (k : Nat) (name : List Char) (ops : List CellOp), sheets[k]? = some (name, ops) →
        ops.any (fun op => 0 < op.rows) → ops.any (fun op => 0 < op.cols) → (sheetOf mode ops).DatesOk M →
        ∃ fuel0, ∀ fuel, fuel0 ≤ fuel → ∃ data names p,
          packFile W.reader M fuel file (.index k) .yes none none none = some (.ok (data, names)) ∧ packOfLists ft data names = .ok p ∧
          (∀ x v, dget p.names x = some v ↔ 0 ≤ x ∧ x < largestOf CellOp.cols ops ∧ v = (cellOf ops 0 x.toNat).value) ∧
          (∀ x, (∃ a, dget p.data x = some a) ↔ 0 ≤ x ∧ x < largestOf CellOp.cols ops) ∧
          ∀ (x : Nat) a, dget p.data x = some a → (all = false → ColumnKept (columnCells ops 1 (largestOf CellOp.rows ops - 1) x)) →
            ∃ col, ReadsColumn M (sheetOf mode ops) 1 (largestOf CellOp.rows ops - 1) x col ∧ Each2 EqualValue col a.els

/-- C97, the part that holds.  (Missing: columns with text and numbers or booleans and neither a date nor an empty cell, and text that ends
with a NUL: C97_exact.) -/
theorem C97_file_partial : FilePackHolds false := by
  intro ft W codec dec hE hfl hP hc height file mode sheets h hd M k name ops hs hr hcol hdates
  obtain ⟨f, hw⟩ := C97_exact ft W codec dec hE hfl hP hc height file mode sheets h hd M k name ops hs hr hcol hdates
  refine ⟨f, fun fuel hfuel => ?_⟩
  obtain ⟨data, names, p, h1, h2, h3, h4, h5⟩ := hw fuel hfuel
  refine ⟨data, names, p, h1, h2, h3, h4, fun x a ha hk => ?_⟩
  obtain ⟨col, h6, h7⟩ := h5 x a ha
  exact ⟨col, h6, h7.2 (hk rfl)⟩

/-! ## An example, and where the full statement is false -/

/-- A sheet of Excel 2: the text n, below it the text a or the number 7, and then TRUE. -/
def exMixRecs (text : Bool) : List XRec :=
  [(0x4, leBytes 2 0 ++ leBytes 2 0 ++ [0, 0, 0] ++ (leBytes 1 1 ++ [0x6E] ++ [])),
   if text then (0x4, leBytes 2 1 ++ leBytes 2 0 ++ [0, 0, 0] ++ (leBytes 1 1 ++ [0x61] ++ []))
     else (0x2, leBytes 2 1 ++ leBytes 2 0 ++ [0, 0, 0] ++ leBytes 2 7),
   (0x5, leBytes 2 2 ++ leBytes 2 0 ++ [0, 0, 0] ++ [1, 0]), (0xA, [])]

def exMixFile (text : Bool) : Bytes := recordBytes (0x9, exOldBof 0x10) ++ (exMixRecs text).flatMap recordBytes

def exMixOps (text : Bool) : List CellOp :=
  [.put 0 0 ⟨1, .str ['n'], 0⟩, .put 1 0 (if text then ⟨1, .str ['a'], 0⟩ else ⟨2, .flt 7, 0⟩), .put 2 0 ⟨4, .int 1, 0⟩]

def exMixEnv : PyEnv := { exPyEnv with xlsx := { exNoteXl with float := xlFloat asciiDec } }

theorem exMix_laws : XlLaws exMixEnv.xlsx := ⟨exXl_laws.upper, exXl_laws.same, exXl_laws.digits, exXl_laws.empty, exXl_laws.letters⟩

theorem exMix_is (text : Bool) : FullFileIs true exMixEnv.xlsx exMixEnv.zip exMixEnv.rnd (fun _ b => some (asciiText b)) (dget funcDefs) 0
    (exMixFile text) 0 [("Sheet 1".toList, exMixOps text)] := by
  refine .inr ⟨(1, 1), exMixFile text, [], by simp, .inl ⟨.v2, _, none, ⟨0, exOldBof 0x10, exMixRecs text, rfl, exOldBof_is,
    by unfold RecordOk; cases text <;> decide +kernel, ?_, ?_⟩, rfl⟩⟩
  · have hh : ∀ row, row < 65536 → OldHead ⟨none, 0, [], [], none⟩ row 0 2 (leBytes 2 row ++ leBytes 2 0 ++ [0, 0, 0]) := fun row hr =>
      ⟨hr, by omega, [0, 0, 0], ⟨0, 0, 0, rfl, .inr (.inr ⟨rfl, by decide, .inr ⟨by decide, rfl⟩⟩)⟩, rfl⟩
    refine .cells2 (rs := [_]) (ops := [_]) rfl (.label (hh 0 (by omega)) (exOldText (fun _ _ => rfl) _ [0x6E] (by decide))) ?_
    cases text
    · refine .cells2 (rs := [_]) (ops := [_]) rfl (.integer (n := 7) (hh 1 (by omega)) (by omega)) ?_
      exact .cells2 (rs := [_]) (ops := [_]) rfl (.bool (v := 1) (hh 2 (by omega))) .eof
    · refine .cells2 (rs := [_]) (ops := [_]) rfl (.label (hh 1 (by omega)) (exOldText (fun _ _ => rfl) _ [0x61] (by decide))) ?_
      exact .cells2 (rs := [_]) (ops := [_]) rfl (.bool (v := 1) (hh 2 (by omega))) .eof
  · intro row col x hx
    simp only [exMixOps, List.mem_cons, CellOp.put.injEq, List.not_mem_nil, or_false] at hx
    omega

theorem exMix_dates (text : Bool) : (sheetOf 0 (exMixOps text)).DatesOk exactMul := by
  intro r c v h
  have h := (sheetOf_cell h).2
  generalize r.toNat = r at h
  generalize c.toNat = c at h
  exfalso
  cases text <;> match r, c with
  | 0, 0 => exact absurd h (by decide)
  | 1, 0 => exact absurd h (by decide)
  | 2, 0 => exact absurd h (by decide)
  | r + 3, c => simp [exMixOps, cellOf, lastPut, emptyCell] at h
  | 0, c + 1 => simp [exMixOps, cellOf, lastPut, emptyCell] at h
  | 1, c + 1 => simp [exMixOps, cellOf, lastPut, emptyCell] at h
  | 2, c + 1 => simp [exMixOps, cellOf, lastPut, emptyCell] at h

-- a column with a number and TRUE is held, one with text and TRUE is not
example : ColumnKept (columnCells (exMixOps false) 1 2 0) ∧ ¬ ColumnKept (columnCells (exMixOps true) 1 2 0) := by
  have e1 : columnCells (exMixOps false) 1 2 0 = [⟨2, .flt 7, 0⟩, ⟨4, .int 1, 0⟩] := rfl
  have e2 : columnCells (exMixOps true) 1 2 0 = [⟨1, .str ['a'], 0⟩, ⟨4, .int 1, 0⟩] := rfl
  rw [e1, e2]
  constructor
  · exact .inl (by simp)
  · simp [ColumnKept, NoCell]

example : ∃ fuel0, ∀ fuel, fuel0 ≤ fuel → ∃ data names p,
    packFile exMixEnv.reader exactMul fuel (exMixFile false) (.index 0) .yes none none none = some (.ok (data, names)) ∧
      packOfLists (fun _ => []) data names = .ok p := by
  obtain ⟨f, h⟩ := C97_file_partial (fun _ => []) exMixEnv _ asciiDec exMix_laws rfl exPyOps_ok exCodecs_fit 0 _ 0 _ (exMix_is false) (by decide)
    exactMul 0 _ _ rfl (by decide) (by decide) (exMix_dates false)
  exact ⟨f, fun fuel hf => by obtain ⟨d, n, p, h1, h2, -⟩ := h fuel hf; exact ⟨d, n, p, h1, h2⟩⟩

/-- C97 as stated is false: beside the text a in a file, TRUE is the text True in the channel. -/
theorem C97_counterexample : ¬ FilePackHolds true := by
  intro hall
  obtain ⟨f, h⟩ := hall (fun _ => []) exMixEnv _ asciiDec exMix_laws rfl exPyOps_ok exCodecs_fit 0 _ 0 _ (exMix_is true) (by decide)
    exactMul 0 _ _ rfl (by decide) (by decide) (exMix_dates true)
  obtain ⟨f', hp⟩ := C80_file_partial exMixEnv _ exMix_laws exPyOps_ok exCodecs_fit 0 _ 0 _ (exMix_is true) (by decide)
  obtain ⟨data, names, p, h1, h2, -, -, h3⟩ := h (max f f') (by omega)
  have hsp := (hp (max f f') (by omega) exactMul .yes none none none).1 ((0 : Nat) : Int) _ ⟨0, rfl, .inl rfl⟩
  have he : sheetpack exMixEnv.xlsx.up exactMul (sheetOf 0 (exMixOps true)) .yes none none none =
      .ok ([(0, [.str ['a'], .bool true])], [(0, .str ['n'])]) := by decide +kernel
  dsimp only at hsp
  rw [he] at hsp
  rw [h1] at hsp
  cases hsp
  have hd : (packOfLists (fun _ => []) [(0, [.str ['a'], .bool true])] [(0, .str ['n'])]).map (fun p => dget p.data 0) =
      .ok (some ⟨.U, [.str ['a'], .str "True".toList]⟩) := by decide +kernel
  rw [h2] at hd
  have hd : dget p.data 0 = some ⟨.U, [.str ['a'], .str "True".toList]⟩ := Except.ok.inj hd
  obtain ⟨col, ⟨-, types, -, hr⟩, hc⟩ := h3 0 _ hd (by simp)
  cases hc with
  | cons e1 hc =>
    cases hc with
    | cons e2 hc =>
      cases hc
      cases same_str e1
      cases same_str e2
      obtain ⟨v, t, w, g1, g2, g3, g4⟩ := hr 1 (by simp)
      obtain ⟨rfl, rfl⟩ := sheetOf_cell g1
      have e3 : cellOf (exMixOps true) ((1 : Int) + (1 : Nat)).toNat ((0 : Nat) : Int).toNat = ⟨4, .int 1, 0⟩ := rfl
      rw [e3] at g4
      simp only [List.getElem?_cons_succ, List.getElem?_cons_zero, Option.some.injEq] at g3
      subst g3
      cases g4

end CP
