import Verif.Model.OnDemand
import Verif.Spec.OnDemand
import Verif.Props.BookAccess
import Verif.Props.XlsBook
/-!
# C107: xls files opened on demand have the sheets that they have when opened at once
-/

namespace CP
open Spec

variable {σ τ : Type}

/-! ### What country settings do -/

/-- Reading goes on with the settings it has, or sets them. -/
theorem handleCountry_keeps {c c' : Nat × Nat} {data : Bytes} (h : handleCountry c data = .ok c') : c = (0, 0) ∨ c' = c := by
  unfold handleCountry at h
  split at h
  · split at h
    · rename_i h1
      injection h with h
      rcases h1 with h1 | h1
      · exact .inl h1
      · exact .inr (h.symm.trans h1.symm)
    · cases h
  · cases h

/-- A step that goes on: either it has nothing to do with the settings, or it is a COUNTRY record. -/
theorem sheetStep_country {E : XlsEnv σ} {st st' : XlsSt σ} {r : Rec} {after : List Rec} {k : Nat}
    (h : sheetStep E st r after = .ok (st', k)) :
    (st'.countries = st.countries ∧ ∀ e, sheetStep E { st with countries := e } r after = .ok ({ st' with countries := e }, k)) ∨
    (r.code = xlCountry ∧ k = 0 ∧ (∃ c, handleCountry st.countries r.data = .ok c ∧ st' = { st with countries := c }) ∧
      ∀ e, sheetStep E { st with countries := e } r after =
        (handleCountry e r.data).map fun c => ({ st with countries := c }, 0)) := by
  have plain : ∀ {x : Except Exc Grid}, (x.map fun g => (({ st with grid := g } : XlsSt σ), 0)) = .ok (st', k) →
      st'.countries = st.countries ∧ ∀ e, (x.map fun g => (({ grid := g, countries := e, obj := st.obj } : XlsSt σ), 0)) =
        .ok ({ st' with countries := e }, k) := by
    intro x hx
    cases x with
    | error e => cases hx
    | ok g => cases hx; exact ⟨rfl, fun _ => rfl⟩
  unfold sheetStep at h ⊢
  dsimp only at h ⊢
  by_cases c1 : r.code = xlNumberRec
  · simp only [if_pos c1] at h ⊢; exact .inl (plain h)
  by_cases c2 : r.code = xlLabelSst
  · simp only [if_neg c1, if_pos c2] at h ⊢; exact .inl (plain h)
  by_cases c3 : r.code = xlLabel
  · simp only [if_neg c1, if_neg c2, if_pos c3] at h ⊢; exact .inl (plain h)
  by_cases c4 : r.code = xlRString
  · simp only [if_neg c1, if_neg c2, if_neg c3, if_pos c4] at h ⊢; exact .inl (plain h)
  by_cases c5 : r.code = xlRk
  · simp only [if_neg c1, if_neg c2, if_neg c3, if_neg c4, if_pos c5] at h ⊢; exact .inl (plain h)
  by_cases c6 : r.code = xlMulRk
  · simp only [if_neg c1, if_neg c2, if_neg c3, if_neg c4, if_neg c5, if_pos c6] at h ⊢; exact .inl (plain h)
  simp only [if_neg c1, if_neg c2, if_neg c3, if_neg c4, if_neg c5, if_neg c6] at h ⊢
  by_cases c7 : r.code ∈ xlFormulas
  · simp only [if_pos c7] at h ⊢
    cases hx : readFormula E st.grid r.data after with
    | error e => rw [hx] at h; cases h
    | ok p => rw [hx] at h; cases h; exact .inl ⟨rfl, fun _ => rfl⟩
  by_cases c8 : r.code = xlBoolErr
  · simp only [if_neg c7, if_pos c8] at h ⊢; exact .inl (plain h)
  by_cases c9 : r.code ∈ xlDimensions
  · simp only [if_neg c7, if_neg c8, if_pos c9] at h ⊢; exact .inl (plain h)
  simp only [if_neg c7, if_neg c8, if_neg c9] at h ⊢
  by_cases c10 : r.code ∈ xlObjects
  · simp only [if_pos c10] at h ⊢
    cases hx : E.obj st.obj r after with
    | error e => rw [hx] at h; cases h
    | ok p => rw [hx] at h; cases h; exact .inl ⟨rfl, fun _ => rfl⟩
  by_cases c11 : r.code ∈ xlBofs
  · simp only [if_neg c10, if_pos c11] at h ⊢
    cases hn : needs 4 r.data with
    | error e => rw [hn] at h; cases h
    | ok u =>
      rw [hn] at h
      dsimp only at h ⊢
      cases hx : skipChart after with
      | error e => rw [hx] at h; cases h
      | ok p => rw [hx] at h; cases h; exact .inl ⟨rfl, fun _ => rfl⟩
  by_cases c12 : r.code = xlCountry
  · simp only [if_neg c10, if_neg c11, if_pos c12] at h ⊢
    cases hx : handleCountry st.countries r.data with
    | error e => rw [hx] at h; cases h
    | ok c => rw [hx] at h; cases h; exact .inr ⟨c12, rfl, ⟨c, rfl, rfl⟩, fun _ => trivial⟩
  · simp only [if_neg c10, if_neg c11, if_neg c12] at h ⊢
    cases hx : asideOk E.bv r with
    | error e => rw [hx] at h; cases h
    | ok p => rw [hx] at h; cases h; exact .inl ⟨rfl, fun _ => rfl⟩

/-- The settings after the loop. -/
theorem sheetLoop_keeps {E : XlsEnv σ} (n : Nat) : ∀ {st st' : XlsSt σ} {recs : List Rec}, sheetLoop E n st recs = .ok st' →
    st.countries = (0, 0) ∨ st'.countries = st.countries := by
  induction n with
  | zero => intro st st' recs h; cases h
  | succ n ih =>
    intro st st' recs h
    cases recs with
    | nil => cases h
    | cons r rest =>
      rw [sheetLoop] at h
      by_cases he : r.code = xlEof
      · rw [if_pos he] at h; cases h; exact .inr rfl
      · rw [if_neg he] at h
        cases hs : sheetStep E st r rest with
        | error e => rw [hs] at h; cases h
        | ok p =>
          obtain ⟨s1, k⟩ := p
          rw [hs] at h
          have h2 := ih h
          rcases sheetStep_country hs with ⟨h3, _⟩ | ⟨_, _, ⟨c, h3, h4⟩, _⟩
          · rwa [h3] at h2
          · subst h4
            rcases handleCountry_keeps h3 with h5 | h5
            · exact .inl h5
            · subst h5
              exact h2

/-- The loop with other settings: unset, or those there are at last. -/
theorem sheetLoop_country {E : XlsEnv σ} (n : Nat) {c : Nat × Nat} : ∀ {st st' : XlsSt σ} {recs : List Rec},
    sheetLoop E n st recs = .ok st' → CountriesSay recs → (st'.countries = (0, 0) ∨ st'.countries = c) →
    ∀ e, (e = (0, 0) ∨ e = c) → ∃ e', (e' = (0, 0) ∨ e' = c) ∧
      sheetLoop E n { st with countries := e } recs = .ok { st' with countries := e' } := by
  induction n with
  | zero => intro st st' recs h; cases h
  | succ n ih =>
    intro st st' recs h hz hc e he
    cases recs with
    | nil => cases h
    | cons r rest =>
      rw [sheetLoop] at h ⊢
      by_cases hf : r.code = xlEof
      · rw [if_pos hf] at h ⊢; cases h; exact ⟨e, he, rfl⟩
      · rw [if_neg hf] at h ⊢
        cases hs : sheetStep E st r rest with
        | error x => rw [hs] at h; cases h
        | ok p =>
          obtain ⟨s1, k⟩ := p
          rw [hs] at h
          dsimp only at h
          have hz' : CountriesSay (rest.drop k) := fun r hr => hz r (List.mem_cons_of_mem _ (List.mem_of_mem_drop hr))
          rcases sheetStep_country hs with ⟨_, h4⟩ | ⟨hcode, h0, ⟨v, h3, h4⟩, h5⟩
          · rw [h4 e]
            exact ih h hz' hc e he
          · subst h4 h0
            have hv : v = (field2 r.data 0, field2 r.data 2) ∧ (r.data.take 4).length = 4 := by
              unfold handleCountry at h3
              split at h3
              · rename_i hl
                split at h3
                · exact ⟨(Except.ok.inj h3).symm, hl⟩
                · cases h3
              · cases h3
            have hne : v ≠ (0, 0) := hv.1 ▸ hz r (List.mem_cons_self ..) hcode
            have hvc : v = c := by
              rcases sheetLoop_keeps n h with h6 | h6
              · exact absurd h6 hne
              · rcases hc with h7 | h7
                · rw [h7] at h6; exact absurd h6.symm hne
                · rw [h7] at h6; exact h6.symm
            have h6 : handleCountry e r.data = .ok v := by
              unfold handleCountry
              rw [if_pos hv.2, if_pos (by rw [← hv.1, hvc]; exact he), hv.1]
            rw [h5 e, h6]
            exact ih (st := { st with countries := v }) h hz' hc v (.inr hvc)

theorem readSheet_country {E : XlsEnv σ} {ragged : Bool} {obj : σ} {d d' c : Nat × Nat} {recs : List Rec} {g : Grid}
    (h : readSheet E ragged obj d recs = .ok (g, d')) :
    (d = (0, 0) ∨ d' = d) ∧ (CountriesSay recs → (d' = (0, 0) ∨ d' = c) → ∀ e, (e = (0, 0) ∨ e = c) →
      ∃ e', (e' = (0, 0) ∨ e' = c) ∧ readSheet E ragged obj e recs = .ok (g, e')) := by
  unfold readSheet at h ⊢
  dsimp only at h ⊢
  cases hl : sheetLoop E (recs.length + 1) ⟨Grid.init false ragged (if 80 ≤ E.bv then 65536 else 16384) 256, d, obj⟩ recs with
  | error e => rw [hl] at h; cases h
  | ok st =>
    rw [hl] at h
    dsimp only at h
    cases ht : st.grid.tidy with
    | mk g' o =>
      rw [ht] at h
      cases o with
      | some e => cases h
      | none =>
        cases h
        refine ⟨sheetLoop_keeps _ hl, fun hz hc e he => ?_⟩
        obtain ⟨e', h1, h2⟩ := sheetLoop_country _ hl hz hc e he
        dsimp only at h2
        refine ⟨e', h1, ?_⟩
        rw [h2]
        dsimp only
        rw [ht]

/-! ### All sheets -/

section
variable {E : BookEnv σ τ} {bv : Nat} {G : Globals τ} {ragged : Bool} {mem : Bytes}

theorem getSheets_cons {d : Nat × Nat} {name : List Char} {pos : Int} {rest : List (List Char × Int)} :
    getSheets E bv G ragged mem d ((name, pos) :: rest) =
      match demandRead E bv G ragged mem d pos name with
      | (_, .error e) => .error e
      | (d', .ok g) => (getSheets E bv G ragged mem d' rest).map (⟨name, g⟩ :: ·) := by
  rw [getSheets]
  unfold demandRead
  cases getbof mem pos 0x10 with
  | error e => rfl
  | ok p =>
    dsimp only
    cases readSheet (sheetEnv E bv G) ragged E.obj0 d (recordsAt mem p.2) with
    | error e => rfl
    | ok q =>
      dsimp only
      cases getSheets E bv G ragged mem q.2 rest <;> rfl

theorem demandRead_any {d d' c : Nat × Nat} {pos : Int} {name : List Char} {g : Grid}
    (h : demandRead E bv G ragged mem d pos name = (d', .ok g)) :
    (d = (0, 0) ∨ d' = d) ∧ (SheetSays mem pos → (d' = (0, 0) ∨ d' = c) → ∀ e, (e = (0, 0) ∨ e = c) →
      ∃ e', (e' = (0, 0) ∨ e' = c) ∧ demandRead E bv G ragged mem e pos name = (e', .ok g)) := by
  unfold demandRead at h ⊢
  cases hb : getbof mem pos 0x10 with
  | error e => rw [hb] at h; cases h
  | ok p =>
    rw [hb] at h
    dsimp only at h ⊢
    cases hr : readSheet (sheetEnv E bv G) ragged E.obj0 d (recordsAt mem p.2) with
    | error e => rw [hr] at h; cases h
    | ok q =>
      obtain ⟨g', d''⟩ := q
      rw [hr] at h
      cases h
      obtain ⟨h1, h2⟩ := readSheet_country (c := c) hr
      refine ⟨h1, fun hz hc e he => ?_⟩
      obtain ⟨e', h3, h4⟩ := h2 (hz p.1 p.2 hb) hc e he
      exact ⟨e', h3, by rw [h4]⟩

/-- All sheets can be read with the settings unset or those there are at last. -/
theorem getSheets_country {l : List (List Char × Int)} : ∀ {d : Nat × Nat} {gs : List BookSheet},
    getSheets E bv G ragged mem d l = .ok gs →
    gs.map BookSheet.name = l.map Prod.fst ∧
    ((∀ p ∈ l, SheetSays mem p.2) → ∃ c, (d = (0, 0) ∨ d = c) ∧ ∀ (k : Nat) pos name s, l[k]? = some (name, pos) → gs[k]? = some s →
      ∀ e, (e = (0, 0) ∨ e = c) → ∃ e', (e' = (0, 0) ∨ e' = c) ∧ demandRead E bv G ragged mem e pos name = (e', .ok s.grid)) ∧
    (d ≠ (0, 0) → ∀ (k : Nat) pos name s, l[k]? = some (name, pos) → gs[k]? = some s →
      demandRead E bv G ragged mem d pos name = (d, .ok s.grid)) := by
  induction l with
  | nil =>
    intro d gs h
    cases h
    exact ⟨rfl, fun _ => ⟨d, .inr rfl, fun k pos name s h => by simp at h⟩, fun _ k pos name s h => by simp at h⟩
  | cons p rest ih =>
    intro d gs h
    obtain ⟨name, pos⟩ := p
    rw [getSheets_cons] at h
    cases hr : demandRead E bv G ragged mem d pos name with
    | mk d' x =>
      rw [hr] at h
      cases x with
      | error e => cases h
      | ok g =>
        dsimp only at h
        cases hg : getSheets E bv G ragged mem d' rest with
        | error e => rw [hg] at h; cases h
        | ok gs' =>
          rw [hg] at h
          cases h
          obtain ⟨i1, i2, i3⟩ := ih hg
          refine ⟨by rw [List.map_cons, List.map_cons, i1], fun hz => ?_, fun hd => ?_⟩
          · obtain ⟨c, hc, hall⟩ := i2 fun p hp => hz p (List.mem_cons_of_mem _ hp)
            obtain ⟨h1, h2⟩ := demandRead_any (c := c) hr
            refine ⟨c, ?_, fun k pos' name' s hk hs => ?_⟩
            · rcases h1 with h1 | h1
              · exact .inl h1
              · rwa [h1] at hc
            · cases k with
              | zero =>
                cases hk; cases hs
                exact h2 (hz _ (List.mem_cons_self ..)) hc
              | succ k => exact hall k pos' name' s hk hs
          · obtain ⟨h1, _⟩ := demandRead_any (c := d) hr
            have h1 := h1.resolve_left hd
            subst h1
            intro k pos' name' s hk hs
            cases k with
            | zero => cases hk; cases hs; exact hr
            | succ k => exact i3 hd k pos' name' s hk hs

/-- `list(book)` of a book in which nothing from place `k` on is loaded. -/
theorem iterFrom_demand {suf : List (List Char × Int)} : ∀ {pre : List (List Char × Int)} {b : BookObj (Nat × Nat) Grid},
    b.released = false → b.names = (pre ++ suf).map Prod.fst → b.places = (pre ++ suf).map Prod.snd →
    b.sheets.length = (pre ++ suf).length → (∀ j, pre.length ≤ j → j < (pre ++ suf).length → b.sheets[j]? = some none) →
    (∀ gs, getSheets E bv G ragged mem b.env suf = .ok gs →
      ∃ l, (b.iterFrom (demandRead E bv G ragged mem) pre.length suf.length).2 = .ok l ∧ l.map SheetObj.cells = gs.map BookSheet.grid) ∧
    (∀ e, getSheets E bv G ragged mem b.env suf = .error e →
      (b.iterFrom (demandRead E bv G ragged mem) pre.length suf.length).2 = .error e) := by
  induction suf with
  | nil =>
    intro pre b _ _ _ _ _
    exact ⟨fun gs h => by cases h; exact ⟨[], rfl, rfl⟩, fun e h => by cases h⟩
  | cons p rest ih =>
    intro pre b hr hn hp hl hs
    obtain ⟨name, pos⟩ := p
    have hi : IsIndexOf (pre ++ (name, pos) :: rest).length (pre.length : Int) pre.length := ⟨by simp, .inl rfl⟩
    have hg : b.sheetByIndex (demandRead E bv G ragged mem) (pre.length : Int) =
        match demandRead E bv G ragged mem b.env pos name with
        | (env, .error e) => ({ b with env := env }, .error e)
        | (env, .ok x) => ({ b with sheets := b.sheets.set pre.length (some ⟨x, pre.length⟩), env := env }, .ok ⟨x, pre.length⟩) := by
      unfold BookObj.sheetByIndex
      rw [pyIndex_at hl hi (hs _ (Nat.le_refl _) hi.1)]
      dsimp only
      unfold BookObj.getSheet
      rw [if_neg (by rw [hr]; decide), hp, pyIndex_at (by simp) hi (x := pos) (by simp)]
      dsimp only
      rw [hn, pyIndex_at (by simp) hi (x := name) (by simp)]
      dsimp only
      rcases demandRead E bv G ragged mem b.env pos name with ⟨env, e | x⟩
      · rfl
      · dsimp only
        rw [pySetItem_at hl hi]
    rw [getSheets_cons]
    cases hd : demandRead E bv G ragged mem b.env pos name with
    | mk env x =>
      rw [hd] at hg
      cases x with
      | error e =>
        dsimp only at hg ⊢
        refine ⟨fun gs h => (nomatch h), fun e' h => ?_⟩
        cases h
        rw [List.length_cons, iterFrom_fails hg]
      | ok g =>
        dsimp only at hg ⊢
        rw [List.length_cons, iterFrom_cons hg]
        obtain ⟨i1, i2⟩ := ih (pre := pre ++ [(name, pos)])
          (b := { b with sheets := b.sheets.set pre.length (some ⟨g, pre.length⟩), env := env }) hr (by simpa using hn)
          (by simpa using hp) (by simpa using hl) (fun j h1 h2 => by
            simp only [List.length_append, List.length_cons, List.length_nil] at h1 h2
            dsimp only
            rw [List.getElem?_set_ne (by omega)]
            exact hs j (by omega) (by simp only [List.length_append, List.length_cons]; omega))
        rw [List.length_append, List.length_singleton] at i1 i2
        dsimp only at i1 i2 ⊢
        cases hrest : getSheets E bv G ragged mem env rest with
        | error e =>
          refine ⟨fun gs h => (nomatch h), fun e' h => ?_⟩
          cases h
          rw [i2 e hrest]
          rfl
        | ok gs' =>
          refine ⟨fun gs h => ?_, fun e' h => (nomatch h)⟩
          cases h
          obtain ⟨l, h1, h2⟩ := i1 gs' hrest
          rw [h1]
          exact ⟨_, rfl, by rw [List.map_cons, List.map_cons, h2]⟩

end

/-! ### The theorems -/

/-- C107, part 1: a file that opens at once opens on demand, with the same date mode, and as a book (`C106`) with the sheets that it
has when opened at once, in whatever order and how often they are asked for; if the country is set before the sheets, or no COUNTRY
record of a sheet is empty. -/
theorem C107_same {E : BookEnv σ τ} {ragged : Bool} {mem : Bytes} {base : Int} {dm : Nat} {gs : List BookSheet}
    (h : openStream E ragged mem base = .ok (dm, gs)) : ∃ d, openDemand E ragged mem base = .ok d ∧ d.datemode = dm ∧
      ((d.book.env ≠ (0, 0) ∨ ∀ pos ∈ d.book.places, SheetSays mem pos) ∨ d.book.released = true →
        OpenBook d.read (gs.map fun s => (s.name, s.grid)) (if d.book.released then .whole else .onDemand) d.book) := by
  unfold openStream at h
  unfold openDemand
  cases hb : getbof mem base 5 with
  | error e => rw [hb] at h; cases h
  | ok p =>
    obtain ⟨bv, pos⟩ := p
    rw [hb] at h
    dsimp only at h ⊢
    by_cases h0 : bv = 0
    · rw [if_pos h0] at h; cases h
    rw [if_neg h0] at h ⊢
    by_cases h5 : bv < 50
    · rw [if_pos h5] at h ⊢
      rw [h]
      refine ⟨_, rfl, rfl, fun _ => ?_⟩
      have := OpenBook.whole (read := fun (c : Nat × Nat) (_ : Int) (_ : List Char) => (c, (.error .xlrdError : Except Exc Grid)))
        (content := gs.map fun s => (s.name, s.grid)) (places := gs.map fun _ => 0) (env := ((0, 0) : Nat × Nat))
      have e1 : (gs.map fun s => (s.name, s.grid)).map Prod.fst = gs.map BookSheet.name := by rw [List.map_map]; rfl
      have e2 : ((gs.map fun s => (s.name, s.grid)).mapIdx fun k c => some (⟨c.2, k⟩ : SheetObj Grid)) =
          gs.mapIdx fun k s => some ⟨s.grid, k⟩ := by
        refine List.ext_getElem? fun j => ?_
        rw [List.getElem?_mapIdx, List.getElem?_mapIdx, List.getElem?_map, Option.map_map]
        rfl
      rw [e1, e2, List.length_map] at this
      exact this
    · rw [if_neg h5] at h ⊢
      cases hg : globalsLoop E bv base ((recordsAt mem pos).length + 1) (Globals.init E.names0) (recordsAt mem pos) with
      | error e => rw [hg] at h; cases h
      | ok G =>
        rw [hg] at h
        dsimp only at h ⊢
        cases hs : getSheets E bv G ragged mem G.countries G.sheets with
        | error e => rw [hs] at h; cases h
        | ok gs' =>
          rw [hs] at h
          cases h
          refine ⟨_, rfl, rfl, fun hcond => ?_⟩
          dsimp only at hcond ⊢
          obtain ⟨h1, h2, h3⟩ := getSheets_country hs
          have hlen : G.sheets.length = gs.length := by
            have := congrArg List.length h1
            simpa using this.symm
          have good : ∃ Good : Nat × Nat → Prop, Good G.countries ∧ ∀ (k : Nat) pos name s, G.sheets[k]? = some (name, pos) →
              gs[k]? = some s → ∀ env, Good env → ∃ env', Good env' ∧ demandRead E bv G ragged mem env pos name = (env', .ok s.grid) := by
            rcases hcond with (hc | hc) | hc
            · exact ⟨fun e => e = G.countries, rfl, fun k pos name s hk hs env he => ⟨_, rfl, by rw [he]; exact h3 hc k pos name s hk hs⟩⟩
            · obtain ⟨c, hc1, hc2⟩ := h2 fun p hp => hc p.2 (List.mem_map.2 ⟨p, hp, rfl⟩)
              exact ⟨fun e => e = (0, 0) ∨ e = c, hc1, hc2⟩
            · cases hc
          obtain ⟨Good, g1, g2⟩ := good
          have := OpenBook.onDemand (read := demandRead E bv G ragged mem) (content := gs.map fun s => (s.name, s.grid))
            (places := G.sheets.map Prod.snd) (env := G.countries) Good (by simp [hlen]) g1 (by
              intro k pos name x hk hx env he
              rw [List.getElem?_map] at hk hx
              cases hq : G.sheets[k]? with
              | none => rw [hq] at hk; cases hk
              | some q =>
                cases hs' : gs[k]? with
                | none => rw [hs'] at hx; cases hx
                | some s =>
                  rw [hq] at hk
                  rw [hs'] at hx
                  cases hk; cases hx
                  have hn : q.1 = s.name := by
                    have := congrArg (fun l : List (List Char) => l[k]?) h1
                    simp only [List.getElem?_map, hq, hs', Option.map_some] at this
                    exact (Option.some.inj this).symm
                  exact g2 k q.2 s.name s (by rw [hq, ← hn]) hs' env he)
          have e1 : (gs.map fun s => (s.name, s.grid)).map Prod.fst = G.sheets.map Prod.fst := by
            rw [← h1, List.map_map]; rfl
          have e2 : ((gs.map fun s => (s.name, s.grid)).map fun _ => (none : Option (SheetObj Grid))) = G.sheets.map fun _ => none := by
            refine List.ext_getElem (by simp [hlen]) fun j h1 h2 => by simp
          rw [e1, e2, List.length_map, ← hlen] at this
          exact this

/-- Part 2: so whatever was done with the book (short of releasing it), any sheet asked for is the one of the file. -/
theorem C107_sheets {E : BookEnv σ τ} {ragged : Bool} {mem : Bytes} {base : Int} {dm : Nat} {gs : List BookSheet}
    (h : openStream E ragged mem base = .ok (dm, gs)) {d : DemandBook} (hd : openDemand E ragged mem base = .ok d)
    (hc : d.book.env ≠ (0, 0) ∨ ∀ pos ∈ d.book.places, SheetSays mem pos) (hr : d.book.released = false)
    {ops : List BookOp} (ho : .release ∉ ops) {i : Int} {k : Nat} (hi : IsIndexOf gs.length i k) {s : BookSheet} (hs : gs[k]? = some s) :
    ∃ n, ((ops.foldl (fun b op => (b.step d.read op).1) d.book).step d.read (.byIndex i)).2 = .sheet ⟨s.grid, n⟩ := by
  obtain ⟨d', e, _, hopen⟩ := C107_same h
  rw [hd] at e
  cases e
  have hopen := hopen (.inl hc)
  rw [hr, if_neg (by decide)] at hopen
  have reach : ∀ (ops : List BookOp) (b : BookObj (Nat × Nat) Grid), .release ∉ ops →
      BookReached d.read (gs.map fun s => (s.name, s.grid)) .onDemand false b →
      BookReached d.read (gs.map fun s => (s.name, s.grid)) .onDemand false (ops.foldl (fun b op => (b.step d.read op).1) b) := by
    intro ops
    induction ops with
    | nil => intro b _ hb; exact hb
    | cons op ops ih =>
      intro b ho hb
      rw [List.mem_cons, not_or] at ho
      exact ih _ ho.2 (.step hb fun e => ho.1 e.symm)
  exact ((C106_by_index (reach ops _ ho (.opened hopen)) i).1 k s.name s.grid (by rw [List.length_map]; exact hi)
    (by rw [List.getElem?_map, hs]; rfl)).1 (.inr ⟨rfl, rfl⟩)

/-- Part 3: a file that does not open on demand does not open at once, with the same exception; and otherwise opening at once
gives just what `list(book)` of the book opened on demand gives: the sheets, or the exception.  (For all files.) -/
theorem C107_list (E : BookEnv σ τ) (ragged : Bool) (mem : Bytes) (base : Int) :
    (∀ e, openDemand E ragged mem base = .error e → openStream E ragged mem base = .error e) ∧
    (∀ d, openDemand E ragged mem base = .ok d → d.book.released = false →
      (∀ dm gs, openStream E ragged mem base = .ok (dm, gs) →
        ∃ l, (d.book.step d.read .list).2 = .sheets l ∧ l.map (Option.map SheetObj.cells) = gs.map fun s => some s.grid) ∧
      (∀ e, openStream E ragged mem base = .error e → (d.book.step d.read .list).2 = .raised e)) := by
  unfold openStream openDemand
  cases hb : getbof mem base 5 with
  | error e => exact ⟨fun e' h => by cases h; rfl, fun d h => nomatch h⟩
  | ok p =>
    obtain ⟨bv, pos⟩ := p
    dsimp only
    by_cases h0 : bv = 0
    · rw [if_pos h0, if_pos h0]
      exact ⟨fun e' h => by cases h; rfl, fun d h => nomatch h⟩
    rw [if_neg h0, if_neg h0]
    by_cases h5 : bv < 50
    · rw [if_pos h5, if_pos h5]
      cases E.old bv mem base with
      | error e => exact ⟨fun e' h => by cases h; rfl, fun d h => nomatch h⟩
      | ok q => exact ⟨fun e' h => (nomatch h), fun d h hr => by cases h; cases hr⟩
    · rw [if_neg h5, if_neg h5]
      cases globalsLoop E bv base ((recordsAt mem pos).length + 1) (Globals.init E.names0) (recordsAt mem pos) with
      | error e => exact ⟨fun e' h => by cases h; rfl, fun d h => nomatch h⟩
      | ok G =>
        dsimp only
        refine ⟨fun e' h => (nomatch h), fun d h hr => ?_⟩
        cases h
        obtain ⟨i1, i2⟩ := iterFrom_demand (E := E) (bv := bv) (G := G) (ragged := ragged) (mem := mem) (suf := G.sheets) (pre := [])
          (b := ⟨G.sheets.map Prod.fst, G.sheets.map fun _ => none, G.sheets.length, G.sheets.map Prod.snd, false, G.countries⟩)
          rfl rfl rfl (by simp) (fun j _ hj => by
            rw [List.nil_append] at hj
            dsimp only
            rw [List.getElem?_map, List.getElem?_eq_getElem hj]
            rfl)
        unfold BookObj.step
        dsimp only [List.length_nil] at i1 i2 ⊢
        cases hs : getSheets E bv G ragged mem G.countries G.sheets with
        | error e =>
          refine ⟨fun dm gs h => (nomatch h), fun e' h => ?_⟩
          cases h
          have := i2 e hs
          revert this
          rcases BookObj.iterFrom (demandRead E bv G ragged mem)
            ⟨G.sheets.map Prod.fst, G.sheets.map fun _ => none, G.sheets.length, G.sheets.map Prod.snd, false, G.countries⟩
            0 G.sheets.length with ⟨b', x⟩
          intro this
          dsimp only at this
          subst this
          rfl
        | ok gs =>
          refine ⟨fun dm gs' h => ?_, fun e' h => (nomatch h)⟩
          cases h
          obtain ⟨l, h1, h2⟩ := i1 gs hs
          revert h1
          rcases BookObj.iterFrom (demandRead E bv G ragged mem)
            ⟨G.sheets.map Prod.fst, G.sheets.map fun _ => none, G.sheets.length, G.sheets.map Prod.snd, false, G.countries⟩
            0 G.sheets.length with ⟨b', x⟩
          intro h1
          dsimp only at h1
          subst h1
          refine ⟨_, rfl, ?_⟩
          have := congrArg (List.map some) h2
          simpa [List.map_map, Function.comp_def] using this

/-! ### Examples -/

/-- Whether what was opened meets the hypotheses. -/
def exDemandOk (d : Except Exc DemandBook) : Bool :=
  match d with
  | .ok d => d.book.env != (0, 0) && !d.book.released && d.book.nsheets == 1
  | .error _ => false

/-- The hypotheses can be met: the book of `C68`, with a COUNTRY record before its sheet. -/
example : (openStream exBookEnv false exBook 0).isOk = true ∧ exDemandOk (openDemand exBookEnv false exBook 0) = true := by decide +kernel

/-- Two sheets, the first with an empty COUNTRY record, the second with one that says something. -/
def exOrderBook : List UInt8 :=
  recordBytes (0x809, exBof 0x600 5) ++
  ([(0x85, leBytes 4 42 ++ [0, 0] ++ [1, 0, 0x53]), (0x85, leBytes 4 66 ++ [0, 0] ++ [1, 0, 0x54]), (0xA, [])] : List XRec).flatMap recordBytes ++
  recordBytes (0x809, exBof 0x600 0x10) ++ ([(0x8C, [0, 0, 0, 0]), (0xA, [])] : List XRec).flatMap recordBytes ++
  recordBytes (0x809, exBof 0x600 0x10) ++ ([(0x8C, [1, 0, 46, 0]), (0xA, [])] : List XRec).flatMap recordBytes

/-- What asking for the second sheet and then for the first gives: 0 for the sheet, 1 for an AssertionError. -/
def exOrderAsk (d : Except Exc DemandBook) (first : Int) : Nat :=
  match d with
  | .ok d =>
    match ((d.book.step d.read (.byIndex first)).1.step d.read (.byIndex (1 - first))).2 with
    | .sheet _ => 0
    | .raised .assertionError => 1
    | _ => 2
  | .error _ => 3

/-- Such files open at once, and on demand the sheets can be read in this order; in the other order the first sheet is an
AssertionError.  So the condition of `C107_same` is needed. -/
theorem C107_order : (openStream exBookEnv false exOrderBook 0).isOk = true ∧
    exOrderAsk (openDemand exBookEnv false exOrderBook 0) 0 = 0 ∧ exOrderAsk (openDemand exBookEnv false exOrderBook 0) 1 = 1 := by
  decide +kernel

end CP
