import Verif.Spec.BookAccess
import Verif.Props.SheetAccess
/-!
# C106: the sheets of an open book, whatever was loaded, unloaded or asked for before
-/

namespace CP
open Spec

variable {κ α : Type}

theorem index_cases (n : Nat) (i : Int) : (∃ k, IsIndexOf n i k) ∨ (i < -n ∨ n ≤ i) := by
  unfold IsIndexOf
  by_cases h : i < -n ∨ n ≤ i
  · exact .inr h
  · refine .inl ⟨if i < 0 then (i + n).toNat else i.toNat, ?_⟩
    split <;> omega

theorem pyIndex_at {l : List α} {i : Int} {k n : Nat} {x : α} (hn : l.length = n) (hi : IsIndexOf n i k) (hk : l[k]? = some x) :
    pyIndex l i = .ok x := by
  rw [pyIndex_names hn hi, pyIndex_nat hk]

theorem pyIndex_out {l : List α} {i : Int} {n : Nat} (hn : l.length = n) (hi : i < -n ∨ n ≤ i) : pyIndex l i = .error .indexError := by
  subst hn
  unfold pyIndex
  dsimp only
  by_cases h : i < 0
  · rw [if_pos h, if_pos (by omega)]
  · rw [if_neg h, if_neg h, List.getElem?_eq_none (by omega)]

theorem pySetItem_at {l : List α} {i : Int} {k n : Nat} {x : α} (hn : l.length = n) (hi : IsIndexOf n i k) :
    pySetItem l i x = .ok (l.set k x) := by
  subst hn
  obtain ⟨h1, h2⟩ := hi
  unfold pySetItem
  dsimp only
  have hj : (if i < 0 then i + (l.length : Int) else i) = k := by split <;> omega
  rw [hj, if_neg (by omega), Int.toNat_natCast]

theorem pySetItem_out {l : List α} {i : Int} {n : Nat} {x : α} (hn : l.length = n) (hi : i < -n ∨ n ≤ i) :
    pySetItem l i x = .error .indexError := by
  subst hn
  unfold pySetItem
  dsimp only
  rw [if_pos (by split <;> omega)]

/-- What holds in all states of a book. -/
structure BookInv (Good : κ → Prop) (read : κ → Int → List Char → κ × Except Exc α) (content : List (List Char × α)) (kind : BookKind) (rel : Bool) (b : BookObj κ α) : Prop where
  names : b.names = content.map Prod.fst
  nsheets : b.nsheets = content.length
  len : b.sheets.length = content.length
  cells : ∀ (k : Nat) o, b.sheets[k]? = some (some o) → ∃ name, content[k]? = some (name, o.cells)
  released : b.released = true ↔ kind = .whole ∨ rel = true
  places : kind = .onDemand → b.places.length = content.length ∧
    ∀ (k : Nat) pos name x, b.places[k]? = some pos → content[k]? = some (name, x) →
      ∀ env, Good env → ∃ env', Good env' ∧ read env pos name = (env', .ok x)
  good : kind = .onDemand → Good b.env
  xlsx : kind = .xlsx → b.places = []

section
variable {read : κ → Int → List Char → κ × Except Exc α} {content : List (List Char × α)} {kind : BookKind} {rel : Bool} {b : BookObj κ α} {Good : κ → Prop}

theorem openBook_inv (h : OpenBook read content kind b) : ∃ Good, BookInv Good read content kind false b := by
  cases h with
  | onDemand Good h1 h0 h2 =>
    refine ⟨Good, rfl, rfl, by simp, fun k o hk => ?_, by simp, fun _ => ⟨h1, h2⟩, (fun _ => h0), fun h => nomatch h⟩
    rw [List.getElem?_map] at hk
    cases hc : content[k]? with
    | none => rw [hc] at hk; cases hk
    | some c => rw [hc] at hk; cases hk
  | whole =>
    refine ⟨fun _ => True, rfl, rfl, by simp, fun k o hk => ?_, by simp, (fun h => nomatch h), (fun h => nomatch h), fun h => nomatch h⟩
    rw [List.getElem?_mapIdx] at hk
    cases hc : content[k]? with
    | none => rw [hc] at hk; cases hk
    | some c => rw [hc] at hk; cases hk; exact ⟨c.1, rfl⟩
  | xlsx =>
    refine ⟨fun _ => True, rfl, rfl, by simp, fun k o hk => ?_, by simp, (fun h => nomatch h), (fun h => nomatch h), fun _ => rfl⟩
    rw [List.getElem?_mapIdx] at hk
    cases hc : content[k]? with
    | none => rw [hc] at hk; cases hk
    | some c => rw [hc] at hk; cases hk; exact ⟨c.1, rfl⟩

/-- Setting an item to None or to what belongs there. -/
theorem BookInv.put (h : BookInv Good read content kind rel b) (k : Nat) (o : Option (SheetObj α))
    (ho : ∀ s, o = some s → ∃ name, content[k]? = some (name, s.cells)) {env : κ} (he : kind = .onDemand → Good env) :
    BookInv Good read content kind rel { b with sheets := b.sheets.set k o, env := env } := by
  refine ⟨h.names, h.nsheets, by simp [h.len], fun j s hj => ?_, h.released, h.places, he, h.xlsx⟩
  dsimp only at hj
  rw [List.getElem?_set] at hj
  split at hj
  · rename_i e
    subst e
    split at hj
    · exact ho s (Option.some.inj hj)
    · cases hj
  · exact h.cells j s hj

theorem content_at {i : Int} {k : Nat} (hi : IsIndexOf content.length i k) : ∃ name x, content[k]? = some (name, x) :=
  ⟨_, _, List.getElem?_eq_getElem hi.1⟩

/-- `get_sheet` of a book that can be read. -/
theorem getSheet_ok (h : BookInv Good read content kind rel b) (hr : Readable kind rel) {i : Int} {k : Nat} (hi : IsIndexOf content.length i k)
    {name : List Char} {x : α} (hc : content[k]? = some (name, x)) :
    ∃ env, Good env ∧ b.getSheet read i = ({ b with sheets := b.sheets.set k (some ⟨x, i⟩), env := env }, .ok ⟨x, i⟩) := by
  obtain ⟨hl, hp⟩ := h.places hr.1
  have hrel : ¬ b.released = true := by
    rw [h.released, hr.1, hr.2]
    rintro (e | e) <;> cases e
  obtain ⟨pos, hpos⟩ : ∃ pos, b.places[k]? = some pos := ⟨_, List.getElem?_eq_getElem (by rw [hl]; exact hi.1)⟩
  obtain ⟨env, he, hread⟩ := hp k pos name x hpos hc b.env (h.good hr.1)
  refine ⟨env, he, ?_⟩
  unfold BookObj.getSheet
  rw [if_neg hrel, pyIndex_at hl hi hpos]
  dsimp only
  rw [h.names, pyIndex_at (by simp) hi (x := name) (by rw [List.getElem?_map, hc]; rfl)]
  dsimp only
  rw [hread]
  dsimp only
  rw [pySetItem_at h.len hi]

/-- `get_sheet` of one that cannot, or out of range. -/
theorem getSheet_fails (h : BookInv Good read content kind rel b) (hr : ¬ Readable kind rel) (i : Int) :
    b.getSheet read i = (b, .error (noMore kind rel)) := by
  unfold BookObj.getSheet noMore
  by_cases hrel : b.released = true
  · rw [if_pos hrel, if_neg]
    rintro ⟨h1, h2⟩
    rw [h1, h2] at h
    rcases h.released.1 hrel with e | e <;> cases e
  · have h1 := mt h.released.2 hrel
    have h2 : rel = false := by cases rel; rfl; exact absurd (.inr rfl) h1
    have h3 : kind = .xlsx := by
      cases kind
      · exact absurd ⟨rfl, h2⟩ hr
      · exact absurd (.inl rfl) h1
      · rfl
    rw [if_neg hrel, if_pos ⟨h3, h2⟩, h.xlsx h3]
    have : pyIndex ([] : List Int) i = .error .indexError := pyIndex_out (n := 0) rfl (by omega)
    rw [this]

theorem getSheet_out (h : BookInv Good read content kind rel b) (hr : Readable kind rel) {i : Int} (hi : i < -content.length ∨ content.length ≤ i) :
    b.getSheet read i = (b, .error .indexError) := by
  have hrel : ¬ b.released = true := by
    rw [h.released, hr.1, hr.2]
    rintro (e | e) <;> cases e
  unfold BookObj.getSheet
  rw [if_neg hrel, pyIndex_out (h.places hr.1).1 hi]

theorem isLoaded_iff (h : BookInv Good read content kind rel b) {k : Nat} : IsLoaded read b k ↔ ∃ o, b.sheets[k]? = some (some o) := by
  unfold IsLoaded BookObj.step BookObj.loadedAns
  dsimp only
  cases hk : b.sheets[k]? with
  | none =>
    rw [pyIndex_nat_none hk]
    simp
  | some o =>
    rw [pyIndex_nat hk]
    cases o <;> simp

/-- `sheet_by_index`. -/
theorem sheetByIndex_spec (h : BookInv Good read content kind rel b) {i : Int} {k : Nat} (hi : IsIndexOf content.length i k)
    {name : List Char} {x : α} (hc : content[k]? = some (name, x)) :
    (∃ o, b.sheets[k]? = some (some o) ∧ o.cells = x ∧ b.sheetByIndex read i = (b, .ok o)) ∨
    (b.sheets[k]? = some none ∧ Readable kind rel ∧ ∃ env, Good env ∧
      b.sheetByIndex read i = ({ b with sheets := b.sheets.set k (some ⟨x, i⟩), env := env }, .ok ⟨x, i⟩)) ∨
    (b.sheets[k]? = some none ∧ ¬ Readable kind rel ∧ b.sheetByIndex read i = (b, .error (noMore kind rel))) := by
  obtain ⟨o, ho⟩ : ∃ o, b.sheets[k]? = some o := ⟨_, List.getElem?_eq_getElem (by rw [h.len]; exact hi.1)⟩
  unfold BookObj.sheetByIndex
  rw [pyIndex_at h.len hi ho]
  cases o with
  | some o =>
    obtain ⟨name', e⟩ := h.cells k o ho
    rw [hc] at e
    exact .inl ⟨o, ho, by cases e; rfl, rfl⟩
  | none =>
    dsimp only
    rcases Classical.em (Readable kind rel) with hr | hr
    · exact .inr (.inl ⟨ho, hr, getSheet_ok h hr hi hc⟩)
    · exact .inr (.inr ⟨ho, hr, getSheet_fails h hr i⟩)

theorem sheetByIndex_out (h : BookInv Good read content kind rel b) {i : Int} (hi : i < -content.length ∨ content.length ≤ i) :
    b.sheetByIndex read i = (b, .error .indexError) := by
  unfold BookObj.sheetByIndex
  rw [pyIndex_out h.len hi]

theorem nameIndex_spec (h : BookInv Good read content kind rel b) (s : List Char) :
    (∃ k : Nat, FirstSheetNamed content s k ∧ b.nameIndex s = .ok k) ∨ (s ∉ content.map Prod.fst ∧ b.nameIndex s = .error .xlrdError) := by
  unfold BookObj.nameIndex
  rw [h.names]
  cases hf : (content.map Prod.fst).findIdx? (fun n => n = s) with
  | none =>
    refine .inr ⟨fun hm => ?_, rfl⟩
    rw [List.findIdx?_eq_none_iff] at hf
    have := hf s hm
    simp at this
  | some k =>
    obtain ⟨hk, h1, h2⟩ := List.findIdx?_eq_some_iff_getElem.1 hf
    rw [List.length_map] at hk
    refine .inl ⟨k, ⟨⟨content[k].2, ?_⟩, fun j x hj e => ?_⟩, rfl⟩
    · simp only [List.getElem_map, decide_eq_true_eq] at h1
      rw [List.getElem?_eq_getElem hk, ← h1]
    · have := h2 j hj
      obtain ⟨hj', e'⟩ := List.getElem?_eq_some_iff.1 e
      simp [e'] at this

theorem firstSheet_lt {s : List Char} {k : Nat} (h : FirstSheetNamed content s k) : k < content.length := by
  obtain ⟨⟨x, e⟩, _⟩ := h
  exact (List.getElem?_eq_some_iff.1 e).1

theorem firstSheet_unique {s : List Char} {j k : Nat} (h1 : FirstSheetNamed content s j) (h2 : FirstSheetNamed content s k) : j = k := by
  obtain ⟨⟨x, e⟩, h1⟩ := h1
  obtain ⟨⟨y, e'⟩, h2⟩ := h2
  rcases Nat.lt_trichotomy j k with h | h | h
  · exact absurd e (h2 j x h)
  · exact h
  · exact absurd e' (h1 k y h)

theorem index_unique {n : Nat} {i : Int} {j k : Nat} (h1 : IsIndexOf n i j) (h2 : IsIndexOf n i k) : j = k := by
  unfold IsIndexOf at h1 h2
  omega

theorem index_nat {n k : Nat} (h : k < n) : IsIndexOf n (k : Int) k := ⟨h, .inl rfl⟩

theorem index_nat_iff {n k j : Nat} : IsIndexOf n (k : Int) j ↔ j = k ∧ k < n := by
  unfold IsIndexOf
  omega

/-- One access keeps the invariant, and loads the sheet if need be. -/
theorem sheetByIndex_inv (h : BookInv Good read content kind rel b) (i : Int) : BookInv Good read content kind rel (b.sheetByIndex read i).1 ∧
    ∀ j : Nat, (∃ o, (b.sheetByIndex read i).1.sheets[j]? = some (some o)) ↔
      (∃ o, b.sheets[j]? = some (some o)) ∨ (IsIndexOf content.length i j ∧ Readable kind rel) := by
  rcases index_cases content.length i with ⟨k, hi⟩ | hi
  · obtain ⟨name, x, hc⟩ := content_at hi
    rcases sheetByIndex_spec h hi hc with ⟨o, h1, h2, h3⟩ | ⟨h1, h2, env, he, h3⟩ | ⟨h1, h2, h3⟩
    · rw [h3]
      refine ⟨h, fun j => ⟨.inl, ?_⟩⟩
      rintro (hj | ⟨hj, _⟩)
      · exact hj
      · rw [index_unique hj hi]; exact ⟨o, h1⟩
    · rw [h3]
      refine ⟨h.put k _ (fun s hs => ?_) (fun _ => he), fun j => ?_⟩
      · cases hs; exact ⟨name, hc⟩
      · dsimp only
        rw [List.getElem?_set]
        by_cases e : k = j
        · subst e
          rw [if_pos rfl, if_pos (by rw [h.len]; exact hi.1)]
          exact ⟨fun _ => .inr ⟨hi, h2⟩, fun _ => ⟨_, rfl⟩⟩
        · rw [if_neg e]
          exact ⟨.inl, fun hj => hj.resolve_right fun hj => e (index_unique hi hj.1)⟩
    · rw [h3]
      exact ⟨h, fun j => ⟨.inl, fun hj => hj.resolve_right fun hj => h2 hj.2⟩⟩
  · rw [sheetByIndex_out h hi]
    refine ⟨h, fun j => ⟨.inl, fun hj => hj.resolve_right fun hj => ?_⟩⟩
    have := hj.1
    unfold IsIndexOf at this
    omega

theorem getSheet_inv (h : BookInv Good read content kind rel b) (i : Int) : BookInv Good read content kind rel (b.getSheet read i).1 ∧
    ∀ j : Nat, (∃ o, (b.getSheet read i).1.sheets[j]? = some (some o)) ↔
      (∃ o, b.sheets[j]? = some (some o)) ∨ (IsIndexOf content.length i j ∧ Readable kind rel) := by
  rcases Classical.em (Readable kind rel) with hr | hr
  · rcases index_cases content.length i with ⟨k, hi⟩ | hi
    · obtain ⟨name, x, hc⟩ := content_at hi
      obtain ⟨env, he, h3⟩ := getSheet_ok h hr hi hc
      rw [h3]
      refine ⟨h.put k _ (fun s hs => ?_) (fun _ => he), fun j => ?_⟩
      · cases hs; exact ⟨name, hc⟩
      · dsimp only
        rw [List.getElem?_set]
        by_cases e : k = j
        · subst e
          rw [if_pos rfl, if_pos (by rw [h.len]; exact hi.1)]
          exact ⟨fun _ => .inr ⟨hi, hr⟩, fun _ => ⟨_, rfl⟩⟩
        · rw [if_neg e]
          exact ⟨.inl, fun hj => hj.resolve_right fun hj => e (index_unique hi hj.1)⟩
    · rw [getSheet_out h hr hi]
      refine ⟨h, fun j => ⟨.inl, fun hj => hj.resolve_right fun hj => ?_⟩⟩
      have := hj.1
      unfold IsIndexOf at this
      omega
  · rw [getSheet_fails h hr i]
    exact ⟨h, fun j => ⟨.inl, fun hj => hj.resolve_right fun hj => hr hj.2⟩⟩

theorem iterFrom_cons {b' : BookObj κ α} {k n : Nat} {s : SheetObj α} (h : b.sheetByIndex read (k : Int) = (b', .ok s)) :
    b.iterFrom read k (n + 1) = ((b'.iterFrom read (k + 1) n).1, (b'.iterFrom read (k + 1) n).2.map (s :: ·)) := by
  rw [BookObj.iterFrom, h]
  dsimp only
  rcases b'.iterFrom read (k + 1) n with ⟨b'', _ | _⟩ <;> rfl

theorem iterFrom_fails {b' : BookObj κ α} {k n : Nat} {e : Exc} (h : b.sheetByIndex read (k : Int) = (b', .error e)) :
    b.iterFrom read k (n + 1) = (b', .error e) := by
  rw [BookObj.iterFrom, h]

/-- What `list(book)` does, from place `k` on. -/
theorem iterFrom_spec (n : Nat) : ∀ {b : BookObj κ α} {k : Nat}, BookInv Good read content kind rel b → k + n = content.length →
    BookInv Good read content kind rel (b.iterFrom read k n).1 ∧
    (∀ j : Nat, (∃ o, (b.iterFrom read k n).1.sheets[j]? = some (some o)) ↔
      (∃ o, b.sheets[j]? = some (some o)) ∨ (k ≤ j ∧ j < content.length ∧ Readable kind rel)) ∧
    ((Readable kind rel ∨ ∀ j, k ≤ j → j < content.length → ∃ o, b.sheets[j]? = some (some o)) →
      ∃ l, (b.iterFrom read k n).2 = .ok l ∧ l.map SheetObj.cells = (content.drop k).map Prod.snd) ∧
    (¬ (Readable kind rel ∨ ∀ j, k ≤ j → j < content.length → ∃ o, b.sheets[j]? = some (some o)) →
      (b.iterFrom read k n).2 = .error (noMore kind rel)) := by
  induction n with
  | zero =>
    intro b k h hk
    unfold BookObj.iterFrom
    refine ⟨h, fun j => ⟨.inl, fun hj => hj.resolve_right fun hj => by omega⟩, fun _ => ⟨[], rfl, ?_⟩, fun hn => ?_⟩
    · rw [List.drop_of_length_le (by omega)]; rfl
    · exact absurd (.inr fun j h1 h2 => by omega) hn
  | succ n ih =>
    intro b k h hk
    have hi : IsIndexOf content.length (k : Int) k := index_nat (by omega)
    obtain ⟨name, x, hc⟩ := content_at hi
    have hdrop : (content.drop k).map Prod.snd = x :: (content.drop (k + 1)).map Prod.snd := by
      rw [List.drop_eq_getElem_cons hi.1, List.map_cons]
      rw [List.getElem?_eq_getElem hi.1] at hc
      rw [Option.some.inj hc]
    obtain ⟨v1, v2⟩ := sheetByIndex_inv h (k : Int)
    rcases sheetByIndex_spec h hi hc with ⟨o, h1, h2, h3⟩ | ⟨h1, h2, env, he, h3⟩ | ⟨h1, h2, h3⟩
    · rw [iterFrom_cons h3]
      dsimp only
      obtain ⟨i1, i2, i3, i4⟩ := ih (b := b) (k := k + 1) h (by omega)
      have eqv : (Readable kind rel ∨ ∀ j, k ≤ j → j < content.length → ∃ o, b.sheets[j]? = some (some o)) ↔
          (Readable kind rel ∨ ∀ j, k + 1 ≤ j → j < content.length → ∃ o, b.sheets[j]? = some (some o)) := by
        refine or_congr_right ⟨fun hh j a c => hh j (by omega) c, fun hh j a c => ?_⟩
        by_cases e : j = k
        · subst e; exact ⟨o, h1⟩
        · exact hh j (by omega) c
      refine ⟨?_, fun j => ?_, fun hh => ?_, fun hn => ?_⟩
      · exact i1
      · rw [i2]
        refine ⟨fun hj => hj.imp id fun hj => ⟨by omega, hj.2⟩, fun hj => ?_⟩
        rcases hj with hj | hj
        · exact .inl hj
        · by_cases e : j = k
          · subst e; exact .inl ⟨o, h1⟩
          · exact .inr ⟨by omega, hj.2⟩
      · obtain ⟨l, e1, e2⟩ := i3 (eqv.1 hh)
        rw [e1]
        exact ⟨o :: l, rfl, by rw [hdrop, List.map_cons, h2, e2]⟩
      · have e1 := i4 (mt eqv.2 hn)
        rw [e1]
        rfl
    · rw [iterFrom_cons h3]
      rw [h3] at v1 v2
      dsimp only at v1 v2 ⊢
      obtain ⟨i1, i2, i3, i4⟩ := ih (k := k + 1) v1 (by omega)
      refine ⟨?_, fun j => ?_, fun hh => ?_, fun hn => absurd (.inl h2) hn⟩
      · exact i1
      · rw [i2, v2, index_nat_iff]
        constructor
        · rintro ((hj | hj) | hj)
          · exact .inl hj
          · exact .inr ⟨by omega, by omega, h2⟩
          · exact .inr ⟨by omega, hj.2⟩
        · rintro (hj | hj)
          · exact .inl (.inl hj)
          · by_cases e : j = k
            · exact .inl (.inr ⟨⟨e, hi.1⟩, h2⟩)
            · exact .inr ⟨by omega, hj.2⟩
      · obtain ⟨l, e1, e2⟩ := i3 (.inl h2)
        rw [e1]
        exact ⟨⟨x, (k : Int)⟩ :: l, rfl, by rw [hdrop, List.map_cons, e2]⟩
    · rw [iterFrom_fails h3]
      dsimp only
      refine ⟨h, fun j => ⟨.inl, fun hj => hj.resolve_right fun hj => h2 hj.2.2⟩, fun hh => ?_, fun _ => rfl⟩
      obtain ⟨o, e⟩ := (hh.resolve_left h2) k (Nat.le_refl _) hi.1
      rw [h1] at e
      cases e

/-- The loop of `sheets` leaves the book as `list(book)` does, and fails just when that does. -/
theorem loadFrom_iter (n : Nat) : ∀ {b : BookObj κ α} {k : Nat},
    b.loadFrom read k n = ((b.iterFrom read k n).1, (b.iterFrom read k n).2.map fun _ => ()) := by
  induction n with
  | zero => intro b k; rfl
  | succ n ih =>
    intro b k
    unfold BookObj.loadFrom BookObj.iterFrom BookObj.sheetByIndex
    cases hp : pyIndex b.sheets (k : Int) with
    | error e => rfl
    | ok o =>
      cases o with
      | some o =>
        dsimp only
        rw [ih]
        rcases b.iterFrom read (k + 1) n with ⟨b', _ | _⟩ <;> rfl
      | none =>
        dsimp only
        rcases b.getSheet read (k : Int) with ⟨b', _ | s⟩
        · rfl
        · dsimp only
          rw [ih]
          rcases b'.iterFrom read (k + 1) n with ⟨b'', _ | _⟩ <;> rfl

theorem unload_inv (h : BookInv Good read content kind rel b) (i : Int) : BookInv Good read content kind rel (b.unloadAns i).1 ∧
    ∀ j : Nat, (∃ o, (b.unloadAns i).1.sheets[j]? = some (some o)) ↔ (∃ o, b.sheets[j]? = some (some o)) ∧ ¬ IsIndexOf content.length i j := by
  unfold BookObj.unloadAns
  rcases index_cases content.length i with ⟨k, hi⟩ | hi
  · rw [pySetItem_at h.len hi]
    refine ⟨h.put k none (fun s hs => nomatch hs) h.good, fun j => ?_⟩
    dsimp only
    rw [List.getElem?_set]
    by_cases e : k = j
    · subst e
      rw [if_pos rfl, if_pos (by rw [h.len]; exact hi.1)]
      exact ⟨(fun ⟨o, ho⟩ => nomatch ho), fun hj => absurd hi hj.2⟩
    · rw [if_neg e]
      exact ⟨fun hj => ⟨hj, fun hij => e (index_unique hi hij)⟩, fun hj => hj.1⟩
  · rw [pySetItem_out h.len hi]
    refine ⟨h, fun j => ⟨fun hj => ⟨hj, fun hij => ?_⟩, fun hj => hj.1⟩⟩
    unfold IsIndexOf at hij
    omega

theorem sheetAns_fst (r : BookObj κ α × Except Exc (SheetObj α)) : (sheetAns r).1 = r.1 := by
  obtain ⟨b, _ | _⟩ := r <;> rfl

theorem firstSheet_index {s : List Char} {k j : Nat} (h : FirstSheetNamed content s k) :
    IsIndexOf content.length (k : Int) j ↔ FirstSheetNamed content s j := by
  rw [index_nat_iff]
  exact ⟨fun e => e.1 ▸ h, fun hj => ⟨firstSheet_unique hj h, firstSheet_lt h⟩⟩

theorem notNamed {s : List Char} (h : s ∉ content.map Prod.fst) (j : Nat) : ¬ FirstSheetNamed content s j := by
  rintro ⟨⟨x, e⟩, _⟩
  exact h (List.mem_map.2 ⟨(s, x), List.mem_of_getElem? e, rfl⟩)

/-- What a step other than `release_resources` leaves. -/
theorem step_inv (h : BookInv Good read content kind rel b) {op : BookOp} (ho : op ≠ .release) :
    BookInv Good read content kind rel (b.step read op).1 ∧
    ∀ j : Nat, (∃ o, (b.step read op).1.sheets[j]? = some (some o)) ↔
      ((∃ o, b.sheets[j]? = some (some o)) ∧ ¬ Unloads content j op) ∨ (AsksFor content j op ∧ Readable kind rel) := by
  have same : ∀ {b' : BookObj κ α}, b' = b → (∀ j, ¬ Unloads content j op) → (∀ j, ¬ AsksFor content j op) →
      BookInv Good read content kind rel b' ∧ ∀ j : Nat, (∃ o, b'.sheets[j]? = some (some o)) ↔
      ((∃ o, b.sheets[j]? = some (some o)) ∧ ¬ Unloads content j op) ∨ (AsksFor content j op ∧ Readable kind rel) := by
    intro b' e h1 h2
    subst e
    exact ⟨h, fun j => ⟨fun hj => .inl ⟨hj, h1 j⟩, fun hj => hj.elim (fun a => a.1) fun a => absurd a.1 (h2 j)⟩⟩
  have all : ∀ {b' : BookObj κ α}, b' = (b.iterFrom read 0 b.nsheets).1 → (∀ j, ¬ Unloads content j op) →
      (∀ j, AsksFor content j op ↔ j < content.length) →
      BookInv Good read content kind rel b' ∧ ∀ j : Nat, (∃ o, b'.sheets[j]? = some (some o)) ↔
      ((∃ o, b.sheets[j]? = some (some o)) ∧ ¬ Unloads content j op) ∨ (AsksFor content j op ∧ Readable kind rel) := by
    intro b' e h1 h2
    subst e
    rw [h.nsheets]
    obtain ⟨i1, i2, _⟩ := iterFrom_spec content.length (k := 0) h (by omega)
    refine ⟨i1, fun j => ?_⟩
    rw [i2, h2]
    exact ⟨fun hj => hj.imp (fun a => ⟨a, h1 j⟩) fun a => a.2, fun hj => hj.imp (fun a => a.1) fun a => ⟨Nat.zero_le _, a⟩⟩
  cases op with
  | sheets =>
    refine all ?_ (fun _ => id) (fun _ => Iff.rfl)
    unfold BookObj.step
    dsimp only
    rw [loadFrom_iter]
    rcases b.iterFrom read 0 b.nsheets with ⟨b', _ | _⟩ <;> rfl
  | list =>
    refine all ?_ (fun _ => id) (fun _ => Iff.rfl)
    unfold BookObj.step
    dsimp only
    rcases b.iterFrom read 0 b.nsheets with ⟨b', _ | _⟩ <;> rfl
  | byIndex i =>
    unfold BookObj.step
    dsimp only
    rw [sheetAns_fst]
    obtain ⟨v1, v2⟩ := sheetByIndex_inv h i
    exact ⟨v1, fun j => (v2 j).trans ⟨fun hj => hj.imp (fun a => ⟨a, id⟩) id, fun hj => hj.imp (fun a => a.1) id⟩⟩
  | get i =>
    unfold BookObj.step
    dsimp only
    rw [sheetAns_fst]
    obtain ⟨v1, v2⟩ := getSheet_inv h i
    exact ⟨v1, fun j => (v2 j).trans ⟨fun hj => hj.imp (fun a => ⟨a, id⟩) id, fun hj => hj.imp (fun a => a.1) id⟩⟩
  | byName s =>
    have e : (b.step read (.byName s)).1 = (b.sheetByName read s).1 := sheetAns_fst _
    unfold BookObj.sheetByName at e
    rcases nameIndex_spec h s with ⟨k, hk, e'⟩ | ⟨hs, e'⟩
    · rw [e'] at e
      rw [e]
      obtain ⟨v1, v2⟩ := sheetByIndex_inv h (k : Int)
      refine ⟨v1, fun j => ?_⟩
      rw [v2, firstSheet_index hk]
      exact ⟨fun hj => hj.imp (fun a => ⟨a, id⟩) id, fun hj => hj.imp (fun a => a.1) id⟩
    · rw [e'] at e
      exact same e (fun _ => id) (notNamed hs)
  | names => exact same rfl (fun _ => id) (fun _ => id)
  | loaded i => exact same rfl (fun _ => id) (fun _ => id)
  | loadedName s =>
    refine same ?_ (fun _ => id) (fun _ => id)
    unfold BookObj.step
    dsimp only
    cases b.nameIndex s <;> rfl
  | unload i =>
    obtain ⟨v1, v2⟩ := unload_inv h i
    exact ⟨v1, fun j => (v2 j).trans ⟨.inl, fun hj => hj.resolve_right fun a => a.1⟩⟩
  | unloadName s =>
    unfold BookObj.step
    dsimp only
    rcases nameIndex_spec h s with ⟨k, hk, e'⟩ | ⟨hs, e'⟩
    · rw [e']
      obtain ⟨v1, v2⟩ := unload_inv h (k : Int)
      refine ⟨v1, fun j => (v2 j).trans ?_⟩
      rw [firstSheet_index hk]
      exact ⟨.inl, fun hj => hj.resolve_right fun a => a.1⟩
    · rw [e']
      exact same rfl (notNamed hs) (fun _ => id)
  | release => exact absurd rfl ho

theorem reached_inv (h : BookReached read content kind rel b) : ∃ Good, BookInv Good read content kind rel b := by
  induction h with
  | opened h => exact openBook_inv h
  | step _ ho ih => exact ih.imp fun _ ih => (step_inv ih ho).1
  | release _ ih =>
    obtain ⟨Good, ih⟩ := ih
    refine ⟨Good, ih.names, ih.nsheets, ih.len, ih.cells, ?_, ih.places, ih.good, ih.xlsx⟩
    show true = true ↔ _
    simp

/-! ### The theorems -/

/-- C106: `sheet_by_index(i)` (or `book[i]`) gives the sheet that the file has at that place, counted from the start or
from the end, whatever was done before, if it is loaded or can be read; otherwise it raises an exception. -/
theorem C106_by_index (h : BookReached read content kind rel b) (i : Int) :
    (∀ k name x, IsIndexOf content.length i k → content[k]? = some (name, x) →
      (IsLoaded read b k ∨ Readable kind rel → ∃ n, (b.step read (.byIndex i)).2 = .sheet ⟨x, n⟩) ∧
      (¬ (IsLoaded read b k ∨ Readable kind rel) → (b.step read (.byIndex i)).2 = .raised (noMore kind rel))) ∧
    ((i < -content.length ∨ content.length ≤ i) → (b.step read (.byIndex i)).2 = .raised .indexError) := by
  obtain ⟨Good, hb⟩ := reached_inv h
  refine ⟨fun k name x hi hc => ?_, fun hi => ?_⟩
  · rw [isLoaded_iff hb]
    show (_ → ∃ n, (sheetAns (b.sheetByIndex read i)).2 = _) ∧ (_ → (sheetAns (b.sheetByIndex read i)).2 = _)
    rcases sheetByIndex_spec hb hi hc with ⟨o, h1, h2, h3⟩ | ⟨h1, h2, env, he, h3⟩ | ⟨h1, h2, h3⟩
    · rw [h3]
      exact ⟨fun _ => ⟨o.number, by rw [← h2]; rfl⟩, fun hn => absurd (.inl ⟨o, h1⟩) hn⟩
    · rw [h3]
      exact ⟨fun _ => ⟨i, rfl⟩, fun hn => absurd (.inr h2) hn⟩
    · rw [h3]
      refine ⟨?_, fun _ => rfl⟩
      rintro (⟨o, e⟩ | hr)
      · rw [h1] at e; cases e
      · exact absurd hr h2
  · show (sheetAns (b.sheetByIndex read i)).2 = _
    rw [sheetByIndex_out hb hi]
    rfl

/-- `sheet_by_name` is `sheet_by_index` of the first sheet with the name, and XLRDError if there is none. -/
theorem C106_by_name (h : BookReached read content kind rel b) (s : List Char) :
    (∀ k, FirstSheetNamed content s k → b.step read (.byName s) = b.step read (.byIndex k)) ∧
    (s ∉ content.map Prod.fst → (b.step read (.byName s)).2 = .raised .xlrdError) := by
  obtain ⟨Good, hb⟩ := reached_inv h
  unfold BookObj.step BookObj.sheetByName
  dsimp only
  rcases nameIndex_spec hb s with ⟨k, hk, e'⟩ | ⟨hs, e'⟩
  · rw [e']
    refine ⟨fun j hj => by rw [firstSheet_unique hj hk], fun hn => absurd hk (notNamed hn k)⟩
  · rw [e']
    exact ⟨fun j hj => absurd hj (notNamed hs j), fun _ => rfl⟩

/-- `sheets()` and `list(book)` give all sheets of the file in order, if all are loaded or can be read; otherwise they raise
an exception. -/
theorem C106_all (h : BookReached read content kind rel b) {op : BookOp} (ho : op = .sheets ∨ op = .list) :
    ((Readable kind rel ∨ ∀ j, j < content.length → IsLoaded read b j) → ∃ l, (b.step read op).2 = .sheets l ∧
      l.map (Option.map SheetObj.cells) = content.map fun c => some c.2) ∧
    (¬ (Readable kind rel ∨ ∀ j, j < content.length → IsLoaded read b j) → (b.step read op).2 = .raised (noMore kind rel)) := by
  obtain ⟨Good, hb⟩ := reached_inv h
  obtain ⟨i1, i2, i3, i4⟩ := iterFrom_spec content.length (k := 0) hb (by omega)
  have eqv : (Readable kind rel ∨ ∀ j, j < content.length → IsLoaded read b j) ↔
      (Readable kind rel ∨ ∀ j, 0 ≤ j → j < content.length → ∃ o, b.sheets[j]? = some (some o)) :=
    or_congr_right ⟨fun hh j _ a => (isLoaded_iff hb).1 (hh j a), fun hh j a => (isLoaded_iff hb).2 (hh j (Nat.zero_le _) a)⟩
  rw [eqv]
  rcases ho with rfl | rfl
  · unfold BookObj.step
    dsimp only
    rw [hb.nsheets, loadFrom_iter]
    refine ⟨fun hh => ?_, fun hn => ?_⟩
    · obtain ⟨l, e, _⟩ := i3 hh
      rw [e]
      refine ⟨_, rfl, List.ext_getElem? fun j => ?_⟩
      rw [List.getElem?_map, List.getElem?_map]
      by_cases hj : j < content.length
      · obtain ⟨o, ho⟩ := (i2 j).2 (by
          rcases hh with hh | hh
          · exact .inr ⟨Nat.zero_le _, hj, hh⟩
          · exact .inl (hh j (Nat.zero_le _) hj))
        obtain ⟨name, hc⟩ := i1.cells j o ho
        rw [ho, hc]
        rfl
      · rw [List.getElem?_eq_none (by rw [i1.len]; omega), List.getElem?_eq_none (by omega)]
        rfl
    · rw [i4 hn]
      rfl
  · unfold BookObj.step
    dsimp only
    rw [hb.nsheets]
    refine ⟨fun hh => ?_, fun hn => ?_⟩
    · obtain ⟨l, e, e2⟩ := i3 hh
      cases hr : b.iterFrom read 0 content.length with
      | mk b' r =>
        rw [hr] at e
        dsimp only at e
        rw [e]
        refine ⟨_, rfl, ?_⟩
        rw [List.drop_zero] at e2
        have := congrArg (List.map some) e2
        simpa [List.map_map, Function.comp_def] using this
    · have e := i4 hn
      cases hr : b.iterFrom read 0 content.length with
      | mk b' r =>
        rw [hr] at e
        dsimp only at e
        rw [e]

/-- `get_sheet(i)` reads the sheet anew if sheets can be read; otherwise it raises an exception, be the sheet loaded or not. -/
theorem C106_get (h : BookReached read content kind rel b) (i : Int) :
    (∀ k name x, IsIndexOf content.length i k → content[k]? = some (name, x) → Readable kind rel →
      (b.step read (.get i)).2 = .sheet ⟨x, i⟩) ∧
    (Readable kind rel → (i < -content.length ∨ content.length ≤ i) → (b.step read (.get i)).2 = .raised .indexError) ∧
    (¬ Readable kind rel → (b.step read (.get i)).2 = .raised (noMore kind rel)) := by
  obtain ⟨Good, hb⟩ := reached_inv h
  show (∀ k name x, _ → _ → _ → (sheetAns (b.getSheet read i)).2 = _) ∧ (_ → _ → (sheetAns (b.getSheet read i)).2 = _) ∧
    (_ → (sheetAns (b.getSheet read i)).2 = _)
  refine ⟨fun k name x hi hc hr => ?_, fun hr hi => ?_, fun hr => ?_⟩
  · obtain ⟨env, _, h3⟩ := getSheet_ok hb hr hi hc
    rw [h3]; rfl
  · rw [getSheet_out hb hr hi]; rfl
  · rw [getSheet_fails hb hr]; rfl

/-- `unload_sheet` and `sheet_loaded` raise exceptions just for indexes out of range and for unknown names; by name they
do what they do for the first sheet with the name. -/
theorem C106_unload (h : BookReached read content kind rel b) :
    (∀ i k, IsIndexOf content.length i k → (b.step read (.unload i)).2 = .nothing ∧
      (b.step read (.loaded i)).2 = (b.step read (.loaded k)).2 ∧ ∃ t, (b.step read (.loaded i)).2 = .truth t) ∧
    (∀ i : Int, (i < -content.length ∨ content.length ≤ i) →
      (b.step read (.unload i)).2 = .raised .indexError ∧ (b.step read (.loaded i)).2 = .raised .indexError) ∧
    (∀ s k, FirstSheetNamed content s k →
      b.step read (.unloadName s) = b.step read (.unload k) ∧ b.step read (.loadedName s) = b.step read (.loaded k)) ∧
    (∀ s, s ∉ content.map Prod.fst →
      (b.step read (.unloadName s)).2 = .raised .xlrdError ∧ (b.step read (.loadedName s)).2 = .raised .xlrdError) := by
  obtain ⟨Good, hb⟩ := reached_inv h
  unfold BookObj.step BookObj.unloadAns BookObj.loadedAns
  dsimp only
  refine ⟨fun i k hi => ?_, fun i hi => ?_, fun s k hk => ?_, fun s hs => ?_⟩
  · obtain ⟨o, ho⟩ : ∃ o, b.sheets[k]? = some o := ⟨_, List.getElem?_eq_getElem (by rw [hb.len]; exact hi.1)⟩
    rw [pySetItem_at hb.len hi, pyIndex_at hb.len hi ho, pyIndex_nat ho]
    exact ⟨rfl, rfl, _, rfl⟩
  · rw [pySetItem_out hb.len hi, pyIndex_out hb.len hi]
    exact ⟨rfl, rfl⟩
  · rcases nameIndex_spec hb s with ⟨j, hj, e⟩ | ⟨hs, e⟩
    · rw [e, firstSheet_unique hk hj]
      exact ⟨rfl, rfl⟩
    · exact absurd hk (notNamed hs k)
  · rcases nameIndex_spec hb s with ⟨j, hj, e⟩ | ⟨_, e⟩
    · exact absurd hj (notNamed hs j)
    · rw [e]
      exact ⟨rfl, rfl⟩

/-- The names are those of the file at all times. -/
theorem C106_names (h : BookReached read content kind rel b) : (b.step read .names).2 = .names (content.map Prod.fst) := by
  obtain ⟨Good, hb⟩ := reached_inv h
  exact congrArg BookAns.names hb.names

/-- Which sheets are loaded after a step: those that were and are not unloaded, and those asked for if they can be read. -/
theorem C106_loaded (h : BookReached read content kind rel b) (op : BookOp) (k : Nat) :
    IsLoaded read (b.step read op).1 k ↔
      (IsLoaded read b k ∧ ¬ Unloads content k op) ∨ (AsksFor content k op ∧ Readable kind rel) := by
  obtain ⟨Good, hb⟩ := reached_inv h
  by_cases ho : op = .release
  · subst ho
    obtain ⟨Good', this⟩ := reached_inv (BookReached.release h)
    rw [isLoaded_iff this, isLoaded_iff hb]
    show (∃ o, b.sheets[k]? = some (some o)) ↔ _
    exact ⟨fun hj => .inl ⟨hj, id⟩, fun hj => hj.elim (fun a => a.1) fun a => a.1.elim⟩
  · obtain ⟨v1, v2⟩ := step_inv hb ho
    rw [isLoaded_iff v1, isLoaded_iff hb]
    exact v2 k

/-- At first all sheets are loaded, or none if the book is opened on demand. -/
theorem C106_first (h : OpenBook read content kind b) (k : Nat) : IsLoaded read b k ↔ k < content.length ∧ kind ≠ .onDemand := by
  obtain ⟨Good, hb⟩ := openBook_inv h
  rw [isLoaded_iff hb]
  cases h with
  | onDemand _ _ _ _ =>
    dsimp only
    rw [List.getElem?_map]
    refine ⟨fun ⟨o, ho⟩ => ?_, fun hk => absurd rfl hk.2⟩
    cases hc : content[k]? with
    | none => rw [hc] at ho; cases ho
    | some c => rw [hc] at ho; cases ho
  | whole =>
    dsimp only
    rw [List.getElem?_mapIdx]
    refine ⟨fun ⟨o, ho⟩ => ?_, fun hk => ?_⟩
    · cases hc : content[k]? with
      | none => rw [hc] at ho; cases ho
      | some c => exact ⟨(List.getElem?_eq_some_iff.1 hc).1, by decide⟩
    · rw [List.getElem?_eq_getElem hk.1]
      exact ⟨_, rfl⟩
  | xlsx =>
    dsimp only
    rw [List.getElem?_mapIdx]
    refine ⟨fun ⟨o, ho⟩ => ?_, fun hk => ?_⟩
    · cases hc : content[k]? with
      | none => rw [hc] at ho; cases ho
      | some c => exact ⟨(List.getElem?_eq_some_iff.1 hc).1, by decide⟩
    · rw [List.getElem?_eq_getElem hk.1]
      exact ⟨_, rfl⟩

end

/-! ### Examples -/

/-- A file with the sheets `a` and `b` at the positions 10 and 20. -/
def exShelfRead (n : Nat) (pos : Int) (_ : List Char) : Nat × Except Exc Nat :=
  (n + 1, if pos = 10 then .ok 1 else if pos = 20 then .ok 2 else .error .xlrdError)

def exShelf : BookObj Nat Nat := ⟨[['a'], ['b']], [none, none], 2, [10, 20], false, 0⟩

/-- The hypotheses can be met. -/
theorem exShelf_open : OpenBook exShelfRead [(['a'], 1), (['b'], 2)] .onDemand exShelf := by
  refine .onDemand (fun _ => True) rfl trivial fun k pos name x h1 h2 n _ => ⟨n + 1, trivial, ?_⟩
  match k, h1, h2 with
  | 0, h1, h2 => cases h1; cases h2; rfl
  | 1, h1, h2 => cases h1; cases h2; rfl
  | k + 2, h1, h2 => simp at h1

/-- Opened on demand, unloaded and asked for again a sheet is the same. -/
example : ∃ n, (((exShelf.step exShelfRead (.byName ['b'])).1.step exShelfRead (.unload 1)).1.step exShelfRead (.byIndex (-1))).2 =
    .sheet ⟨2, n⟩ :=
  ((C106_by_index (.step (op := .unload 1) (.step (op := .byName ['b']) (.opened exShelf_open) (fun h => nomatch h)) (fun h => nomatch h)) (-1)).1 1 ['b'] 2
    ⟨by decide, .inr (by decide)⟩ rfl).1 (.inr ⟨rfl, rfl⟩)

/-- A sheet of an xls file that was opened at once, unloaded, cannot be had again: XLRDError; of an xlsx file: IndexError. -/
example (places : List Int) : (((⟨[['a']], [some ⟨1, 0⟩], 1, places, true, 0⟩ : BookObj Nat Nat).step exShelfRead (.unload 0)).1.step
    exShelfRead (.byIndex 0)).2 = .raised .xlrdError :=
  ((C106_by_index (content := [(['a'], 1)]) (.step (op := .unload 0) (.opened .whole) (fun h => nomatch h)) 0).1 0 ['a'] 1
    ⟨by decide, .inl rfl⟩ rfl).2 (by rintro (h | ⟨h, _⟩) <;> cases h)

example : (((⟨[['a']], [some ⟨1, 0⟩], 1, [], false, 0⟩ : BookObj Nat Nat).step exShelfRead (.unload 0)).1.step
    exShelfRead (.byIndex 0)).2 = .raised .indexError :=
  ((C106_by_index (content := [(['a'], 1)]) (.step (op := .unload 0) (.opened .xlsx) (fun h => nomatch h)) 0).1 0 ['a'] 1
    ⟨by decide, .inl rfl⟩ rfl).2 (by rintro (h | ⟨h, _⟩) <;> cases h)

/-- But its attribute `number` is what it was asked for with: on demand -1 for the last sheet. -/
theorem C106_number : (exShelf.step exShelfRead (.byIndex (-1))).2 = .sheet ⟨2, -1⟩ ∧
    (exShelf.step exShelfRead (.byIndex 1)).2 = .sheet ⟨2, 1⟩ := ⟨rfl, rfl⟩

end CP
