import Verif.Model.NpAppend
import Verif.Spec.NpAppend
import Verif.Props.PackText
import Verif.Props.Pack
/-!
# C96: append_pack keeps the values of both packs
-/

namespace CP
open Spec

theorem each2_map_iff {R : Val → Val → Prop} (g : Val → Val) {vs : List Val} : Each2 R vs (vs.map g) ↔ ∀ v ∈ vs, R v (g v) := by
  constructor
  · intro h
    induction vs with
    | nil => intro v hv; cases hv
    | cons v vs ih =>
      cases h with
      | cons h1 h2 =>
        intro w hw
        rcases List.mem_cons.1 hw with rfl | hw
        · exact h1
        · exact ih h2 w hw
  · exact each2_map g

theorem cast_same {ft : Rat → List Char} {k : Kind} {v : Val} (h : HasKind k v) : npCast ft k v = v := by
  cases k <;> simp only [HasKind] at h
  case b => obtain ⟨b, rfl⟩ := h; rfl
  case i => obtain ⟨i, rfl, -⟩ := h; rfl
  case u => obtain ⟨i, rfl, -⟩ := h; rfl
  case f => rcases h with ⟨q, rfl⟩ | rfl | ⟨n, rfl⟩ <;> rfl
  case U =>
    obtain ⟨s, rfl, hs⟩ := h
    show Val.str (dropNuls '\x00' s) = _
    rw [dropNuls_same.2 hs]
  case S =>
    obtain ⟨s, rfl, hs⟩ := h
    show Val.bytes (dropNuls 0 s) = _
    rw [dropNuls_same.2 hs]
  case O => cases v <;> rfl

theorem cast_object {ft : Rat → List Char} (v : Val) : npCast ft .O v = v := cast_same (k := .O) trivial

/-- A number is not kept in an array of text or bytes. -/
theorem cast_text_number {ft : Rat → List Char} {k : Kind} (hk : NumberKind k) {v : Val} (h : HasKind k v) :
    ¬ EqualValue v (npCast ft .U v) ∧ ¬ EqualValue v (npCast ft .S v) := by
  have h' : NpNumber v := by
    rcases hk with rfl | rfl | rfl | rfl <;> simp only [HasKind] at h
    · obtain ⟨b, rfl⟩ := h; exact .bool _
    · obtain ⟨i, rfl, h1, h2⟩ := h; exact .int (by omega) (by omega)
    · obtain ⟨i, rfl, h1, h2⟩ := h; exact .int (by omega) (by omega)
    · rcases h with ⟨q, rfl⟩ | rfl | ⟨n, rfl⟩
      · exact .flt _
      · exact .nan
      · exact .inf _
  have e1 : npCast ft .U v = .str (numberStr ft v) := by cases h' <;> rfl
  have e2 : ∃ b, npCast ft .S v = .bytes b := by cases h' <;> exact ⟨_, rfl⟩
  constructor
  · rw [e1]
    generalize numberStr ft v = s
    intro he; have := same_str he; subst this; cases h'
  · obtain ⟨b, e2⟩ := e2
    rw [e2]; intro he; have := same_bytes he; subst this; cases h'

theorem cast_text_bytes {ft : Rat → List Char} (b : List UInt8) : ¬ EqualValue (.bytes b) (npCast ft .U (.bytes b)) := by
  intro h
  unfold npCast at h
  split at h
  · rename_i w hw
    obtain ⟨s, rfl⟩ := npItem_U hw
    cases same_str h
  · rcases h with h | ⟨q, h, -⟩ <;> cases h

theorem cast_number {ft : Rat → List Char} {k l : Kind} (hk : NumberKind k) (hl : NumberKind l) {v : Val} (h : HasKind k v) :
    EqualValue v (npCast ft (npPromote k l) v) ↔ (JoinFloat k l → ∀ i : Int, v = .int i → IsDouble i) := by
  have hint : ∀ i : Int, EqualValue (.int i) (npCast ft .f (.int i)) ↔ IsDouble i := by
    intro i
    constructor
    · rintro (h | ⟨q, h1, h2⟩)
      · cases h
      · simp only [valNumber, npCast, npItem, Option.some.injEq] at h1 h2
        rw [h1, ← h2]; exact f64_isDouble _
    · intro h
      exact .inr ⟨i, rfl, by simp only [valNumber, npCast, npItem, f64_of_double h]⟩
  have hsame : ∀ n, HasKind n v → EqualValue v (npCast ft n v) := fun n hm => by rw [cast_same hm]; exact same_refl _
  have hbool : ∀ b n, NumberKind n → EqualValue (.bool b) (npCast ft n (.bool b)) := by
    intro b n hm
    rcases hm with rfl | rfl | rfl | rfl
    · exact same_refl _
    · refine .inr ⟨if b then 1 else 0, rfl, ?_⟩; cases b <;> simp [npCast, npItem, valNumber]
    · refine .inr ⟨if b then 1 else 0, rfl, ?_⟩; cases b <;> simp [npCast, npItem, valNumber]
    · exact .inr ⟨if b then 1 else 0, rfl, by cases b <;> rfl⟩
  rcases hk with rfl | rfl | rfl | rfl
  · simp only [HasKind] at h
    obtain ⟨b, rfl⟩ := h
    refine iff_of_true (hbool b _ ?_) (fun _ i hi => by cases hi)
    rcases hl with rfl | rfl | rfl | rfl
    · exact .inl rfl
    · exact .inr (.inl rfl)
    · exact .inr (.inr (.inl rfl))
    · exact .inr (.inr (.inr rfl))
  · have h' := h
    simp only [HasKind] at h'
    obtain ⟨i, rfl, -⟩ := h'
    rcases hl with rfl | rfl | rfl | rfl
    · exact iff_of_true (hsame _ h) (by rintro (h | h | ⟨-, h⟩ | ⟨h, -⟩) <;> cases h)
    · exact iff_of_true (hsame _ h) (by rintro (h | h | ⟨-, h⟩ | ⟨h, -⟩) <;> cases h)
    · exact (hint i).trans ⟨fun h _ j hj => by cases hj; exact h, fun h => h (.inr (.inr (.inl ⟨rfl, rfl⟩))) i rfl⟩
    · exact (hint i).trans ⟨fun h _ j hj => by cases hj; exact h, fun h => h (.inr (.inl rfl)) i rfl⟩
  · have h' := h
    simp only [HasKind] at h'
    obtain ⟨i, rfl, -⟩ := h'
    rcases hl with rfl | rfl | rfl | rfl
    · exact iff_of_true (hsame _ h) (by rintro (h | h | ⟨h, -⟩ | ⟨-, h⟩) <;> cases h)
    · exact (hint i).trans ⟨fun h _ j hj => by cases hj; exact h, fun h => h (.inr (.inr (.inr ⟨rfl, rfl⟩))) i rfl⟩
    · exact iff_of_true (hsame _ h) (by rintro (h | h | ⟨h, -⟩ | ⟨-, h⟩) <;> cases h)
    · exact (hint i).trans ⟨fun h _ j hj => by cases hj; exact h, fun h => h (.inr (.inl rfl)) i rfl⟩
  · have e : npPromote .f l = .f := by rcases hl with rfl | rfl | rfl | rfl <;> rfl
    rw [e]
    refine iff_of_true (hsame _ h) (fun _ i hi => ?_)
    subst hi
    rcases h with ⟨q, h⟩ | h | ⟨n, h⟩ <;> cases h

theorem kind_split {a : Arr} (h : ArrayOf a) : NumberKind a.kind ∨ a.kind = .U ∨ a.kind = .S ∨ a.kind = .O := by
  have := h.1
  simp only [List.mem_cons, List.not_mem_nil, or_false] at this
  unfold NumberKind
  rcases this with h | h | h | h | h | h | h <;> simp [h]

theorem promote_comm {k l : Kind} (hk : k ∈ [Kind.b, .i, .u, .f, .U, .S, .O]) (hl : l ∈ [Kind.b, .i, .u, .f, .U, .S, .O]) :
    npPromote k l = npPromote l k := by
  simp only [List.mem_cons, List.not_mem_nil, or_false] at hk hl
  rcases hk with rfl | rfl | rfl | rfl | rfl | rfl | rfl <;> rcases hl with rfl | rfl | rfl | rfl | rfl | rfl | rfl <;> rfl

theorem stays_iff {ft : Rat → List Char} {a b : Arr} (ha : ArrayOf a) (hb : ArrayOf b) (hao : a.kind ≠ .O)
    (hbo : b.kind ≠ .O) : (∀ v ∈ a.els, EqualValue v (npCast ft (npPromote a.kind b.kind) v)) ↔ Stays a b := by
  have notNum : ∀ {k : Kind}, k = .U ∨ k = .S → ¬ NumberKind k := by
    rintro k (rfl | rfl) (h | h | h | h) <;> cases h
  rcases kind_split ha with h1 | h1 | h1 | h1
  · rcases kind_split hb with h2 | h2 | h2 | h2
    · constructor
      · intro h
        refine .inr (.inr (.inr ⟨h1, h2, fun hj i hi => ?_⟩))
        exact (cast_number h1 h2 (ha.2 _ hi)).1 (h _ hi) hj i rfl
      · rintro (h | h | ⟨h, -⟩ | ⟨-, -, h⟩) v hv
        · rw [h] at hv; cases hv
        · exact absurd h1 (notNum (.inl h))
        · exact absurd h1 (notNum (.inr h))
        · exact (cast_number h1 h2 (ha.2 _ hv)).2 fun hj i hi => h hj i (hi ▸ hv)
    · have e : npPromote a.kind b.kind = .U := by rw [h2]; rcases h1 with h | h | h | h <;> rw [h] <;> rfl
      rw [e]
      constructor
      · intro h
        left
        cases hl : a.els with
        | nil => rfl
        | cons v vs =>
          have hv : v ∈ a.els := by rw [hl]; simp
          exact absurd (h v hv) (cast_text_number h1 (ha.2 v hv)).1
      · rintro (h | h | ⟨h, -⟩ | ⟨-, h, -⟩) v hv
        · rw [h] at hv; cases hv
        · exact absurd h1 (notNum (.inl h))
        · exact absurd h1 (notNum (.inr h))
        · exact absurd h (notNum (.inl h2))
    · have e : npPromote a.kind b.kind = .S := by rw [h2]; rcases h1 with h | h | h | h <;> rw [h] <;> rfl
      rw [e]
      constructor
      · intro h
        left
        cases hl : a.els with
        | nil => rfl
        | cons v vs =>
          have hv : v ∈ a.els := by rw [hl]; simp
          exact absurd (h v hv) (cast_text_number h1 (ha.2 v hv)).2
      · rintro (h | h | ⟨h, -⟩ | ⟨-, h, -⟩) v hv
        · rw [h] at hv; cases hv
        · exact absurd h1 (notNum (.inl h))
        · exact absurd h1 (notNum (.inr h))
        · exact absurd h (notNum (.inr h2))
    · exact absurd h2 hbo
  · have e : npPromote a.kind b.kind = .U := by
      rw [h1]
      have := hb.1
      simp only [List.mem_cons, List.not_mem_nil, or_false] at this
      rcases this with h | h | h | h | h | h | h <;> rw [h] at hbo ⊢ <;> first | rfl | exact absurd rfl hbo
    rw [e]
    refine iff_of_true (fun v hv => ?_) (.inr (.inl h1))
    rw [cast_same (h1 ▸ ha.2 v hv)]; exact same_refl _
  · by_cases h2 : b.kind = .U
    · have e : npPromote a.kind b.kind = .U := by rw [h1, h2]; rfl
      rw [e]
      constructor
      · intro h
        left
        cases hl : a.els with
        | nil => rfl
        | cons v vs =>
          have hv : v ∈ a.els := by rw [hl]; simp
          have hk := ha.2 v hv
          rw [h1] at hk
          obtain ⟨s, rfl, -⟩ := hk
          exact absurd (h _ hv) (cast_text_bytes s)
      · rintro (h | h | ⟨-, h⟩ | ⟨h, -⟩) v hv
        · rw [h] at hv; cases hv
        · rw [h1] at h; cases h
        · exact absurd h2 h
        · exact absurd h (notNum (.inr h1))
    · have e : npPromote a.kind b.kind = .S := by
        rw [h1]
        have := hb.1
        simp only [List.mem_cons, List.not_mem_nil, or_false] at this
        rcases this with h | h | h | h | h | h | h <;> rw [h] at hbo h2 ⊢ <;> first | rfl | exact absurd rfl hbo | exact absurd rfl h2
      rw [e]
      refine iff_of_true (fun v hv => ?_) (.inr (.inr (.inl ⟨h1, h2⟩)))
      rw [cast_same (h1 ▸ ha.2 v hv)]; exact same_refl _
  · exact absurd h1 hao

theorem each2_append_map {R : Val → Val → Prop} (g : Val → Val) {vs ws : List Val} :
    Each2 R (vs ++ ws) (vs.map g ++ ws.map g) ↔ (∀ v ∈ vs, R v (g v)) ∧ ∀ v ∈ ws, R v (g v) := by
  rw [← List.map_append, each2_map_iff]
  constructor
  · intro h; exact ⟨fun v hv => h v (by simp [hv]), fun v hv => h v (by simp [hv])⟩
  · rintro ⟨h1, h2⟩ v hv
    rcases List.mem_append.1 hv with hv | hv
    · exact h1 v hv
    · exact h2 v hv

/-- C96, one channel: the values of both arrays are kept exactly if these can be joined. -/
theorem C96_exact {ft : Rat → List Char} {a b c : Arr} (ha : ArrayOf a) (hb : ArrayOf b) (h : npAppend (numpyEnv ft) a b = .ok c) :
    Each2 EqualValue (a.els ++ b.els) c.els ↔ Joinable a b := by
  unfold npAppend at h
  split at h
  · rename_i hk
    cases h
    exact iff_of_true (each2_same fun v _ => same_refl v) (.inl hk)
  · rename_i hk
    simp only [numpyEnv] at h
    cases h
    dsimp only
    rw [each2_append_map]
    unfold Joinable
    by_cases hao : a.kind = .O
    · have e : npPromote a.kind b.kind = .O := by rw [hao]; rfl
      rw [e]
      exact iff_of_true ⟨fun v _ => by rw [cast_object]; exact same_refl _, fun v _ => by rw [cast_object]; exact same_refl _⟩ (.inr (.inl hao))
    · by_cases hbo : b.kind = .O
      · have e : npPromote a.kind b.kind = .O := by rw [promote_comm ha.1 hb.1, hbo]; rfl
        rw [e]
        exact iff_of_true ⟨fun v _ => by rw [cast_object]; exact same_refl _, fun v _ => by rw [cast_object]; exact same_refl _⟩
          (.inr (.inr (.inl hbo)))
      · have h1 := stays_iff (ft := ft) ha hb hao hbo
        have h2 := stays_iff (ft := ft) hb ha hbo hao
        rw [promote_comm hb.1 ha.1] at h2
        rw [h1, h2]
        constructor
        · intro h; exact .inr (.inr (.inr h))
        · rintro (h | h | h | h)
          · exact absurd h hk
          · exact absurd h hao
          · exact absurd h hbo
          · exact h

theorem numberStr_ascii {ft : Rat → List Char} (hft : ∀ q, ∀ c ∈ ft q, 0 < c.toNat ∧ c.toNat < 128) (v : Val) :
    ∀ c ∈ numberStr ft v, 0 < c.toNat ∧ c.toNat < 128 := by
  have hd : ∀ n, ∀ c ∈ decNat n, 0 < c.toNat ∧ c.toNat < 128 := by
    intro n c hc
    have := decNat_digits n c hc
    unfold DecDigit at this
    omega
  cases v with
  | bool b => cases b <;> (simp only [numberStr]; decide)
  | int i =>
    intro c hc
    simp only [numberStr, decInt] at hc
    split at hc
    · rcases List.mem_cons.1 hc with rfl | hc
      · decide
      · exact hd _ c hc
    · exact hd _ c hc
  | flt q => exact hft q
  | nan => simp only [numberStr]; decide
  | inf s => cases s <;> (simp only [numberStr]; decide)
  | _ => intro c hc; cases hc

theorem promote_int {k l n : Kind} (hl : l ∈ [Kind.O, .U, .S, .f, .i, .u, .b]) (hn : n = .i ∨ n = .u ∨ n = .b) (h : npPromote k l = n) :
    (k = .b ∨ k = n) ∧ (l = .b ∨ l = n) := by
  revert h
  simp only [List.mem_cons, List.not_mem_nil, or_false] at hl
  rcases hn with rfl | rfl | rfl <;> rcases hl with rfl | rfl | rfl | rfl | rfl | rfl | rfl <;> cases k <;> decide

theorem foldl_int {n : Kind} (hn : n = .i ∨ n = .u ∨ n = .b) {vs : List Val} {k : Kind}
    (h : vs.foldl (fun k w => npPromote k (npDiscover w)) k = n) : (k = .b ∨ k = n) ∧ ∀ v ∈ vs, npDiscover v = .b ∨ npDiscover v = n := by
  induction vs generalizing k with
  | nil => exact ⟨.inr h, fun v hv => by cases hv⟩
  | cons v vs ih =>
    obtain ⟨h1, h2⟩ := ih h
    have key : (k = .b ∨ k = n) ∧ (npDiscover v = .b ∨ npDiscover v = n) := by
      rcases h1 with h1 | h1
      · obtain ⟨h3, h4⟩ := promote_int (discover_mem v) (.inr (.inr rfl)) h1
        exact ⟨.inl (h3.elim id id), .inl (h4.elim id id)⟩
      · exact promote_int (discover_mem v) hn h1
    refine ⟨key.1, fun w hw => ?_⟩
    rcases List.mem_cons.1 hw with rfl | hw
    · exact key.2
    · exact h2 w hw

theorem kind_int {n : Kind} (hn : n = .i ∨ n = .u ∨ n = .b) {vals : List Val} (h : npKind vals = n) :
    ∀ v ∈ vals, npDiscover v = .b ∨ npDiscover v = n := by
  cases vals with
  | nil => intro v hv; cases hv
  | cons v vs =>
    obtain ⟨h1, h2⟩ := foldl_int hn h
    intro w hw
    rcases List.mem_cons.1 hw with rfl | hw
    · exact h1
    · exact h2 w hw

theorem discover_bool {v : Val} (h : npDiscover v = .b) : ∃ b, v = .bool b := by
  cases v with
  | bool b => exact ⟨b, rfl⟩
  | int i => unfold npDiscover at h; dsimp only at h; split at h; cases h; split at h <;> cases h
  | _ => cases h

theorem ascii_plain {s : List Char} (h : ∀ c ∈ s, 0 < c.toNat ∧ c.toNat < 128) : PlainText (.str s) := by
  refine ⟨s, rfl, fun hl => ?_⟩
  have := h _ (List.mem_of_getLast? hl)
  exact absurd this.1 (by decide)

theorem ascii_plain_bytes {s : List Char} (h : ∀ c ∈ s, 0 < c.toNat ∧ c.toNat < 128) :
    PlainBytes (.bytes (s.map fun c => UInt8.ofNat c.toNat)) := by
  refine ⟨_, rfl, fun hl => ?_⟩
  obtain ⟨c, hc, e⟩ := List.mem_map.1 (List.mem_of_getLast? hl)
  obtain ⟨h1, h2⟩ := h c hc
  have := congrArg UInt8.toNat e
  rw [u8_toNat_ofNat (by omega)] at this
  have h0 : (0 : UInt8).toNat = 0 := rfl
  omega

theorem item_text {ft : Rat → List Char} (hasc : ∀ v, ∀ c ∈ numberStr ft v, 0 < c.toNat ∧ c.toNat < 128) {v w : Val}
    (h : npItem ft .U v = .ok w) : PlainText w := by
  cases v with
  | str s => cases h; exact ⟨_, rfl, (dropNuls_last _ _).1⟩
  | bytes b =>
    have h1 : (match asciiDecode b with
      | .ok s => .ok (.str (dropNuls '\x00' s))
      | .error e => .error e) = Except.ok (ε := Exc) w := h
    split at h1
    · cases h1; exact ⟨_, rfl, (dropNuls_last _ _).1⟩
    · cases h1
  | _ => injection h with h; rw [← h]; exact ascii_plain (hasc _)

theorem item_bytes {ft : Rat → List Char} (hasc : ∀ v, ∀ c ∈ numberStr ft v, 0 < c.toNat ∧ c.toNat < 128) {v w : Val}
    (h : npItem ft .S v = .ok w) : PlainBytes w := by
  cases v with
  | bytes b => cases h; exact ⟨_, rfl, (dropNuls_last _ _).1⟩
  | _ => injection h with h; rw [← h]; exact ascii_plain_bytes (hasc _)

/-- The arrays that a pack makes of lists are such. -/
theorem C96_arrays {ft : Rat → List Char} (hft : ∀ q, ∀ c ∈ ft q, 0 < c.toNat ∧ c.toNat < 128) {vals : List Val} {a : Arr}
    (h : npArray ft vals = .ok a) : ArrayOf a := by
  have hasc := numberStr_ascii hft
  unfold npArray at h
  split at h
  · cases h
  rename_i els he
  cases h
  have hitems : ∀ w ∈ els, ∃ v ∈ vals, npItem ft (npKind vals) v = .ok w := by
    intro w hw
    obtain ⟨i, hi⟩ := List.getElem?_of_mem hw
    have he' := npItems_ok.1 he
    have hl := each2_length he'
    have hi' : i < els.length := (List.getElem?_eq_some_iff.1 hi).1
    obtain ⟨w', hw', hv⟩ := each2_get he' (List.getElem?_eq_getElem (show i < vals.length by omega))
    rw [hi] at hw'; cases hw'
    exact ⟨_, List.getElem_mem _, hv⟩
  clear he
  rcases kind_cases vals with ⟨hk, -⟩ | ⟨-, ⟨hk, -⟩ | ⟨-, ⟨hk, -⟩ | ⟨hnum, ⟨hk, -⟩ | ⟨-, -, hk⟩⟩⟩⟩
  · rw [hk]; exact ⟨by simp, fun _ _ => trivial⟩
  · rw [hk] at hitems ⊢
    refine ⟨by simp, fun w hw => ?_⟩
    obtain ⟨v, -, h⟩ := hitems w hw
    exact item_text hasc h
  · rw [hk] at hitems ⊢
    refine ⟨by simp, fun w hw => ?_⟩
    obtain ⟨v, -, h⟩ := hitems w hw
    exact item_bytes hasc h
  · rw [hk] at hitems ⊢
    refine ⟨by simp, fun w hw => ?_⟩
    obtain ⟨v, hv, h⟩ := hitems w hw
    have hn := hnum v hv
    cases hn
    · cases h; exact .inl ⟨_, rfl⟩
    · cases h; exact .inl ⟨_, rfl⟩
    · cases h; exact .inl ⟨_, rfl⟩
    · cases h; exact .inr (.inl rfl)
    · cases h; exact .inr (.inr ⟨_, rfl⟩)
  · rcases hk with hk | hk | ⟨hk, hb⟩
    · have hd := kind_int (.inl rfl) hk
      rw [hk] at hitems ⊢
      refine ⟨by simp, fun w hw => ?_⟩
      obtain ⟨v, hv, h⟩ := hitems w hw
      rcases hd v hv with h1 | h1
      · obtain ⟨b, rfl⟩ := discover_bool h1
        cases h
        refine ⟨_, rfl, ?_⟩
        cases b <;> decide
      · obtain ⟨i, rfl, h2⟩ := discover_i.1 h1
        cases h
        exact ⟨_, rfl, h2⟩
    · have hd := kind_int (.inr (.inl rfl)) hk
      rw [hk] at hitems ⊢
      refine ⟨by simp, fun w hw => ?_⟩
      obtain ⟨v, hv, h⟩ := hitems w hw
      rcases hd v hv with h1 | h1
      · obtain ⟨b, rfl⟩ := discover_bool h1
        cases h
        refine ⟨_, rfl, ?_⟩
        cases b <;> decide
      · obtain ⟨i, rfl, h2⟩ := discover_u.1 h1
        cases h
        exact ⟨_, rfl, by omega, h2.2⟩
    · rw [hk] at hitems ⊢
      refine ⟨by simp, fun w hw => ?_⟩
      obtain ⟨v, hv, h⟩ := hitems w hw
      obtain ⟨b, rfl⟩ := hb v hv
      cases h
      exact ⟨_, rfl⟩

theorem appendLoop_channel {E : NpEnv} {d o d' : List (Int × Arr)} (ho : (dkeys o).Nodup) (h : appendLoop E d o = (d', none))
    {k : Int} {a b : Arr} (ha : dget d k = some a) (hb : dget o k = some b) : ∃ c, dget d' k = some c ∧ npAppend E a b = .ok c := by
  induction o generalizing d with
  | nil => simp [dget] at hb
  | cons x o ih =>
    obtain ⟨k', b'⟩ := x
    unfold appendLoop at h
    split at h
    · cases h
    rename_i a' ha'
    split at h
    · cases h
    rename_i c hc
    have hnd : k' ∉ dkeys o ∧ (dkeys o).Nodup := by simpa [dkeys] using ho
    by_cases e : k' = k
    · subst e
      simp only [dget, if_true, Option.some.injEq] at hb
      subst hb
      rw [ha] at ha'; cases ha'
      have := (appendLoop_spec hnd.2 h).2.1 k' hnd.1
      rw [dget_dset_same] at this
      exact ⟨c, this, hc⟩
    · simp only [dget, if_neg e] at hb
      exact ih hnd.2 h (by rw [dget_dset_ne _ _ (Ne.symm e)]; exact ha) hb

/-- C96 as a user would have it: after append_pack every channel that both packs have has the values of this pack followed by those of the other.
With `all` whatever the arrays are, else for those that can be joined. -/
def AppendKeeps (all : Bool) : Prop :=
  ∀ (ft : Rat → List Char) (p o q : Pack), (dkeys o.data).Nodup → (∀ x ∈ p.data, ArrayOf x.2) → (∀ x ∈ o.data, ArrayOf x.2) →
    p.appendPack (numpyEnv ft) o = (q, none) →
    ∀ k a b, dget p.data k = some a → dget o.data k = some b → (all = false → Joinable a b) →
      ∃ c, dget q.data k = some c ∧ Each2 EqualValue (a.els ++ b.els) c.els

/-- C96, the part that holds: for arrays that can be joined.  (Missing: others; C96_exact tells that they are always changed.) -/
theorem C96_append_partial : AppendKeeps false := by
  intro ft p o q hnd hp ho h k a b ha hb hj
  have hpa := hp _ (dget_mem ha)
  have hoa := ho _ (dget_mem hb)
  unfold Pack.appendPack at h
  split at h
  · cases h
  rename_i d hd
  split at h
  · cases h
  rename_i n hn
  have hq : q.data = d := by
    have := congrArg Prod.fst h
    dsimp only at this
    rw [← this, (maskReset_frame _).1]
  have hpne : p.data ≠ [] := by intro e; rw [e] at ha; cases ha
  have hone : o.data ≠ [] := by intro e; rw [e] at hb; cases hb
  unfold appendData at hd
  rw [if_neg hpne, if_neg hone] at hd
  split at hd
  · obtain ⟨c, h1, h2⟩ := appendLoop_channel hnd hd ha hb
    exact ⟨c, by rw [hq]; exact h1, (C96_exact hpa hoa h2).2 (hj rfl)⟩
  · cases hd

/-- C96 as stated is false: numbers become text if text is appended. -/
theorem C96_counterexample : ¬ AppendKeeps true := by
  intro h
  have hq : (Pack.init [(0, ⟨.f, [.flt 1]⟩)] []).appendPack (numpyEnv fun _ => ['1', '.', '0']) (Pack.init [(0, ⟨.U, [.str ['a']]⟩)] []) =
      ((Pack.init [(0, ⟨.f, [.flt 1]⟩)] []).appendPack (numpyEnv fun _ => ['1', '.', '0']) (Pack.init [(0, ⟨.U, [.str ['a']]⟩)] [])
        |>.1, none) := by decide +kernel
  have hc : dget ((Pack.init [(0, ⟨.f, [.flt 1]⟩)] []).appendPack (numpyEnv fun _ => ['1', '.', '0'])
      (Pack.init [(0, ⟨.U, [.str ['a']]⟩)] [])).1.data 0 = some ⟨.U, [.str ['1', '.', '0'], .str ['a']]⟩ := by decide +kernel
  obtain ⟨c, h1, h2⟩ := h _ _ _ _ (by decide +kernel) (by
      rw [(init_data _ _).1]; intro x hx
      rcases List.mem_singleton.1 hx with rfl
      exact ⟨by simp, fun v hv => by rcases List.mem_singleton.1 hv with rfl; exact .inl ⟨_, rfl⟩⟩) (by
      rw [(init_data _ _).1]; intro x hx
      rcases List.mem_singleton.1 hx with rfl
      exact ⟨by simp, fun v hv => by rcases List.mem_singleton.1 hv with rfl; exact ⟨_, rfl, by decide⟩⟩) hq 0 ⟨.f, [.flt 1]⟩ ⟨.U, [.str ['a']]⟩
      (by rw [(init_data _ _).1]; rfl) (by rw [(init_data _ _).1]; rfl) (by simp)
  rw [hc] at h1
  cases h1
  cases h2 with
  | cons h3 h4 => cases same_str h3

/-- C96_append_partial: booleans and floats, and ints with dates. -/
example : Joinable ⟨.b, [.bool true]⟩ ⟨.f, [.flt (1/2), .nan]⟩ ∧ Joinable ⟨.i, [.int 1]⟩ ⟨.O, [.date 2020 2 29]⟩ ∧
    ¬ Joinable ⟨.f, [.flt 1]⟩ ⟨.U, []⟩ := by
  refine ⟨.inr (.inr (.inr ⟨.inr (.inr (.inr ⟨.inl rfl, .inr (.inr (.inr rfl)), fun _ i hi => ?_⟩)),
    .inr (.inr (.inr ⟨.inr (.inr (.inr rfl)), .inl rfl, fun _ i hi => ?_⟩))⟩)), .inr (.inr (.inl rfl)), ?_⟩
  · simp at hi
  · simp at hi
  · rintro (h | h | h | ⟨h | h | ⟨h, -⟩ | ⟨-, h | h | h | h, -⟩, -⟩) <;> cases h

end CP
