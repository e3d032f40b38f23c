import Verif.Lemmas.NpArray
import Verif.Spec.PackHolds
/-!
# C92: a pack holds the values it is given
-/

namespace CP
open Spec

/-- C92 for the values of one channel: the array has the same values. -/
def HoldsValues (ft : Rat → List Char) (vals : List Val) : Prop :=
  ∃ a, npArray ft vals = .ok a ∧ Each2 EqualValue vals a.els

theorem same_refl (v : Val) : EqualValue v v := .inl rfl

theorem each2_same {R : Val → Val → Prop} {vs : List Val} (h : ∀ v ∈ vs, R v v) : Each2 R vs vs := by
  induction vs with
  | nil => exact .nil
  | cons v vs ih => exact .cons (h v (by simp)) (ih fun w hw => h w (by simp [hw]))

theorem each2_map {R : Val → Val → Prop} (g : Val → Val) {vs : List Val} (h : ∀ v ∈ vs, R v (g v)) : Each2 R vs (vs.map g) := by
  induction vs with
  | nil => exact .nil
  | cons v vs ih => exact .cons (h v (by simp)) (ih fun w hw => h w (by simp [hw]))

theorem each2_and {α β : Type} {R S : α → β → Prop} {as : List α} {bs : List β} (h : Each2 R as bs) (h' : Each2 S as bs) :
    ∀ a ∈ as, ∃ b ∈ bs, R a b ∧ S a b := by
  induction h with
  | nil => intro a ha; cases ha
  | cons h1 h2 ih =>
    cases h' with
    | cons h3 h4 =>
      intro a ha
      rcases List.mem_cons.1 ha with rfl | ha
      · exact ⟨_, by simp, h1, h3⟩
      · obtain ⟨b, hb, h⟩ := ih h4 a ha
        exact ⟨b, by simp [hb], h⟩

theorem holds_iff {ft : Rat → List Char} {vals : List Val} :
    HoldsValues ft vals ↔ ∀ v ∈ vals, ∃ w, npItem ft (npKind vals) v = .ok w ∧ EqualValue v w := by
  unfold HoldsValues npArray
  generalize npKind vals = k
  constructor
  · rintro ⟨a, h1, h2⟩ v hv
    split at h1
    · cases h1
    · rename_i els he
      cases h1
      obtain ⟨w, -, h3, h4⟩ := each2_and (npItems_ok.1 he) h2 v hv
      exact ⟨w, h3, h4⟩
  · intro h
    have : ∃ ws, Each2 (fun v w => npItem ft k v = .ok w) vals ws ∧ Each2 EqualValue vals ws := by
      induction vals with
      | nil => exact ⟨[], .nil, .nil⟩
      | cons v vs ih =>
        obtain ⟨ws, h1, h2⟩ := ih fun w hw => h w (by simp [hw])
        obtain ⟨w, h3, h4⟩ := h v (by simp)
        exact ⟨w :: ws, .cons h3 h1, .cons h4 h2⟩
    obtain ⟨ws, h1, h2⟩ := this
    exact ⟨⟨k, ws⟩, by rw [npItems_ok.2 h1], h2⟩

theorem same_str {v : Val} {s : List Char} (h : EqualValue v (.str s)) : v = .str s := by
  rcases h with h | ⟨q, -, h⟩
  · exact h
  · cases h

theorem same_bytes {v : Val} {s : List UInt8} (h : EqualValue v (.bytes s)) : v = .bytes s := by
  rcases h with h | ⟨q, -, h⟩
  · exact h
  · cases h

/-- The kinds that an array can have, with what is known of the values then. -/
theorem kind_cases (vals : List Val) :
    (npKind vals = .O ∧ ∃ v ∈ vals, IsObject v) ∨
    ((∀ v ∈ vals, ¬ IsObject v) ∧
      ((npKind vals = .U ∧ ∃ v ∈ vals, ∃ s, v = .str s) ∨
       ((∀ v ∈ vals, ∀ s, v ≠ .str s) ∧
        ((npKind vals = .S ∧ ∃ v ∈ vals, ∃ s, v = .bytes s) ∨
         ((∀ v ∈ vals, NpNumber v) ∧
          ((npKind vals = .f ∧ (vals = [] ∨ NeedFloat vals)) ∨
           (¬ NeedFloat vals ∧ vals ≠ [] ∧ (npKind vals = .i ∨ npKind vals = .u ∨ npKind vals = .b ∧ ∀ v ∈ vals, ∃ b, v = .bool b)))))))) := by
  rw [npKind_eq]
  by_cases hO : anyKind vals .O = true
  · left
    rw [hO]
    obtain ⟨v, hv, h⟩ := anyKind_iff.1 hO
    exact ⟨rfl, v, hv, discover_object.1 h⟩
  right
  refine ⟨fun v hv h => hO (anyKind_iff.2 ⟨v, hv, discover_object.2 h⟩), ?_⟩
  rw [Bool.not_eq_true] at hO
  rw [hO]
  by_cases hU : anyKind vals .U = true
  · left
    rw [hU]
    obtain ⟨v, hv, h⟩ := anyKind_iff.1 hU
    exact ⟨rfl, v, hv, discover_str.1 h⟩
  right
  refine ⟨fun v hv s h => hU (anyKind_iff.2 ⟨v, hv, discover_str.2 ⟨s, h⟩⟩), ?_⟩
  rw [Bool.not_eq_true] at hU
  rw [hU]
  by_cases hS : anyKind vals .S = true
  · left
    rw [hS]
    obtain ⟨v, hv, h⟩ := anyKind_iff.1 hS
    exact ⟨rfl, v, hv, discover_bytes.1 h⟩
  right
  have hnum : ∀ v ∈ vals, NpNumber v := by
    intro v hv
    have hm := discover_mem v
    simp only [List.mem_cons, List.not_mem_nil, or_false] at hm
    rcases hm with e | e | e | e | e | e | e
    · exact absurd (anyKind_iff.2 ⟨v, hv, e⟩) (by rw [hO]; decide)
    · exact absurd (anyKind_iff.2 ⟨v, hv, e⟩) (by rw [hU]; decide)
    · exact absurd (anyKind_iff.2 ⟨v, hv, e⟩) hS
    all_goals exact discover_number.2 (by simp [e])
  refine ⟨hnum, ?_⟩
  rw [Bool.not_eq_true] at hS
  rw [hS]
  have hneed : NeedFloat vals ↔ anyKind vals .f = true ∨ anyKind vals .i = true ∧ anyKind vals .u = true := by
    rw [anyKind_iff, anyKind_iff, anyKind_iff]
    constructor
    · rintro (⟨v, hv, h⟩ | ⟨i, j, hi, hj, h1, h2⟩)
      · exact .inl ⟨v, hv, discover_float.2 h⟩
      · right
        have n1 := hnum _ hi
        have n2 := hnum _ hj
        cases n1; cases n2
        exact ⟨⟨_, hi, discover_i.2 ⟨i, rfl, by assumption, h1⟩⟩, ⟨_, hj, discover_u.2 ⟨j, rfl, h2, by assumption⟩⟩⟩
    · rintro (⟨v, hv, h⟩ | ⟨⟨v, hv, h1⟩, ⟨w, hw, h2⟩⟩)
      · exact .inl ⟨v, hv, discover_float.1 h⟩
      · obtain ⟨i, rfl, -, hi⟩ := discover_i.1 h1
        obtain ⟨j, rfl, hj, -⟩ := discover_u.1 h2
        exact .inr ⟨i, j, hv, hw, hi, hj⟩
  have hkey : ∀ v ∈ vals, anyKind vals (npDiscover v) = true := fun v hv => anyKind_iff.2 ⟨v, hv, rfl⟩
  rw [hneed]
  cases hf : anyKind vals .f <;> cases hi : anyKind vals .i <;> cases hu : anyKind vals .u <;> cases hb : anyKind vals .b
  case false.false.false.false =>
    left
    refine ⟨rfl, .inl ?_⟩
    cases vals with
    | nil => rfl
    | cons v vs =>
      have h1 := hkey v (by simp)
      rcases discover_number.1 (hnum v (by simp)) with e | e | e | e <;> rw [e] at h1
      · rw [hb] at h1; cases h1
      · rw [hi] at h1; cases h1
      · rw [hu] at h1; cases h1
      · rw [hf] at h1; cases h1
  case false.false.false.true =>
    right
    refine ⟨by simp, ?_, .inr (.inr ⟨rfl, fun v hv => ?_⟩)⟩
    · rintro rfl; cases hb
    · have h1 := hkey v hv
      rcases discover_number.1 (hnum v hv) with e | e | e | e
      · cases v with
        | bool b => exact ⟨b, rfl⟩
        | int i =>
          rw [discover_int] at e
          split at e
          · cases e
          · split at e <;> cases e
        | _ => simp [npDiscover] at e
      · rw [e, hi] at h1; cases h1
      · rw [e, hu] at h1; cases h1
      · rw [e, hf] at h1; cases h1
  all_goals first
    | exact .inl ⟨rfl, .inr (by simp)⟩
    | (refine .inr ⟨by simp, ?_, .inl rfl⟩; rintro rfl; cases hi)
    | (refine .inr ⟨by simp, ?_, .inr (.inl rfl)⟩; rintro rfl; cases hu)

theorem npItem_O (ft : Rat → List Char) (v : Val) : npItem ft .O v = .ok v := by cases v <;> rfl

theorem npItem_U {ft : Rat → List Char} {v w : Val} (h : npItem ft .U v = .ok w) : ∃ s, w = .str s := by
  cases v with
  | bytes b =>
    have h1 : (match asciiDecode b with
      | .ok s => .ok (.str (dropNuls '\x00' s))
      | .error e => .error e) = Except.ok (ε := Exc) w := h
    split at h1
    · cases h1; exact ⟨_, rfl⟩
    · cases h1
  | _ => cases h; exact ⟨_, rfl⟩

theorem npItem_S {ft : Rat → List Char} {v w : Val} (h : npItem ft .S v = .ok w) : ∃ s, w = .bytes s := by
  cases v <;> (cases h; exact ⟨_, rfl⟩)

theorem each_number_f {ft : Rat → List Char} {v : Val} (h : NpNumber v) (hd : ∀ i : Int, v = .int i → IsDouble i) :
    ∃ w, npItem ft .f v = .ok w ∧ EqualValue v w := by
  cases h with
  | bool b => exact ⟨.flt (if b then 1 else 0), rfl, .inr ⟨if b then 1 else 0, rfl, rfl⟩⟩
  | @int i h1 h2 => exact ⟨.flt (f64 i), rfl, .inr ⟨(i : Rat), rfl, by rw [f64_of_double (hd i rfl)]; rfl⟩⟩
  | flt q => exact ⟨_, rfl, same_refl _⟩
  | nan => exact ⟨_, rfl, same_refl _⟩
  | inf s => exact ⟨_, rfl, same_refl _⟩

theorem each_number_iu {ft : Rat → List Char} {k : Kind} (hk : k = .i ∨ k = .u) {v : Val} (h : NpNumber v) :
    ∃ w, npItem ft k v = .ok w ∧ EqualValue v w := by
  rcases hk with rfl | rfl <;> cases h with
  | bool b =>
    refine ⟨.int (if b then 1 else 0), rfl, .inr ⟨if b then 1 else 0, rfl, ?_⟩⟩
    cases b <;> rfl
  | _ => exact ⟨_, rfl, same_refl _⟩

/-- C92, exactly: the array of a channel has the values given if and only if they are compatible. -/
theorem C92_exact (ft : Rat → List Char) (vals : List Val) : HoldsValues ft vals ↔ Compatible vals := by
  rw [holds_iff]
  rcases kind_cases vals with ⟨hk, ho⟩ | ⟨hno, ⟨hk, hs⟩ | ⟨hns, ⟨hk, hb⟩ | ⟨hn, h⟩⟩⟩
  · rw [hk]
    exact ⟨fun _ => .inl ho, fun _ v _ => ⟨v, npItem_O ft v, same_refl v⟩⟩
  · rw [hk]
    constructor
    · intro h
      refine .inr (.inl fun v hv => ?_)
      obtain ⟨w, h1, h2⟩ := h v hv
      obtain ⟨s, rfl⟩ := npItem_U h1
      have := same_str h2
      subst this
      refine ⟨s, rfl, dropNuls_same.1 ?_⟩
      have h3 : Except.ok (Val.str (dropNuls '\x00' s)) = Except.ok (ε := Exc) (Val.str s) := h1
      injection h3 with h3; injection h3
    · rintro (⟨v, hv, h⟩ | h | h | ⟨h, -⟩) v' hv'
      · exact absurd h (hno v hv)
      · obtain ⟨s, rfl, hl⟩ := h v' hv'
        exact ⟨.str s, by show Except.ok _ = _; rw [dropNuls_same.2 hl], same_refl _⟩
      · obtain ⟨v, hv, s, rfl⟩ := hs
        obtain ⟨b, e, -⟩ := h _ hv; cases e
      · obtain ⟨v, hv, s, rfl⟩ := hs
        have := h _ hv; cases this
  · rw [hk]
    constructor
    · intro h
      refine .inr (.inr (.inl fun v hv => ?_))
      obtain ⟨w, h1, h2⟩ := h v hv
      obtain ⟨s, rfl⟩ := npItem_S h1
      have := same_bytes h2
      subst this
      refine ⟨s, rfl, dropNuls_same.1 ?_⟩
      have h3 : Except.ok (Val.bytes (dropNuls 0 s)) = Except.ok (ε := Exc) (Val.bytes s) := h1
      injection h3 with h3; injection h3
    · rintro (⟨v, hv, h⟩ | h | h | ⟨h, -⟩) v' hv'
      · exact absurd h (hno v hv)
      · obtain ⟨s, rfl, -⟩ := h v' hv'
        exact absurd rfl (hns _ hv' s)
      · obtain ⟨s, rfl, hl⟩ := h v' hv'
        exact ⟨.bytes s, by show Except.ok _ = _; rw [dropNuls_same.2 hl], same_refl _⟩
      · obtain ⟨v, hv, s, rfl⟩ := hb
        have := h _ hv; cases this
  · rcases h with ⟨hk, hf⟩ | ⟨hnf, hne, hk⟩
    · rw [hk]
      constructor
      · intro h
        refine .inr (.inr (.inr ⟨hn, fun _ i hi => ?_⟩))
        obtain ⟨w, h1, h2⟩ := h _ hi
        have h3 : Except.ok (Val.flt (f64 i)) = Except.ok (ε := Exc) w := h1
        cases h3
        rcases h2 with e | ⟨q, e1, e2⟩
        · cases e
        · cases e1
          have e3 : f64 i = (i : Rat) := by injection e2
          rw [← e3]; exact f64_isDouble _
      · rintro (⟨v, hv, h⟩ | h | h | ⟨h, hd⟩) v' hv'
        · exact absurd h (hno v hv)
        · obtain ⟨s, rfl, -⟩ := h v' hv'
          exact absurd rfl (hns _ hv' s)
        · obtain ⟨s, rfl, -⟩ := h v' hv'
          have := hn _ hv'; cases this
        · refine each_number_f (h v' hv') fun i hi => ?_
          rcases hf with rfl | hf
          · cases hv'
          · subst hi; exact hd hf i hv'
    · refine ⟨fun _ => .inr (.inr (.inr ⟨hn, fun h => absurd h hnf⟩)), fun _ v hv => ?_⟩
      rcases hk with hk | hk | ⟨hk, hb⟩
      · rw [hk]; exact each_number_iu (.inl rfl) (hn v hv)
      · rw [hk]; exact each_number_iu (.inr rfl) (hn v hv)
      · rw [hk]
        obtain ⟨b, rfl⟩ := hb v hv
        exact ⟨_, rfl, same_refl _⟩

/-! ### Packs -/

theorem npDict_get {ft : Rat → List Char} {data : List (Int × List Val)} {d : List (Int × Arr)} (h : npDict ft data = .ok d) :
    d.map Prod.fst = data.map Prod.fst ∧
      ∀ (i : Nat) k vals, data[i]? = some (k, vals) → ∃ a, d[i]? = some (k, a) ∧ npArray ft vals = .ok a := by
  induction data generalizing d with
  | nil => cases h; exact ⟨rfl, fun i k vals h => by simp at h⟩
  | cons x rest ih =>
    obtain ⟨k0, v0⟩ := x
    unfold npDict at h
    split at h
    · cases h
    · rename_i a ha
      split at h
      · cases h
      · rename_i d' hd'
        cases h
        obtain ⟨h1, h2⟩ := ih hd'
        refine ⟨by rw [List.map_cons, List.map_cons, h1], fun i k vals hk => ?_⟩
        cases i with
        | zero =>
          simp only [List.getElem?_cons_zero, Option.some.injEq, Prod.mk.injEq] at hk ⊢
          obtain ⟨rfl, rfl⟩ := hk
          exact ⟨a, ⟨rfl, rfl⟩, ha⟩
        | succ i =>
          simp only [List.getElem?_cons_succ] at hk ⊢
          exact h2 i k vals hk

theorem npDict_ok {ft : Rat → List Char} {data : List (Int × List Val)} (h : ∀ x ∈ data, ∃ a, npArray ft x.2 = .ok a) :
    ∃ d, npDict ft data = .ok d := by
  induction data with
  | nil => exact ⟨[], rfl⟩
  | cons x rest ih =>
    obtain ⟨a, ha⟩ := h x (by simp)
    obtain ⟨d, hd⟩ := ih fun y hy => h y (by simp [hy])
    exact ⟨(x.1, a) :: d, by unfold npDict; rw [ha, hd]⟩

theorem init_data (d : List (Int × Arr)) (names : List (Int × Val)) : (Pack.init d names).data = d ∧ (Pack.init d names).names = names := by
  unfold Pack.init Pack.maskReset Pack.setMask
  dsimp only
  split <;> try split
  all_goals exact ⟨rfl, rfl⟩

/-- C92 as a user would have it: `ChannelPack(data, names)` of a dict of lists of values has channels with these values.  With `all` whatever
the values are, else for compatible ones. -/
def PackHoldsValues (all : Bool) : Prop :=
  ∀ (ft : Rat → List Char) (data : List (Int × List Val)) (names : List (Int × Val)),
    (all = false → ∀ x ∈ data, Compatible x.2) →
    ∃ p, packOfLists ft data names = .ok p ∧ p.names = names ∧ ChannelsHold data p.data

/-- C92, the part that holds: for compatible values.  (Missing: others; C92_exact tells that they are always changed.) -/
theorem C92_values_partial : PackHoldsValues false := by
  intro ft data names hc
  obtain ⟨d, hd⟩ := npDict_ok (ft := ft) (data := data) fun x hx => by
    obtain ⟨a, ha, -⟩ := (C92_exact ft x.2).2 (hc rfl x hx); exact ⟨a, ha⟩
  obtain ⟨h1, h2⟩ := npDict_get hd
  obtain ⟨f1, f2⟩ := init_data d names
  refine ⟨Pack.init d names, by unfold packOfLists; rw [hd], f2, ?_⟩
  rw [f1]
  refine ⟨h1, fun i k vals hk => ?_⟩
  obtain ⟨a, ha, hv⟩ := h2 i k vals hk
  refine ⟨a, ha, ?_⟩
  obtain ⟨b, hb, hs⟩ := (C92_exact ft vals).2 (hc rfl _ (List.mem_of_getElem? hk))
  rw [hv] at hb; cases hb; exact hs

/-- A number beside text is no number any more. -/
theorem C92_text {ft : Rat → List Char} {vals : List Val} {a : Arr} (h : npArray ft vals = .ok a) (hs : ∃ v ∈ vals, ∃ s, v = .str s)
    (ho : ∀ v ∈ vals, ¬ IsObject v) : a.kind = .U ∧ ∀ w ∈ a.els, ∃ s, w = .str s := by
  have hk : npKind vals = .U := by
    rcases kind_cases vals with ⟨-, v, hv, h1⟩ | ⟨-, ⟨hk, -⟩ | ⟨hns, -⟩⟩
    · exact absurd h1 (ho v hv)
    · exact hk
    · obtain ⟨v, hv, s, rfl⟩ := hs; exact absurd rfl (hns _ hv s)
  unfold npArray at h
  rw [hk] at h
  split at h
  · cases h
  · rename_i els he
    cases h
    refine ⟨rfl, fun w hw => ?_⟩
    obtain ⟨i, hi⟩ := List.getElem?_of_mem hw
    have he' := npItems_ok.1 he
    have hl := each2_length he'
    have hi' : i < els.length := (List.getElem?_eq_some_iff.1 hi).1
    obtain ⟨w', hw', hv⟩ := each2_get he' (List.getElem?_eq_getElem (show i < vals.length by omega))
    rw [hi] at hw'; cases hw'
    exact npItem_U hv

/-- C92 as stated is false: `ChannelPack({0: [1, 'a']})` has the text 1, and 9007199254740993 beside NaN is another number. -/
theorem C92_counterexample : ¬ PackHoldsValues true := by
  intro h
  obtain ⟨p, hp, -, -, h1⟩ := h (fun _ => []) [(0, [.int 1, .str ['a']])] [] (by intro h; cases h)
  obtain ⟨a, ha, h2⟩ := h1 0 0 _ rfl
  unfold packOfLists at hp
  split at hp
  · cases hp
  · rename_i d hd
    cases hp
    rw [(init_data _ _).1] at ha
    obtain ⟨a', ha', hn⟩ := (npDict_get hd).2 0 0 _ rfl
    rw [ha] at ha'; cases ha'
    have ht := (C92_text hn ⟨.str ['a'], by simp, _, rfl⟩ (by
      intro v hv ho
      rcases List.mem_cons.1 hv with rfl | hv
      · exact ho.1 (.int (by decide) (by decide))
      · rcases List.mem_cons.1 hv with rfl | hv
        · exact ho.2.1 _ rfl
        · cases hv)).2
    revert ht h2
    generalize a.els = l
    intro h2 ht
    cases h2 with
    | cons h3 h4 =>
      obtain ⟨s, rfl⟩ := ht _ (List.mem_cons_self ..)
      cases same_str h3

/-- Numbers beside nothing but numbers are held, text is, and whatever is beside None is. -/
example : Compatible [.int 1, .bool true, .flt (1/2)] := by
  refine .inr (.inr (.inr ⟨?_, fun _ i hi => ?_⟩))
  · intro v hv
    simp only [List.mem_cons, List.not_mem_nil, or_false] at hv
    rcases hv with rfl | rfl | rfl
    · exact .int (by decide) (by decide)
    · exact .bool _
    · exact .flt _
  · simp at hi
    subst hi
    exact isDouble_int (by decide)

example : Compatible [.int 1, .str ['a'], .none] :=
  .inl ⟨.none, by simp, (fun h => by cases h), (fun s h => by cases h), (fun s h => by cases h)⟩

/-- C92_text: 1 beside the text a is text. -/
example (ft : Rat → List Char) : npArray ft [.int 1, .str ['a']] = .ok ⟨.U, [.str (decInt 1), .str ['a']]⟩ := rfl

end CP
