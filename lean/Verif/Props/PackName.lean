import Verif.Spec.PackName
import Verif.Lemmas.Xlsx
import Verif.Lemmas.PyIter
import Verif.Props.Pack
import Verif.Props.TextNames
/-!
# C72, C73, C74: names, representation and attributes of a pack
-/

namespace CP

open Spec

/-! ## Decimal numbers and words -/

theorem decInt_isDecimal (k : Int) : IsDecimal k (decInt k) := by
  have hd := decNat_digits k.natAbs
  have hv : decValue (decNat k.natAbs) = k.natAbs := by rw [← parseNat_eq hd, parseNat_decNat]
  refine ⟨decNat k.natAbs, decNat_ne_nil _, hd, fun h => ?_, ?_⟩
  · by_cases h0 : k.natAbs = 0
    · rw [h0]; decide +kernel
    · exact absurd rfl (decNat_head (by omega) _ h)
  · by_cases hk : k < 0
    · right; rw [hv]; exact ⟨hk, by simp [decInt, hk], by omega⟩
    · left; rw [hv]; exact ⟨by omega, by simp [decInt, hk], by omega⟩

theorem decDigit_bounds {c : Char} (h : DecDigit c) : c.toNat - 48 ≤ 9 := by
  have := h.2; omega

theorem decValue_lt {ds : List Char} (h : ∀ c ∈ ds, DecDigit c) : decValue ds < 10 ^ ds.length := by
  induction ds with
  | nil => simp [decValue]
  | cons c cs ih =>
    have h1 := decDigit_bounds (h c (by simp))
    have h2 := ih (fun c hc => h c (by simp [hc]))
    simp only [decValue, List.length_cons, Nat.pow_succ]
    have h3 : (c.toNat - 48) * 10 ^ cs.length ≤ 9 * 10 ^ cs.length := Nat.mul_le_mul_right _ h1
    omega

theorem decValue_inj_len {a b : List Char} (ha : ∀ c ∈ a, DecDigit c) (hb : ∀ c ∈ b, DecDigit c)
    (hl : a.length = b.length) (h : decValue a = decValue b) : a = b := by
  induction a generalizing b with
  | nil => cases b with
    | nil => rfl
    | cons _ _ => simp at hl
  | cons x xs ih =>
    cases b with
    | nil => simp at hl
    | cons y ys =>
      simp only [List.length_cons, Nat.add_right_cancel_iff] at hl
      have hxs : ∀ c ∈ xs, DecDigit c := fun c hc => ha c (by simp [hc])
      have hys : ∀ c ∈ ys, DecDigit c := fun c hc => hb c (by simp [hc])
      have l1 := decValue_lt hxs
      have l2 := decValue_lt hys
      simp only [decValue, hl] at h
      rw [hl] at l1
      have hp : 0 < 10 ^ ys.length := Nat.pow_pos (by omega)
      have e1 : ((x.toNat - 48) * 10 ^ ys.length + decValue xs) / 10 ^ ys.length = x.toNat - 48 := by
        rw [Nat.mul_comm, Nat.mul_add_div hp, Nat.div_eq_of_lt l1]; omega
      have e2 : ((y.toNat - 48) * 10 ^ ys.length + decValue ys) / 10 ^ ys.length = y.toNat - 48 := by
        rw [Nat.mul_comm, Nat.mul_add_div hp, Nat.div_eq_of_lt l2]; omega
      have hxy : x.toNat - 48 = y.toNat - 48 := by rw [← e1, ← e2, h]
      have hx := ha x (by simp)
      have hy := hb y (by simp)
      have hc : x.toNat = y.toNat := by have := hx.1; have := hy.1; omega
      have hc' : x = y := Char.ext (UInt32.toNat_inj.1 hc)
      subst hc'
      rw [ih hxs hys hl (by omega)]

theorem decValue_ge {ds : List Char} {c : Char} (hc : DecDigit c) (h0 : c ≠ '0') :
    10 ^ ds.length ≤ decValue (c :: ds) := by
  simp only [decValue]
  have : 1 ≤ c.toNat - 48 := by
    have h1 := hc.1
    have : c.toNat ≠ 48 := fun h => h0 (Char.ext (UInt32.toNat_inj.1 h))
    omega
  have := Nat.mul_le_mul_right (10 ^ ds.length) this
  omega

theorem decValue_inj {a b : List Char} (ha : ∀ c ∈ a, DecDigit c) (hb : ∀ c ∈ b, DecDigit c)
    (na : a ≠ []) (nb : b ≠ []) (za : a.head? = some '0' → a = ['0'])
    (zb : b.head? = some '0' → b = ['0']) (h : decValue a = decValue b) : a = b := by
  have key : ∀ {a b : List Char}, (∀ c ∈ a, DecDigit c) → (∀ c ∈ b, DecDigit c) → a ≠ [] →
      b ≠ [] → (b.head? = some '0' → b = ['0']) → decValue a = decValue b → b.length ≤ a.length := by
    intro a b ha hb na nb zb h
    cases b with
    | nil => exact absurd rfl nb
    | cons y ys =>
      by_cases hy : y = '0'
      · subst hy
        rw [zb rfl]
        cases a with
        | nil => exact absurd rfl na
        | cons _ _ => simp
      · have h1 := decValue_ge (ds := ys) (hb y (by simp)) hy
        have h2 := decValue_lt ha
        rw [h] at h2
        have : 10 ^ ys.length < 10 ^ a.length := by omega
        have := (Nat.pow_lt_pow_iff_right (by omega : 1 < 10)).1 this
        simp only [List.length_cons]; omega
  exact decValue_inj_len ha hb (Nat.le_antisymm (key hb ha nb na za h.symm) (key ha hb na nb zb h)) h

theorem isDecimal_eq {k : Int} {s : List Char} (h : IsDecimal k s) : s = decInt k := by
  obtain ⟨ds, h1, h2, h3, h4⟩ := h
  obtain ⟨es, g1, g2, g3, g4⟩ := decInt_isDecimal k
  rcases h4 with ⟨a, rfl, b⟩ | ⟨a, rfl, b⟩
  · rcases g4 with ⟨c, g, d⟩ | ⟨c, g, d⟩
    · rw [g]; exact decValue_inj h2 g2 h1 g1 h3 g3 (by omega)
    · omega
  · rcases g4 with ⟨c, g, d⟩ | ⟨c, g, d⟩
    · omega
    · rw [g, decValue_inj h2 g2 h1 g1 h3 g3 (by omega)]

theorem splitWs_white {ws : Char → Bool} {w : List Char} (hw : ∀ c ∈ w, ws c = true) :
    splitWs ws w = [] := by
  have := splitWs_all hw []
  simpa [splitWs] using this

theorem firstWord_split {ws : Char → Bool} {s w : List Char}
    (h : FirstWord (fun c => ws c = true) s w) : ∃ r, splitWs ws s = w :: r := by
  obtain ⟨a, rest, rfl, ha, hw, hww, hr⟩ := h
  rw [List.append_assoc, splitWs_all ha]
  cases w with
  | nil => exact absurd rfl hw
  | cons x xs =>
    rw [List.cons_append, splitWs_word (hww x (by simp))]
    have h1 : ∀ c ∈ xs, (!ws c) = true := fun c hc => by
      have := hww c (by simp [hc]); simpa using this
    have h2 : (xs ++ rest).takeWhile (fun c => !ws c) = xs := by
      rw [List.takeWhile_append_of_pos h1]
      cases rest with
      | nil => simp
      | cons y ys => have := hr y rfl; simp [this]
    rw [h2]
    exact ⟨_, rfl⟩

theorem split_firstWord {ws : Char → Bool} {s w : List Char} {r : List (List Char)}
    (h : splitWs ws s = w :: r) : FirstWord (fun c => ws c = true) s w := by
  induction s with
  | nil => simp [splitWs] at h
  | cons x xs ih =>
    by_cases hx : ws x = true
    · rw [splitWs, if_pos hx] at h
      obtain ⟨a, rest, rfl, ha, hw⟩ := ih h
      refine ⟨x :: a, rest, by simp, ?_, hw⟩
      intro c hc
      rcases List.mem_cons.1 hc with rfl | hc
      · exact hx
      · exact ha c hc
    · rw [splitWs_word hx] at h
      obtain ⟨rest, h1, h2, h3⟩ := takeWhile_split (fun c => !ws c) xs
      have h4 := (List.cons.inj h).1
      refine ⟨[], rest, ?_, by simp, ?_, ?_, ?_⟩
      · rw [← h4]; simpa using h1
      · rw [← h4]; simp
      · intro c hc
        rw [← h4] at hc
        rcases List.mem_cons.1 hc with rfl | hc
        · exact hx
        · have := h2 c hc; simpa using this
      · intro c hc; have := h3 c hc; simpa using this

/-! ## C72: name -/

theorem channelKey_iff (p : Pack) (ch : Ch) (key : Int) :
    p.datakey ch = .ok key ↔ ChannelKey p.pre (· ∈ dkeys p.data) p.names ch key := by
  cases ch with
  | int k =>
    rw [(C15_lookup_order p).1]
    show _ ↔ k = key ∧ key ∈ dkeys p.data
    split
    · rename_i h
      constructor
      · intro hk; cases hk; exact ⟨rfl, h⟩
      · rintro ⟨rfl, _⟩; rfl
    · rename_i h
      constructor
      · intro hk; cases hk
      · rintro ⟨rfl, h'⟩; exact absurd h' h
  | str s => exact (C15_lookup_order p).2.1 s key

theorem datakey_error {p : Pack} {ch : Ch} {e : Exc} (h : p.datakey ch = .error e) :
    e = .keyError := by
  cases ch with
  | int k =>
    rw [(C15_lookup_order p).1] at h
    split at h
    · cases h
    · exact (Except.error.inj h).symm
  | str s => exact ((C15_lookup_order p).2.2.1 s e h).1

theorem nameBy_iff (E : NameEnv) (p : Pack) (hn : (dkeys p.names).Nodup) (key : Int)
    (fw : FirstWordArg) (v : Val) :
    p.nameBy E key fw = .ok v ↔ NameIs E p.pre p.names key fw (.other false) v := by
  have hm : ∀ x, (key, x) ∈ p.names ↔ dget p.names key = some x :=
    fun x => ⟨dget_of_mem hn, dget_mem⟩
  have whole : ∀ fw, (fw = .bool false ∨ fw = .str [] ∨ fw = .other false) →
      ((p.nameBy E key fw = match dget p.names key with
        | some v => .ok v
        | none => .error .keyError)) := by
    intro fw h
    rcases h with rfl | rfl | rfl <;> rfl
  have wholeIff : ∀ fw, (fw = .bool false ∨ fw = .str [] ∨ fw = .other false) →
      (p.nameBy E key fw = .ok v ↔ NameIs E p.pre p.names key fw (.other false) v) := by
    intro fw h
    rw [whole fw h]
    constructor
    · intro hv
      cases hd : dget p.names key with
      | none => rw [hd] at hv; cases hv
      | some x =>
        rw [hd] at hv
        rw [← Except.ok.inj hv]
        exact .whole h ((hm x).2 hd)
    · intro hv
      cases hv with
      | whole _ hx => rw [(hm _).1 hx]
      | word _ _ => rcases h with h | h | h <;> cases h
      | oddWord _ _ _ => rcases h with h | h | h <;> cases h
      | found hp _ _ => rcases h with h | h | h <;> cases h; exact absurd rfl hp
  match fw with
  | .bool false => exact wholeIff _ (.inl rfl)
  | .str [] => exact wholeIff _ (.inr (.inl rfl))
  | .other false => exact wholeIff _ (.inr (.inr rfl))
  | .bool true =>
    unfold Pack.nameBy
    dsimp only
    constructor
    · intro hv
      cases hd : dget p.names key with
      | none => rw [hd] at hv; cases hv
      | some x =>
        rw [hd] at hv
        dsimp only at hv
        cases x with
        | str s =>
          dsimp only at hv
          cases hs : splitWs E.ws s with
          | nil => rw [hs] at hv; cases hv
          | cons w r =>
            rw [hs] at hv
            rw [← Except.ok.inj hv]
            exact .word ((hm _).2 hd) (split_firstWord hs)
        | _ => exact .oddWord ((hm _).2 hd) (fun _ h => nomatch h) hv
    · intro hv
      cases hv with
      | whole h _ => rcases h with h | h | h <;> cases h
      | word hx hw =>
        rw [(hm _).1 hx]
        obtain ⟨r, hr⟩ := firstWord_split hw
        dsimp only
        rw [hr]
      | oddWord hx hne hv =>
        rw [(hm _).1 hx]
        rename_i x
        cases x with
        | str s => exact absurd rfl (hne s)
        | _ => exact hv
  | .str (c :: cs) =>
    unfold Pack.nameBy
    dsimp only
    constructor
    · intro hv
      cases hd : dget p.names key with
      | none => rw [hd] at hv; cases hv
      | some x =>
        rw [hd] at hv
        dsimp only at hv
        cases hf : E.findall (c :: cs) x with
        | error e => rw [hf] at hv; cases hv
        | ok ms =>
          rw [hf] at hv
          cases ms with
          | nil => cases hv
          | cons m ms =>
            rw [← Except.ok.inj hv]
            exact .found (by simp) ((hm _).2 hd) hf
    · intro hv
      cases hv with
      | whole h _ => rcases h with h | h | h <;> cases h
      | found _ hx hf =>
        rw [(hm _).1 hx]
        dsimp only
        rw [hf]
  | .other true =>
    constructor
    · intro hv; cases hv
    · intro hv
      cases hv with
      | whole h _ => rcases h with h | h | h <;> cases h

/-- C72.  `pack.name(ch, firstwordonly, fallback)` returns `v` exactly if `ch` stands for a
data key whose name by these arguments is `v`. -/
theorem C72_name (E : NameEnv) (p : Pack) (hn : (dkeys p.names).Nodup) (ch : Ch)
    (fw : FirstWordArg) (fb : FallbackArg) (v : Val) :
    p.nameFull E ch fw fb = .ok v ↔
      ∃ key, ChannelKey p.pre (· ∈ dkeys p.data) p.names ch key ∧
        NameIs E p.pre p.names key fw fb v := by
  unfold Pack.nameFull
  constructor
  · intro h
    cases hd : p.datakey ch with
    | error e => rw [hd] at h; cases h
    | ok key =>
      rw [hd] at h
      refine ⟨key, (channelKey_iff p ch key).1 hd, ?_⟩
      match fb with
      | .isTrue => rw [← Except.ok.inj h]; exact .fallback (decInt_isDecimal key)
      | .other true => cases h
      | .other false => exact (nameBy_iff E p hn key fw v).1 h
  · rintro ⟨key, hk, hv⟩
    rw [(channelKey_iff p ch key).2 hk]
    match fb with
    | .isTrue =>
      cases hv with
      | fallback hd => rw [isDecimal_eq hd]
    | .other true => cases hv
    | .other false => exact (nameBy_iff E p hn key fw v).2 hv

/-- C72, what is raised: KeyError when `ch` stands for no data key; TypeError for a
`fallback` that is true but not `True`, and for a `firstwordonly` that is neither;
KeyError when the channel has no name; IndexError when the name has no word; ValueError
when the pattern is not found. -/
theorem C72_errors (E : NameEnv) (p : Pack) (ch : Ch) :
    (∀ fw fb, (∀ key, ¬ ChannelKey p.pre (· ∈ dkeys p.data) p.names ch key) →
      p.nameFull E ch fw fb = .error .keyError) ∧
    (∀ key fw, ChannelKey p.pre (· ∈ dkeys p.data) p.names ch key →
      p.nameFull E ch fw (.other true) = .error .typeError ∧
      p.nameFull E ch (.other true) (.other false) = .error .typeError ∧
      ((∀ v, (key, v) ∉ p.names) → fw ≠ .other true →
        p.nameFull E ch fw (.other false) = .error .keyError)) ∧
    (∀ key s, (dkeys p.names).Nodup → ChannelKey p.pre (· ∈ dkeys p.data) p.names ch key →
      (key, .str s) ∈ p.names →
      ((∀ c ∈ s, E.ws c = true) ↔
        p.nameFull E ch (.bool true) (.other false) = .error .indexError) ∧
      (∀ pat, pat ≠ [] → E.findall pat (.str s) = .ok [] →
        p.nameFull E ch (.str pat) (.other false) = .error .valueError)) := by
  refine ⟨?_, ?_, ?_⟩
  · intro fw fb h
    unfold Pack.nameFull
    cases hd : p.datakey ch with
    | error e => rw [datakey_error hd]
    | ok key => exact absurd ((channelKey_iff p ch key).1 hd) (h key)
  · intro key fw h
    have hd := (channelKey_iff p ch key).2 h
    refine ⟨?_, ?_, ?_⟩
    · unfold Pack.nameFull; rw [hd]
    · unfold Pack.nameFull; rw [hd]; rfl
    · intro hv hfw
      have hg : dget p.names key = none := by
        cases hg : dget p.names key with
        | none => rfl
        | some v => exact absurd (dget_mem hg) (hv v)
      unfold Pack.nameFull
      rw [hd]
      dsimp only
      match fw with
      | .bool false | .str [] | .other false => simp [Pack.nameBy, hg]
      | .bool true => simp [Pack.nameBy, hg]
      | .str (c :: cs) => simp [Pack.nameBy, hg]
      | .other true => exact absurd rfl hfw
  · intro key s hn h hs
    have hd := (channelKey_iff p ch key).2 h
    have hg := dget_of_mem hn hs
    refine ⟨?_, ?_⟩
    · unfold Pack.nameFull
      rw [hd]
      simp only [Pack.nameBy, hg]
      constructor
      · intro hw; rw [splitWs_white hw]
      · intro hr
        cases hsp : splitWs E.ws s with
        | cons w r => rw [hsp] at hr; cases hr
        | nil =>
          intro c hc
          cases hcw : E.ws c with
          | true => rfl
          | false =>
            exfalso
            -- a first word would be there
            have key : ∀ s : List Char, c ∈ s → splitWs E.ws s ≠ [] := by
              intro s
              induction s with
              | nil => intro h; simp at h
              | cons x xs ih =>
                intro hm
                by_cases hx : E.ws x = true
                · rw [splitWs, if_pos hx]
                  rcases List.mem_cons.1 hm with rfl | hm
                  · rw [hcw] at hx; cases hx
                  · exact ih hm
                · rw [splitWs_word hx]; simp
            exact key s hc hsp
    · intro pat hp hf
      unfold Pack.nameFull
      rw [hd]
      match pat, hp with
      | c :: cs, _ => simp [Pack.nameBy, hg, hf]

/-- C72.  A name found under no other key leads back to its channel. -/
theorem C72_round_trip (E : NameEnv) (p : Pack) (hn : (dkeys p.names).Nodup) (k : Int)
    (hk : k ∈ dkeys p.data) (s : List Char)
    (hs : p.nameFull E (.int k) (.bool false) (.other false) = .ok (.str s))
    (hu : ∀ k', (k', .str s) ∈ p.names → k' = k) (part : Option Int) (nof : Option String) :
    p.call (.str s) part nof = p.call (.int k) part nof := by
  obtain ⟨key, ⟨rfl, _⟩, hv⟩ := (C72_name E p hn _ _ _ _).1 hs
  have hm : (k, Val.str s) ∈ p.names := by cases hv with | whole _ h => exact h
  have hdk : p.datakey (.int k) = .ok k := by rw [(C15_lookup_order p).1, if_pos hk]
  have hds : p.datakey (.str s) = .ok k := by
    rw [(C15_lookup_order p).2.1]
    refine ⟨hk, .inl ?_⟩
    obtain ⟨l1, l2, hl⟩ := List.append_of_mem hm
    refine ⟨l1, l2, hl, ?_⟩
    rintro ⟨k', x⟩ hx rfl
    have hk' := hu k' (by rw [hl]; simp [hx])
    subst hk'
    rw [hl] at hn
    simp only [dkeys, List.map_append, List.map_cons] at hn
    have hd := (List.nodup_append.1 hn).2.2
    exact hd k' (List.mem_map.2 ⟨_, hx, rfl⟩) k' (by simp) rfl
  unfold Pack.call
  rw [hdk, hds]

/-- The pack and environment of the examples: one channel, named "speed km/h". -/
def exNameEnv : NameEnv where
  ws c := c = ' '
  nonStr _ := .error .attributeError
  findall _ _ := .ok [.str ['k', 'm']]

def exNamed : Pack := Pack.init [(7, ⟨.i, [.int 1]⟩)] [(7, .str " speed km/h".toList)]

example : (dkeys exNamed.names).Nodup ∧
    exNamed.nameFull exNameEnv (.int 7) (.bool true) (.other false) = .ok (.str "speed".toList) ∧
    exNamed.nameFull exNameEnv (.int 7) (.bool true) .isTrue = .ok (.str "ch7".toList) ∧
    exNamed.nameFull exNameEnv (.str "ch7".toList) (.str ['k']) (.other false) =
      .ok (.str "km".toList) ∧
    exNamed.nameFull exNameEnv (.int 7) (.bool false) (.other false) =
      .ok (.str " speed km/h".toList) ∧
    (∀ k', (k', .str " speed km/h".toList) ∈ exNamed.names → k' = 7) := by
  refine ⟨by decide +kernel, by decide +kernel, by decide +kernel, by decide +kernel,
    by decide +kernel, ?_⟩
  intro k' h
  have : exNamed.names = [(7, .str " speed km/h".toList)] := by decide +kernel
  rw [this] at h
  simpa using h

/-- The first word of a name does not in general lead back to the channel: here it stands
for no channel. -/
theorem C72_word_counterexample :
    exNamed.nameFull exNameEnv (.int 7) (.bool true) (.other false) = .ok (.str "speed".toList) ∧
    exNamed.call (.str "speed".toList) none none = .error .keyError := by decide +kernel

/-! ## C73: repr -/

theorem shown_items {ν : Type} (repr : ν → List Char) (sep : List Char) (items : List (Int × ν)) :
    Shown repr sep items
      (joinStr sep (items.map fun x => decInt x.1 ++ [':', ' '] ++ repr x.2)) := by
  induction items with
  | nil => exact .nil
  | cons x xs ih =>
    obtain ⟨k, v⟩ := x
    cases xs with
    | nil => exact .one (decInt_isDecimal k)
    | cons q qs =>
      have := Shown.cons (v := v) (decInt_isDecimal k) ih
      simpa [joinStr] using this

theorem Spec.Shown.unique {ν : Type} {repr : ν → List Char} {sep : List Char}
    {items : List (Int × ν)} {t t' : List Char} (h : Shown repr sep items t)
    (h' : Shown repr sep items t') : t = t' := by
  induction h generalizing t' with
  | nil => cases h'; rfl
  | one hd => cases h' with | one hd' => rw [isDecimal_eq hd, isDecimal_eq hd']
  | cons hd _ ih =>
    cases h' with
    | cons hd' h' => rw [isDecimal_eq hd, isDecimal_eq hd', ih h']

theorem Spec.InOrder.unique {ν : Type} {d d' i i' : List (Int × ν)} (hp : d.Perm d')
    (h : InOrder d i) (h' : InOrder d' i') : i = i' := by
  have hperm : i.Perm i' := (h.1.trans hp).trans h'.1.symm
  have h1 : i.Pairwise (fun a b => a.1 < b.1) := List.pairwise_map.1 h.2
  have h2 : i'.Pairwise (fun a b => a.1 < b.1) := List.pairwise_map.1 h'.2
  refine hperm.eq_of_pairwise ?_ h1 h2
  intro a b _ _ hab hba
  omega

/-- The sorted keys with their values. -/
theorem sorted_inOrder {ν : Type} {d : List (Int × ν)} (hn : (dkeys d).Nodup) :
    InOrder d ((sortInts (dkeys d)).filterMap fun k => (dget d k).map fun v => (k, v)) := by
  have hperm := sortInts_perm (dkeys d)
  have hfst : ∀ l : List Int, (∀ k ∈ l, (dget d k).isSome) →
      (l.filterMap fun k => (dget d k).map fun v => (k, v)).map Prod.fst = l := by
    intro l hl
    induction l with
    | nil => rfl
    | cons k ks ih =>
      obtain ⟨v, hv⟩ := Option.isSome_iff_exists.1 (hl k (by simp))
      simp only [List.filterMap_cons, hv, Option.map_some, List.map_cons]
      rw [ih (fun k hk => hl k (by simp [hk]))]
  have hall : ∀ k ∈ sortInts (dkeys d), (dget d k).isSome := fun k hk =>
    dget_isSome.2 (mem_sortInts.1 hk)
  refine ⟨?_, ?_⟩
  · have h1 := hperm.filterMap (fun k => (dget d k).map fun v => (k, v))
    refine h1.trans ?_
    have h2 : ∀ l : List (Int × ν), (∀ x ∈ l, dget d x.1 = some x.2) →
        (dkeys l).filterMap (fun k => (dget d k).map fun v => (k, v)) = l := by
      intro l hl
      induction l with
      | nil => rfl
      | cons x xs ih =>
        have := hl x (by simp)
        simp only [dkeys, List.map_cons, List.filterMap_cons, this, Option.map_some]
        rw [show List.map Prod.fst xs = dkeys xs from rfl, ih (fun x hx => hl x (by simp [hx]))]
    rw [h2 d (fun x hx => dget_of_mem hn hx)]
  · rw [hfst _ hall]
    have hs := sortInts_sorted (dkeys d)
    have hnd : (sortInts (dkeys d)).Nodup := hperm.symm.nodup hn
    exact (hs.and hnd).imp fun h => by omega

theorem reprItems_shown {ν : Type} (repr : ν → List Char) (sep : List Char) {d : List (Int × ν)}
    (hn : (dkeys d).Nodup) :
    ∃ items, InOrder d items ∧ Shown repr sep items (reprItems repr sep d) := by
  refine ⟨_, sorted_inOrder hn, ?_⟩
  have := shown_items repr sep ((sortInts (dkeys d)).filterMap fun k => (dget d k).map fun v => (k, v))
  rw [List.map_filterMap] at this
  simpa [reprItems, Function.comp_def] using this

/-- C73.  `repr(pack)` shows all channels and all names, in ascending order of keys. -/
theorem C73_shows_all (reprArr : Arr → List Char) (reprVal : Val → List Char) (p : Pack)
    (hd : (dkeys p.data).Nodup) (hn : (dkeys p.names).Nodup) :
    ∃ ditems nitems dt nt, InOrder p.data ditems ∧ InOrder p.names nitems ∧
      Shown reprArr ",\n      ".toList ditems dt ∧ Shown reprVal ",\n       ".toList nitems nt ∧
      p.repr reprArr reprVal = "ChannelPack(\ndata={".toList ++ dt ++ "},\nnames={".toList ++ nt ++
        "})".toList := by
  obtain ⟨di, h1, h2⟩ := reprItems_shown reprArr ",\n      ".toList hd
  obtain ⟨ni, h3, h4⟩ := reprItems_shown reprVal ",\n       ".toList hn
  exact ⟨di, ni, _, _, h1, h3, h2, h4, rfl⟩

/-- C73.  `repr(pack)` depends on what is in the dicts only, not on the order in which it
was put there, nor on mask, nof, mindur or file names. -/
theorem C73_order_independent (reprArr : Arr → List Char) (reprVal : Val → List Char)
    (p q : Pack) (hd : (dkeys p.data).Nodup) (hn : (dkeys p.names).Nodup)
    (h1 : p.data.Perm q.data) (h2 : p.names.Perm q.names) :
    p.repr reprArr reprVal = q.repr reprArr reprVal := by
  have hd' : (dkeys q.data).Nodup := (h1.map Prod.fst).nodup hd
  have hn' : (dkeys q.names).Nodup := (h2.map Prod.fst).nodup hn
  obtain ⟨d1, n1, t1, u1, a1, b1, c1, e1, f1⟩ := C73_shows_all reprArr reprVal p hd hn
  obtain ⟨d2, n2, t2, u2, a2, b2, c2, e2, f2⟩ := C73_shows_all reprArr reprVal q hd' hn'
  have hi := a1.unique h1 a2
  have hj := b1.unique h2 b2
  subst hi hj
  rw [f1, f2, c1.unique c2, e1.unique e2]

example : (dkeys exNamed.data).Nodup ∧ (dkeys exNamed.names).Nodup ∧
    exNamed.repr (fun _ => ['x']) (fun _ => ['n']) =
      "ChannelPack(\ndata={7: x},\nnames={7: n})".toList ∧
    { exNamed with data := [(2, ⟨.i, []⟩), (-1, ⟨.i, []⟩)] }.repr (fun _ => ['x']) (fun _ => ['n']) =
      "ChannelPack(\ndata={-1: x,\n      2: x},\nnames={7: n})".toList := by
  refine ⟨by decide +kernel, by decide +kernel, by decide +kernel, by decide +kernel⟩

/-! ## C74: attributes -/

/-- The attributes other than the mask and its slices are the same. -/
def SameOthers (a b : Attrs) : Prop :=
  ∀ n, n ≠ "mask" → n ≠ "_cached_slicelist" → dget b n = dget a n

theorem sameOthers_mask {a : Attrs} {x y : AVal} :
    SameOthers a (dset (dset a "mask" x) "_cached_slicelist" y) := by
  intro n h1 h2
  rw [dget_dset, if_neg h2, dget_dset, if_neg h1]

theorem attrDuration_others (a : Attrs) (m : Int) :
    SameOthers a (attrDuration a m).1 ∧
      ((∀ v, dget a "mask" = some v → ∃ m, v = .arr m) →
        ∀ v, dget (attrDuration a m).1 "mask" = some v → ∃ m, v = .arr m) := by
  unfold attrDuration
  split
  · exact ⟨fun _ _ _ => rfl, fun h => h⟩
  · split
    · exact ⟨fun _ _ _ => rfl, fun h => h⟩
    · refine ⟨sameOthers_mask, fun _ v hv => ?_⟩
      rw [dget_dset, if_neg (by decide), dget_dset, if_pos rfl] at hv
      exact ⟨_, (Option.some.inj hv).symm⟩
    · exact ⟨fun _ _ _ => rfl, fun h => h⟩
  · exact ⟨fun _ _ _ => rfl, fun h => h⟩

theorem attrMindur_others (a : Attrs) :
    SameOthers a (attrMindur a).1 ∧
      ((∀ v, dget a "mask" = some v → ∃ m, v = .arr m) →
        ∀ v, dget (attrMindur a).1 "mask" = some v → ∃ m, v = .arr m) := by
  unfold attrMindur
  split
  · exact ⟨fun _ _ _ => rfl, fun h => h⟩
  · exact ⟨fun _ _ _ => rfl, fun h => h⟩
  · exact attrDuration_others a _
  · exact ⟨fun _ _ _ => rfl, fun h => h⟩

theorem attrSetMask_others (a : Attrs) (m : Mask) :
    SameOthers a (attrSetMask a m).1 ∧
      ∀ v, dget (attrSetMask a m).1 "mask" = some v → ∃ m, v = .arr m := by
  have h := attrMindur_others (dset (dset a "mask" (.arr m)) "_cached_slicelist"
    (.slices (slicelist m.bits)))
  refine ⟨fun n h1 h2 => ?_, h.2 ?_⟩
  · rw [show (attrSetMask a m).1 = _ from rfl]
    unfold attrSetMask
    rw [h.1 n h1 h2, sameOthers_mask n h1 h2]
  · intro v hv
    rw [dget_dset, if_neg (by decide), dget_dset, if_pos rfl] at hv
    exact ⟨_, (Option.some.inj hv).symm⟩

theorem attrMaskReset_others (a : Attrs) (d : List (Int × Arr)) :
    SameOthers a (attrMaskReset a d).1 ∧
      ((∀ v, dget a "mask" = some v → ∃ m, v = .arr m) →
        ∀ v, dget (attrMaskReset a d).1 "mask" = some v → ∃ m, v = .arr m) := by
  unfold attrMaskReset
  split
  · exact ⟨(attrSetMask_others a _).1, fun _ => (attrSetMask_others a _).2⟩
  · split
    · exact ⟨(attrSetMask_others a _).1, fun _ => (attrSetMask_others a _).2⟩
    · exact ⟨fun _ _ _ => rfl, fun h => h⟩

theorem wellTyped_others {a b : Attrs} (h : WellTyped a) (ho : SameOthers a b)
    (hm : ∀ v, dget b "mask" = some v → ∃ m, v = .arr m) : WellTyped b where
  pre := by rw [ho _ (by decide) (by decide)]; exact h.pre
  data := by rw [ho _ (by decide) (by decide)]; exact h.data
  names := by rw [ho _ (by decide) (by decide)]; exact h.names
  fn := by rw [ho _ (by decide) (by decide)]; exact h.fn
  filenames := by rw [ho _ (by decide) (by decide)]; exact h.filenames
  nof := by rw [ho _ (by decide) (by decide)]; exact h.nof
  mindur := by rw [ho _ (by decide) (by decide)]; exact h.mindur
  mask := hm

/-- Setting one attribute to a value of its type. -/
theorem wellTyped_dset {a : Attrs} (h : WellTyped a) {n : String} {v : AVal}
    (pre : n = "FALLBACK_PREFIX" → ∃ s, v = .str s)
    (data : n = "data" → ∃ d, v = .npdict d)
    (names : n = "names" → (∃ d, v = .ikdict d) ∨ ∃ d, v = .npdict d)
    (fn : n = "fn" → ∃ s, v = .str s)
    (nof : n = "nof" → (v = .none ∨ v = .str "nan".toList ∨ v = .str "filter".toList))
    (mindur : n = "mindur" → (v = .none ∨ ∃ i, v = .int i))
    (mask : n = "mask" → ∃ m, v = .arr m) : WellTyped (dset a n v) where
  pre := by
    rw [dget_dset]; split
    · rename_i e; obtain ⟨s, rfl⟩ := pre e.symm; exact ⟨s, rfl⟩
    · exact h.pre
  data := by
    rw [dget_dset]; split
    · rename_i e; obtain ⟨s, rfl⟩ := data e.symm; exact ⟨s, rfl⟩
    · exact h.data
  names := by
    rw [dget_dset]; split
    · rename_i e
      rcases names e.symm with ⟨s, rfl⟩ | ⟨s, rfl⟩
      · exact .inl ⟨s, rfl⟩
      · exact .inr ⟨s, rfl⟩
    · exact h.names
  fn := by
    rw [dget_dset]; split
    · rename_i e; obtain ⟨s, rfl⟩ := fn e.symm; exact ⟨s, rfl⟩
    · exact h.fn
  filenames := by
    rw [dget_dset]; split
    · exact ⟨v, rfl⟩
    · exact h.filenames
  nof := by
    rw [dget_dset]; split
    · rename_i e; exact ⟨v, rfl, nof e.symm⟩
    · exact h.nof
  mindur := by
    rw [dget_dset]; split
    · rename_i e; exact ⟨v, rfl, mindur e.symm⟩
    · exact h.mindur
  mask := by
    intro w hw
    rw [dget_dset] at hw
    split at hw
    · rename_i e; obtain ⟨m, rfl⟩ := mask e.symm; exact ⟨m, (Option.some.inj hw).symm⟩
    · exact h.mask w hw

theorem nofValid_iff {v : AVal} :
    nofValid v = true ↔ v = .none ∨ v = .str "nan".toList ∨ v = .str "filter".toList := by
  cases v <;> simp [nofValid]

/-- An assignment keeps the attributes well typed, whether it succeeds or not. -/
theorem wellTyped_set (E : AttrEnv) {a : Attrs} (h : WellTyped a) (n : String) (v : AVal) :
    WellTyped (attrSet E a n v).1 := by
  unfold attrSet
  split
  · rename_i hn; subst hn
    split
    · rename_i hv
      exact wellTyped_dset h (fun h => absurd h (by decide)) (fun h => absurd h (by decide)) (fun h => absurd h (by decide))
        (fun h => absurd h (by decide)) (fun _ => nofValid_iff.1 hv) (fun h => absurd h (by decide)) (fun h => absurd h (by decide))
    · exact h
  split
  · rename_i hn; subst hn
    split
    · exact wellTyped_dset h (fun _ => ⟨_, rfl⟩) (fun h => absurd h (by decide)) (fun h => absurd h (by decide))
        (fun h => absurd h (by decide)) (fun h => absurd h (by decide)) (fun h => absurd h (by decide)) (fun h => absurd h (by decide))
    · exact h
  split
  · split
    · exact wellTyped_others h (attrSetMask_others a _).1 (attrSetMask_others a _).2
    · exact h
  split
  · rename_i hn; subst hn
    split
    · have h' : WellTyped (dset a "mindur" .none) :=
        wellTyped_dset h (fun h => absurd h (by decide)) (fun h => absurd h (by decide)) (fun h => absurd h (by decide))
          (fun h => absurd h (by decide)) (fun h => absurd h (by decide)) (fun _ => .inl rfl) (fun h => absurd h (by decide))
      exact wellTyped_others h' (attrMindur_others _).1 ((attrMindur_others _).2 h'.mask)
    · rename_i i
      have h' : WellTyped (dset a "mindur" (.int i)) :=
        wellTyped_dset h (fun h => absurd h (by decide)) (fun h => absurd h (by decide)) (fun h => absurd h (by decide))
          (fun h => absurd h (by decide)) (fun h => absurd h (by decide)) (fun _ => .inr ⟨_, rfl⟩) (fun h => absurd h (by decide))
      exact wellTyped_others h' (attrMindur_others _).1 ((attrMindur_others _).2 h'.mask)
    · exact h
  split
  · rename_i hn; subst hn
    have hd : ∀ d, WellTyped (dset a "data" (.npdict d)) := fun d =>
      wellTyped_dset h (fun h => absurd h (by decide)) (fun _ => ⟨_, rfl⟩) (fun h => absurd h (by decide))
        (fun h => absurd h (by decide)) (fun h => absurd h (by decide)) (fun h => absurd h (by decide)) (fun h => absurd h (by decide))
    split
    · exact hd _
    · split
      · exact h
      · exact wellTyped_others (hd _) (attrMaskReset_others _ _).1
          ((attrMaskReset_others _ _).2 (hd _).mask)
  split
  · rename_i hn; subst hn
    have hd : ∀ v, ((∃ d, v = .ikdict d) ∨ ∃ d, v = .npdict d) → WellTyped (dset a "names" v) :=
      fun v hv =>
      wellTyped_dset h (fun h => absurd h (by decide)) (fun h => absurd h (by decide)) (fun _ => hv)
        (fun h => absurd h (by decide)) (fun h => absurd h (by decide)) (fun h => absurd h (by decide)) (fun h => absurd h (by decide))
    split
    · exact hd _ (.inl ⟨_, rfl⟩)
    · exact hd _ (.inr ⟨_, rfl⟩)
    · split
      · exact h
      · exact hd _ (.inl ⟨_, rfl⟩)
  split
  · rename_i hn; subst hn
    have hd : ∀ w s, WellTyped (dset (dset a "filenames" w) "fn" (.str s)) := fun w s =>
      wellTyped_dset
        (wellTyped_dset h (fun h => absurd h (by decide)) (fun h => absurd h (by decide)) (fun h => absurd h (by decide))
          (fun h => absurd h (by decide)) (fun h => absurd h (by decide)) (fun h => absurd h (by decide)) (fun h => absurd h (by decide)))
        (fun h => absurd h (by decide)) (fun h => absurd h (by decide)) (fun h => absurd h (by decide))
        (fun _ => ⟨_, rfl⟩) (fun h => absurd h (by decide)) (fun h => absurd h (by decide)) (fun h => absurd h (by decide))
    split
    · split
      · exact h
      · exact hd _ _
      · exact hd _ _
      · split
        · exact hd _ _
        · exact wellTyped_dset h (fun h => absurd h (by decide)) (fun h => absurd h (by decide)) (fun h => absurd h (by decide))
            (fun h => absurd h (by decide)) (fun h => absurd h (by decide)) (fun h => absurd h (by decide)) (fun h => absurd h (by decide))
    · exact h
  · rename_i h1 h2 h3 h4 h5 h6 h7
    exact wellTyped_dset h (fun h => absurd h h2) (fun h => absurd h h5) (fun h => absurd h h6)
      (fun h => absurd h h7) (fun h => absurd h h1) (fun h => absurd h h4) (fun h => absurd h h3)

theorem dget_filter_ne {a : Attrs} {n m : String} (h : m ≠ n) :
    dget (a.filter (·.1 ≠ n)) m = dget a m := by
  induction a with
  | nil => rfl
  | cons x xs ih =>
    obtain ⟨k, v⟩ := x
    by_cases hk : k = n
    · rw [List.filter_cons_of_neg (by simpa using hk), ih]
      have : k ≠ m := fun e => h (e ▸ hk)
      simp [dget, this]
    · rw [List.filter_cons_of_pos (by simpa using hk)]
      simp only [dget]
      rw [ih]

theorem dget_filter_self {a : Attrs} {n : String} : dget (a.filter (·.1 ≠ n)) n = none := by
  induction a with
  | nil => rfl
  | cons x xs ih =>
    obtain ⟨k, v⟩ := x
    by_cases hk : k = n
    · rw [List.filter_cons_of_neg (by simpa using hk), ih]
    · rw [List.filter_cons_of_pos (by simpa using hk)]
      simp only [dget, hk, if_false]
      exact ih

theorem wellTyped_del {a : Attrs} (h : WellTyped a) (n : String) : WellTyped (attrDel a n).1 := by
  unfold attrDel
  split
  · exact h
  · rename_i hn
    split
    · simp only [List.mem_cons, List.not_mem_nil, or_false, not_or] at hn
      obtain ⟨h1, h2, h3, h4, h5, h6, h7⟩ := hn
      have e : ∀ m, n ≠ m → dget (a.filter (·.1 ≠ n)) m = dget a m := fun m hm =>
        dget_filter_ne (fun e => hm e.symm)
      exact
        { pre := by rw [e _ h1]; exact h.pre
          data := by rw [e _ h2]; exact h.data
          names := by rw [e _ h5]; exact h.names
          fn := by rw [e _ h3]; exact h.fn
          filenames := by rw [e _ h4]; exact h.filenames
          nof := by rw [e _ h6]; exact h.nof
          mindur := by rw [e _ h7]; exact h.mindur
          mask := by
            intro v hv
            by_cases hm : n = "mask"
            · subst hm; rw [dget_filter_self] at hv; cases hv
            · rw [e _ hm] at hv; exact h.mask v hv }
    · exact h

/-! ### The value level model -/

/-- The mask and slices a pack has after `mindur` was applied. -/
theorem holds_mindur {a : Attrs} {p : Pack} (h : OfPack a p) :
    (attrMindur a).2 = none ∧ OfPack (attrMindur a).1 p.applyMindur := by
  unfold attrMindur Pack.applyMindur
  rw [h.mindur]
  cases hm : p.mindur with
  | none => exact ⟨rfl, h⟩
  | some m =>
    dsimp only [mindurVal]
    unfold attrDuration
    rw [h.cached, h.mask]
    dsimp only
    refine ⟨rfl, ?_⟩
    have e : ∀ n, n ≠ "mask" → n ≠ "_cached_slicelist" → ∀ x y,
        dget (dset (dset a "mask" x) "_cached_slicelist" y) n = dget a n := fun n h1 h2 x y =>
      sameOthers_mask n h1 h2
    unfold Pack.duration
    simp only [truncRat_int]
    exact
      { pre := by rw [e _ (by decide) (by decide)]; exact h.pre
        data := by rw [e _ (by decide) (by decide)]; exact h.data
        names := by rw [e _ (by decide) (by decide)]; exact h.names
        fn := by rw [e _ (by decide) (by decide)]; exact h.fn
        filenames := by rw [e _ (by decide) (by decide)]; exact h.filenames
        nof := by rw [e _ (by decide) (by decide)]; exact h.nof
        mindur := by rw [e _ (by decide) (by decide), h.mindur, hm]
        mask := by rw [dget_dset, if_neg (by decide), dget_dset, if_pos rfl]
        cached := by rw [dget_dset, if_pos rfl] }

theorem holds_setMask {a : Attrs} {p : Pack} (m : Mask)
    (h : ∃ x y, OfPack (dset (dset a "mask" x) "_cached_slicelist" y) p) :
    (attrSetMask a m).2 = none ∧ OfPack (attrSetMask a m).1 (p.setMask m) := by
  obtain ⟨x, y, h⟩ := h
  unfold attrSetMask Pack.setMask
  have e : ∀ n, n ≠ "mask" → n ≠ "_cached_slicelist" → ∀ z w,
      dget (dset (dset a "mask" z) "_cached_slicelist" w) n =
        dget (dset (dset a "mask" x) "_cached_slicelist" y) n := fun n h1 h2 z w => by
    rw [sameOthers_mask n h1 h2, sameOthers_mask n h1 h2]
  refine holds_mindur (p := { p with mask := m, cached := slicelist m.bits }) ?_
  exact
    { pre := by rw [e _ (by decide) (by decide)]; exact h.pre
      data := by rw [e _ (by decide) (by decide)]; exact h.data
      names := by rw [e _ (by decide) (by decide)]; exact h.names
      fn := by rw [e _ (by decide) (by decide)]; exact h.fn
      filenames := by rw [e _ (by decide) (by decide)]; exact h.filenames
      nof := by rw [e _ (by decide) (by decide)]; exact h.nof
      mindur := by rw [e _ (by decide) (by decide)]; exact h.mindur
      mask := by rw [dget_dset, if_neg (by decide), dget_dset, if_pos rfl]
      cached := by rw [dget_dset, if_pos rfl] }

theorem dset_self {a : Attrs} {n : String} {v : AVal} (h : dget a n = some v) : dset a n v = a := by
  induction a with
  | nil => simp [dget] at h
  | cons x xs ih =>
    obtain ⟨k, w⟩ := x
    simp only [dget] at h
    simp only [dset]
    by_cases hk : k = n
    · rw [if_pos hk] at h ⊢; rw [Option.some.inj h]
    · rw [if_neg hk] at h ⊢; rw [ih h]

theorem holds_mask_slot {a : Attrs} {p : Pack} (h : OfPack a p) :
    ∃ x y, OfPack (dset (dset a "mask" x) "_cached_slicelist" y) p := by
  refine ⟨.arr p.mask, .slices p.cached, ?_⟩
  rw [dset_self h.mask, dset_self h.cached]
  exact h

theorem holds_maskReset {a : Attrs} {p : Pack}
    (h : ∃ x y, OfPack (dset (dset a "mask" x) "_cached_slicelist" y) p) :
    (attrMaskReset a p.data).2 = none ∧ OfPack (attrMaskReset a p.data).1 p.maskReset := by
  unfold attrMaskReset Pack.maskReset
  cases hs : sortInts (dkeys p.data) with
  | nil => exact holds_setMask _ h
  | cons k ks =>
    have hk : k ∈ dkeys p.data := mem_sortInts.1 (by rw [hs]; simp)
    obtain ⟨x, hx⟩ := Option.isSome_iff_exists.1 (dget_isSome.2 hk)
    dsimp only
    rw [hx]
    exact holds_setMask _ h

/-- Replacing one attribute. -/
theorem holds_dset {a : Attrs} {p q : Pack} (h : OfPack a p) {n : String} {v : AVal}
    (pre : if n = "FALLBACK_PREFIX" then v = .str q.pre else q.pre = p.pre)
    (data : if n = "data" then v = .npdict q.data else q.data = p.data)
    (names : if n = "names" then v = .ikdict q.names else q.names = p.names)
    (fn : if n = "fn" then v = .str q.fn else q.fn = p.fn)
    (filenames : if n = "filenames" then v = .strs q.filenames else q.filenames = p.filenames)
    (nof : if n = "nof" then v = nofVal q.nof else q.nof = p.nof)
    (mindur : if n = "mindur" then v = mindurVal q.mindur else q.mindur = p.mindur)
    (hm : n ≠ "mask" ∧ n ≠ "_cached_slicelist")
    (mask : q.mask = p.mask ∧ q.cached = p.cached) : OfPack (dset a n v) q where
  pre := by
    rw [dget_dset]; split
    · rename_i e; rw [if_pos e.symm] at pre; rw [pre]
    · rename_i e; rw [if_neg (fun x => e x.symm)] at pre; rw [pre]; exact h.pre
  data := by
    rw [dget_dset]; split
    · rename_i e; rw [if_pos e.symm] at data; rw [data]
    · rename_i e; rw [if_neg (fun x => e x.symm)] at data; rw [data]; exact h.data
  names := by
    rw [dget_dset]; split
    · rename_i e; rw [if_pos e.symm] at names; rw [names]
    · rename_i e; rw [if_neg (fun x => e x.symm)] at names; rw [names]; exact h.names
  fn := by
    rw [dget_dset]; split
    · rename_i e; rw [if_pos e.symm] at fn; rw [fn]
    · rename_i e; rw [if_neg (fun x => e x.symm)] at fn; rw [fn]; exact h.fn
  filenames := by
    rw [dget_dset]; split
    · rename_i e; rw [if_pos e.symm] at filenames; rw [filenames]
    · rename_i e; rw [if_neg (fun x => e x.symm)] at filenames; rw [filenames]; exact h.filenames
  nof := by
    rw [dget_dset]; split
    · rename_i e; rw [if_pos e.symm] at nof; rw [nof]
    · rename_i e; rw [if_neg (fun x => e x.symm)] at nof; rw [nof]; exact h.nof
  mindur := by
    rw [dget_dset]; split
    · rename_i e; rw [if_pos e.symm] at mindur; rw [mindur]
    · rename_i e; rw [if_neg (fun x => e x.symm)] at mindur; rw [mindur]; exact h.mindur
  mask := by rw [dget_dset, if_neg (fun e => hm.1 e.symm), mask.1]; exact h.mask
  cached := by rw [dget_dset, if_neg (fun e => hm.2 e.symm), mask.2]; exact h.cached

theorem nofValid_nofVal (v : Option String) : nofValid (nofVal v) = true ↔ v ∈ nofvalids := by
  cases v with
  | none => simp [nofVal, nofValid, nofvalids]
  | some s =>
    simp only [nofVal, nofValid, nofvalids, Bool.or_eq_true, decide_eq_true_eq, List.mem_cons,
      Option.some.injEq, List.not_mem_nil, or_false, reduceCtorEq, String.toList_inj]

/-- An assignment to the attributes of a pack: what the value level model says, and no
change at all when it raises. -/
theorem C74_assign (E : AttrEnv) (a : Attrs) (p : Pack) (h : OfPack a p) :
    (∀ m, (attrSet E a "mask" (.arr m)).2 = none ∧
      OfPack (attrSet E a "mask" (.arr m)).1 (p.setMask m)) ∧
    (∀ m, (attrSet E a "mindur" (mindurVal m)).2 = none ∧
      OfPack (attrSet E a "mindur" (mindurVal m)).1 (p.setMindur m)) ∧
    (∀ v, (attrSet E a "nof" (nofVal v)).2 = (p.setNof v).2 ∧
      OfPack (attrSet E a "nof" (nofVal v)).1 (p.setNof v).1) ∧
    (∀ s, (attrSet E a "fn" (.str s)).2 = none ∧
      OfPack (attrSet E a "fn" (.str s)).1 (p.setFn s)) ∧
    (∀ s, (attrSet E a "FALLBACK_PREFIX" (.str s)).2 = none ∧
      OfPack (attrSet E a "FALLBACK_PREFIX" (.str s)).1 { p with pre := s }) ∧
    (∀ d, (attrSet E a "data" (.npdict d)).2 = none ∧
      OfPack (attrSet E a "data" (.npdict d)).1 { p with data := d }) ∧
    (∀ v d, (∀ d, v ≠ .npdict d) → E.toNp v = .ok d →
      (attrSet E a "data" v).2 = none ∧
      OfPack (attrSet E a "data" v).1 { p with data := d }.maskReset) ∧
    (∀ d, (attrSet E a "names" (.ikdict d)).2 = none ∧
      OfPack (attrSet E a "names" (.ikdict d)).1 { p with names := d }) ∧
    (∀ v d, (∀ d, v ≠ .ikdict d) → (∀ d, v ≠ .npdict d) → E.toIk v = .ok d →
      (attrSet E a "names" v).2 = none ∧
      OfPack (attrSet E a "names" v).1 { p with names := d }) := by
  have hdata : ∀ d, OfPack (dset a "data" (.npdict d)) { p with data := d } := fun d =>
    holds_dset h rfl rfl rfl rfl rfl rfl rfl (by decide) ⟨rfl, rfl⟩
  have hnames : ∀ d, OfPack (dset a "names" (.ikdict d)) { p with names := d } := fun d =>
    holds_dset h rfl rfl rfl rfl rfl rfl rfl (by decide) ⟨rfl, rfl⟩
  refine ⟨?_, ?_, ?_, ?_, ?_, ?_, ?_, ?_, ?_⟩
  · intro m
    exact holds_setMask m (holds_mask_slot h)
  · intro m
    have hm : OfPack (dset a "mindur" (mindurVal m)) { p with mindur := m } :=
      holds_dset h rfl rfl rfl rfl rfl rfl rfl (by decide) ⟨rfl, rfl⟩
    have := holds_mindur hm
    cases m <;> exact this
  · intro v
    unfold Pack.setNof
    have e : attrSet E a "nof" (nofVal v) =
      if nofValid (nofVal v) then (dset a "nof" (nofVal v), none) else (a, some .valueError) := rfl
    rw [e]
    by_cases hv : v ∈ nofvalids
    · rw [if_pos hv, if_pos ((nofValid_nofVal v).2 hv)]
      exact ⟨rfl, holds_dset h rfl rfl rfl rfl rfl rfl rfl (by decide) ⟨rfl, rfl⟩⟩
    · rw [if_neg hv, if_neg (fun x => hv ((nofValid_nofVal v).1 x))]
      exact ⟨rfl, h⟩
  · intro s
    have e : ∀ l, OfPack (dset (dset a "filenames" (.strs l)) "fn" (.str s))
        { p with filenames := l, fn := s } := fun l => by
      have h' : OfPack (dset a "filenames" (.strs l)) { p with filenames := l } :=
        holds_dset h rfl rfl rfl rfl rfl rfl rfl (by decide) ⟨rfl, rfl⟩
      exact holds_dset h' rfl rfl rfl rfl rfl rfl rfl (by decide) ⟨rfl, rfl⟩
    have hx : attrSet E a "fn" (.str s) =
      match dget a "filenames" with
      | none => (a, some .attributeError)
      | some (.strs []) => (dset (dset a "filenames" (.strs [s])) "fn" (.str s), none)
      | some (.strs (_ :: rest)) =>
        (dset (dset a "filenames" (.strs (s :: rest))) "fn" (.str s), none)
      | some w =>
        match E.oddNames w s with
        | (w', none) => (dset (dset a "filenames" w') "fn" (.str s), none)
        | (w', some e) => (dset a "filenames" w', some e) := rfl
    rw [hx, h.filenames]
    unfold Pack.setFn
    cases p.filenames with
    | nil => exact ⟨rfl, e _⟩
    | cons x xs => exact ⟨rfl, e _⟩
  · intro s
    exact ⟨rfl, holds_dset h rfl rfl rfl rfl rfl rfl rfl (by decide) ⟨rfl, rfl⟩⟩
  · intro d
    exact ⟨rfl, hdata d⟩
  · intro v d hv hd
    have e : attrSet E a "data" v = attrMaskReset (dset a "data" (.npdict d)) d := by
      cases v with
      | npdict d => exact absurd rfl (hv d)
      | _ => simp [attrSet, hd]
    rw [e]
    exact holds_maskReset (p := { p with data := d }) (holds_mask_slot (hdata d))
  · intro d
    exact ⟨rfl, hnames d⟩
  · intro v d h1 h2 hd
    have e : attrSet E a "names" v = (dset a "names" (.ikdict d), none) := by
      cases v with
      | npdict d => exact absurd rfl (h2 d)
      | ikdict d => exact absurd rfl (h1 d)
      | _ => simp [attrSet, hd]
    rw [e]
    exact ⟨rfl, hnames d⟩

/-- C74.  An assignment that raises changes nothing. -/
theorem C74_rejected (E : AttrEnv) (a : Attrs) (p : Pack) (h : OfPack a p) (n : String) (v : AVal)
    (e : Exc) (he : (attrSet E a n v).2 = some e) : (attrSet E a n v).1 = a := by
  obtain ⟨c1, c2, c3, c4, c5, c6, c7, c8, c9⟩ := C74_assign E a p h
  by_cases h1 : n = "nof"
  · subst h1
    by_cases hv : nofValid v = true
    · simp [attrSet, hv] at he
    · simp [attrSet, hv]
  by_cases h2 : n = "FALLBACK_PREFIX"
  · subst h2
    cases v with
    | str s => rw [(c5 s).1] at he; cases he
    | _ => rfl
  by_cases h3 : n = "mask"
  · subst h3
    cases v with
    | arr m => rw [(c1 m).1] at he; cases he
    | _ => rfl
  by_cases h4 : n = "mindur"
  · subst h4
    cases v with
    | none => rw [show AVal.none = mindurVal none from rfl, (c2 none).1] at he; cases he
    | int i => rw [show AVal.int i = mindurVal (some i) from rfl, (c2 (some i)).1] at he; cases he
    | _ => rfl
  by_cases h5 : n = "data"
  · subst h5
    by_cases hv : ∃ d, v = .npdict d
    · obtain ⟨d, rfl⟩ := hv
      rw [(c6 d).1] at he; cases he
    · have hv' : ∀ d, v ≠ .npdict d := fun d hd => hv ⟨d, hd⟩
      cases hd : E.toNp v with
      | ok d => rw [(c7 v d hv' hd).1] at he; cases he
      | error x =>
        cases v with
        | npdict d => exact absurd rfl (hv' d)
        | _ => simp [attrSet, hd]
  by_cases h6 : n = "names"
  · subst h6
    cases v with
    | ikdict d => rw [(c8 d).1] at he; cases he
    | npdict d => cases he
    | _ =>
      simp only [attrSet] at he ⊢
      simp only [String.reduceEq, if_false, if_true] at he ⊢
      split
      · rfl
      · rename_i hk; rw [hk] at he; cases he
  by_cases h7 : n = "fn"
  · subst h7
    cases v with
    | str s => rw [(c4 s).1] at he; cases he
    | _ => rfl
  · simp [attrSet, h1, h2, h3, h4, h5, h6, h7] at he

theorem holds_wellTyped {a : Attrs} {p : Pack} (h : OfPack a p) (hn : p.nof ∈ nofvalids) :
    WellTyped a where
  pre := ⟨_, h.pre⟩
  data := ⟨_, h.data⟩
  names := .inl ⟨_, h.names⟩
  fn := ⟨_, h.fn⟩
  filenames := ⟨_, h.filenames⟩
  nof := ⟨_, h.nof, nofValid_iff.1 ((nofValid_nofVal _).2 hn)⟩
  mindur := ⟨_, h.mindur, by cases p.mindur <;> simp [mindurVal]⟩
  mask := fun v hv => by rw [h.mask] at hv; exact ⟨_, (Option.some.inj hv).symm⟩

/-- A new pack has all its attributes. -/
theorem holds_init (E : AttrEnv) (data : List (Int × Arr)) (names : List (Int × Val)) :
    ∃ a, attrInit E data names = some a ∧ OfPack a (Pack.init data names) := by
  have h : ∀ a : Attrs, a = [("FALLBACK_PREFIX", .str ['c', 'h']), ("data", .npdict data),
      ("filenames", .strs [[]]), ("fn", .str []), ("names", .ikdict names), ("nof", .none),
      ("mindur", .none)] →
      ∃ x y, OfPack (dset (dset a "mask" x) "_cached_slicelist" y)
        { pre := ['c', 'h'], data := data, names := names, fn := [], filenames := [[]],
          nof := none, mindur := none, mask := ⟨false, []⟩, cached := [] } := by
    rintro a rfl
    exact ⟨.arr ⟨false, []⟩, .slices [], ⟨rfl, rfl, rfl, rfl, rfl, rfl, rfl, rfl, rfl⟩⟩
  obtain ⟨h1, h2⟩ := holds_maskReset (h _ rfl)
  refine ⟨(attrMaskReset _ data).1, ?_, h2⟩
  have e : attrInit E data names = match attrMaskReset
      [("FALLBACK_PREFIX", .str ['c', 'h']), ("data", .npdict data),
      ("filenames", .strs [[]]), ("fn", .str []), ("names", .ikdict names), ("nof", .none),
      ("mindur", .none)] data with
    | (a', none) => some a'
    | (_, some _) => none := rfl
  rw [e]
  dsimp only at h1
  split
  · rename_i heq; rw [heq]
  · rename_i heq; rw [heq] at h1; cases h1

/-- C74.  Whatever is assigned or deleted, or attempted so, a pack always has the
attributes FALLBACK_PREFIX, data, names, fn, filenames, nof and mindur, and they are of
their types (filenames may be anything); if there is a mask it is an array. -/
theorem C74_attributes (E : AttrEnv) (data : List (Int × Arr)) (names : List (Int × Val))
    (ops : List AttrOp) : ∃ a, attrInit E data names = some a ∧
      WellTyped (ops.foldl (attrStep E) a) := by
  obtain ⟨a, ha, h⟩ := holds_init E data names
  refine ⟨a, ha, ?_⟩
  have hw : WellTyped a := by
    refine holds_wellTyped h ?_
    have hnof : ∀ (q : Pack) (m : Mask), (q.setMask m).nof = q.nof := by
      intro q m
      unfold Pack.setMask Pack.applyMindur
      split <;> rfl
    have : (Pack.init data names).nof = none := by
      unfold Pack.init Pack.maskReset
      split
      · rw [hnof]
      · split
        · rw [hnof]
        · rfl
    rw [this]
    simp [nofvalids]
  clear ha h
  induction ops generalizing a with
  | nil => exact hw
  | cons op ops ih =>
    refine ih _ ?_
    cases op with
    | set n v => exact wellTyped_set E hw n v
    | del n => exact wellTyped_del hw n

/-- C74.  The seven attributes cannot be deleted. -/
theorem C74_undeletable (a : Attrs) (n : String) :
    (n = "FALLBACK_PREFIX" ∨ n = "data" ∨ n = "fn" ∨ n = "filenames" ∨ n = "names" ∨ n = "nof" ∨
      n = "mindur") → attrDel a n = (a, some .attributeError) := by
  intro h
  unfold attrDel
  rw [if_pos (by simpa using h)]

/-- C74.  Regular assignments and deletions keep the attributes those of a pack. -/
theorem C74_regular (E : AttrEnv) (data : List (Int × Arr)) (names : List (Int × Val))
    (ops : List AttrOp) (hr : ∀ op ∈ ops, Regular op) :
    ∃ a, attrInit E data names = some a ∧ ∃ p, OfPack (ops.foldl (attrStep E) a) p := by
  obtain ⟨a, ha, h⟩ := holds_init E data names
  refine ⟨a, ha, ?_⟩
  clear ha
  generalize Pack.init data names = p at h
  induction ops generalizing a p with
  | nil => exact ⟨p, h⟩
  | cons op ops ih =>
    have hop : ∃ q, OfPack (attrStep E a op) q := by
      have hr := hr op (by simp)
      cases op with
      | del n =>
        obtain ⟨h8, h9⟩ := hr
        show ∃ q, OfPack (attrDel a n).1 q
        unfold attrDel
        split
        · exact ⟨p, h⟩
        · rename_i hn
          split
          · refine ⟨p, ?_⟩
            simp only [List.mem_cons, List.not_mem_nil, or_false, not_or] at hn
            obtain ⟨h1, h2, h3, h4, h5, h6, h7⟩ := hn
            have e : ∀ m, n ≠ m → dget (a.filter (·.1 ≠ n)) m = dget a m := fun m hm =>
              dget_filter_ne (fun e => hm e.symm)
            exact
              { pre := by rw [e _ h1]; exact h.pre
                data := by rw [e _ h2]; exact h.data
                names := by rw [e _ h5]; exact h.names
                fn := by rw [e _ h3]; exact h.fn
                filenames := by rw [e _ h4]; exact h.filenames
                nof := by rw [e _ h6]; exact h.nof
                mindur := by rw [e _ h7]; exact h.mindur
                mask := by rw [e _ h9]; exact h.mask
                cached := by rw [e _ h8]; exact h.cached }
          · exact ⟨p, h⟩
      | set n v =>
        obtain ⟨h8, h9, h10⟩ := hr
        show ∃ q, OfPack (attrSet E a n v).1 q
        cases he : (attrSet E a n v).2 with
        | some e => rw [C74_rejected E a p h n v e he]; exact ⟨p, h⟩
        | none =>
          obtain ⟨c1, c2, c3, c4, c5, c6, c7, c8, c9⟩ := C74_assign E a p h
          by_cases h1 : n = "nof"
          · subst h1
            by_cases hv : nofValid v = true
            · rcases nofValid_iff.1 hv with rfl | rfl | rfl
              · exact ⟨_, (c3 none).2⟩
              · exact ⟨_, (c3 (some "nan")).2⟩
              · exact ⟨_, (c3 (some "filter")).2⟩
            · simp [attrSet, hv] at he
          by_cases h2 : n = "FALLBACK_PREFIX"
          · subst h2
            cases v with
            | str s => exact ⟨_, (c5 s).2⟩
            | _ => cases he
          by_cases h3 : n = "mask"
          · subst h3
            cases v with
            | arr m => exact ⟨_, (c1 m).2⟩
            | _ => cases he
          by_cases h4 : n = "mindur"
          · subst h4
            cases v with
            | none => exact ⟨_, (c2 none).2⟩
            | int i => exact ⟨_, (c2 (some i)).2⟩
            | _ => cases he
          by_cases h5 : n = "data"
          · subst h5
            by_cases hv : ∃ d, v = .npdict d
            · obtain ⟨d, rfl⟩ := hv
              exact ⟨_, (c6 d).2⟩
            · have hv' : ∀ d, v ≠ .npdict d := fun d hd => hv ⟨d, hd⟩
              cases hd : E.toNp v with
              | ok d => exact ⟨_, (c7 v d hv' hd).2⟩
              | error x =>
                cases v with
                | npdict d => exact absurd rfl (hv' d)
                | _ => simp [attrSet, hd] at he
          by_cases h6 : n = "names"
          · subst h6
            by_cases hv : ∃ d, v = .ikdict d
            · obtain ⟨d, rfl⟩ := hv
              exact ⟨_, (c8 d).2⟩
            · have hv' : ∀ d, v ≠ .ikdict d := fun d hd => hv ⟨d, hd⟩
              cases hd : E.toIk v with
              | ok d => exact ⟨_, (c9 v d hv' (h10 rfl) hd).2⟩
              | error x =>
                cases v with
                | npdict d => exact absurd rfl (h10 rfl d)
                | ikdict d => exact absurd rfl (hv' d)
                | _ => simp [attrSet, hd] at he
          by_cases h7 : n = "fn"
          · subst h7
            cases v with
            | str s => exact ⟨_, (c4 s).2⟩
            | _ => cases he
          have e : attrSet E a n v = (dset a n v, none) := by
            simp [attrSet, h1, h2, h3, h4, h5, h6, h7]
          rw [e]
          by_cases h11 : n = "filenames"
          · subst h11
            obtain ⟨l, rfl⟩ := h9 rfl
            exact ⟨{ p with filenames := l },
              holds_dset h rfl rfl rfl rfl rfl rfl rfl (by decide) ⟨rfl, rfl⟩⟩
          · exact ⟨p, holds_dset h (by simp [h2]) (by simp [h5]) (by simp [h6]) (by simp [h7])
              (by simp [h11]) (by simp [h1]) (by simp [h4]) ⟨h3, h8⟩ ⟨rfl, rfl⟩⟩
    obtain ⟨q, hq⟩ := hop
    exact ih (fun op h => hr op (by simp [h])) _ q hq

/-- An environment for examples. -/
def exAttrEnv : AttrEnv where
  toNp _ := .ok [(0, ⟨.i, [.int 1]⟩)]
  toIk _ := .error .typeError
  oddNames w _ := (w, some .attributeError)

example : ∀ op ∈ [AttrOp.set "nof" (.int 3), .set "data" (.obj 1), .del "nof",
    .set "filenames" (.strs []), .set "fn" (.str ['f']), .set "unit" (.obj 2), .del "unit"],
    Regular op := by
  intro op h
  simp only [List.mem_cons, List.not_mem_nil, or_false] at h
  rcases h with rfl | rfl | rfl | rfl | rfl | rfl | rfl <;> simp [Regular]

/-- The mask can be deleted, though the class docs list it as an attribute of a pack; an
assignment to `mindur` then raises, but has been made. -/
theorem C74_counterexample :
    ∃ a, attrInit exAttrEnv [] [] = some a ∧ (attrDel a "mask").2 = none ∧
      dget (attrDel a "mask").1 "mask" = none ∧
      (attrSet exAttrEnv (attrDel a "mask").1 "mindur" (.int 3)).2 = some .attributeError ∧
      dget (attrSet exAttrEnv (attrDel a "mask").1 "mindur" (.int 3)).1 "mindur" =
        some (.int 3) := by
  refine ⟨_, rfl, ?_⟩
  decide +kernel

end CP
