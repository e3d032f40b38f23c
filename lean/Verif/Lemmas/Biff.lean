import Verif.Model.Biff
import Verif.Spec.Biff
import Verif.Lemmas.Dbf
/-!
# Lemmas about numbers and strings in records
-/

namespace CP
open Spec

/-! ### UTF-16 -/

theorem u8_ofNat_toNat {n : Nat} (h : n < 256) : (UInt8.ofNat n).toNat = n := by
  simp [UInt8.toNat_ofNat']; omega

theorem charOfNat_toNat (c : Char) : Char.ofNat c.toNat = c := by
  simp

theorem leBytes_two (u : Nat) : leBytes 2 u = [UInt8.ofNat (u % 256), UInt8.ofNat (u / 256 % 256)] := rfl

theorem two_sum {u : Nat} (h : u < 65536) :
    (UInt8.ofNat (u % 256)).toNat + 256 * (UInt8.ofNat (u / 256 % 256)).toNat = u := by
  rw [u8_ofNat_toNat (Nat.mod_lt _ (by omega)), u8_ofNat_toNat (Nat.mod_lt _ (by omega))]
  omega

theorem char_range (c : Char) : c.toNat < 0xD800 ∨ 0xDFFF < c.toNat ∧ c.toNat < 0x110000 := by
  have h := c.valid
  simp only [UInt32.isValidChar, Nat.isValidChar] at h
  exact h

theorem utf16le_eq (lo hi : UInt8) (rest : Bytes) : utf16le (lo :: hi :: rest) =
    if lo.toNat + 256 * hi.toNat < 0xD800 ∨ 0xE000 ≤ lo.toNat + 256 * hi.toNat then
      match utf16le rest with
      | .error e => .error e
      | .ok s => .ok (Char.ofNat (lo.toNat + 256 * hi.toNat) :: s)
    else if 0xDC00 ≤ lo.toNat + 256 * hi.toNat then .error .unicodeError
    else match rest with
      | lo2 :: hi2 :: rest2 =>
        if 0xDC00 ≤ lo2.toNat + 256 * hi2.toNat ∧ lo2.toNat + 256 * hi2.toNat < 0xE000 then
          match utf16le rest2 with
          | .error e => .error e
          | .ok s => .ok (Char.ofNat (0x10000 + (lo.toNat + 256 * hi.toNat - 0xD800) * 0x400 +
              (lo2.toNat + 256 * hi2.toNat - 0xDC00)) :: s)
        else .error .unicodeError
      | _ => .error .unicodeError := by
  cases rest with
  | nil => rfl
  | cons a r => cases r <;> rfl

theorem utf16le_cons (c : Char) (rest : Bytes) :
    utf16le ((utf16Units c).flatMap (leBytes 2) ++ rest) = (match utf16le rest with
      | .error e => .error e
      | .ok s => .ok (c :: s)) := by
  have hr := char_range c
  unfold utf16Units
  split
  · rename_i h
    simp only [List.flatMap_cons, List.flatMap_nil, List.append_nil, leBytes_two, List.cons_append, List.nil_append]
    rw [utf16le_eq]
    simp only [two_sum h]
    rw [if_pos (by omega), charOfNat_toNat]
  · rename_i h
    simp only [List.flatMap_cons, List.flatMap_nil, List.append_nil, leBytes_two, List.cons_append, List.nil_append]
    rw [utf16le_eq]
    have h1 : 0xD800 + (c.toNat - 0x10000) / 0x400 < 65536 := by omega
    have h2 : 0xDC00 + (c.toNat - 0x10000) % 0x400 < 65536 := by omega
    simp only [two_sum h1, two_sum h2]
    rw [if_neg (by omega), if_neg (by omega), if_pos (by omega)]
    have : 0x10000 + (0xD800 + (c.toNat - 0x10000) / 0x400 - 0xD800) * 0x400 + (0xDC00 + (c.toNat - 0x10000) % 0x400 - 0xDC00) = c.toNat := by
      omega
    rw [this, charOfNat_toNat]

theorem utf16le_text (t : List Char) : utf16le ((textUnits t).flatMap (leBytes 2)) = .ok t := by
  induction t with
  | nil => rfl
  | cons c t ih =>
    simp only [textUnits, List.flatMap_cons, List.flatMap_append] at ih ⊢
    rw [utf16le_cons, ih]

theorem utf16Units_lt {c : Char} {u : Nat} (h : u ∈ utf16Units c) : u < 65536 := by
  have hr := char_range c
  unfold utf16Units at h
  split at h
  · simp at h; omega
  · simp at h; omega

theorem textUnits_append (a b : List Char) : textUnits (a ++ b) = textUnits a ++ textUnits b := by
  simp [textUnits]

theorem textUnits_inj {a b : List Char} (h : textUnits a = textUnits b) : a = b := by
  have := utf16le_text a
  rw [h, utf16le_text] at this
  injection this with this
  exact this.symm

/-- Small code units are characters. -/
theorem units_small {us : List Nat} (h : ∀ u ∈ us, u < 256) : us = textUnits (us.map Char.ofNat) := by
  induction us with
  | nil => rfl
  | cons u us ih =>
    have hu := h u (by simp)
    have e : (Char.ofNat u).toNat = u := by
      have hv : u.isValidChar := .inl (by omega)
      simp [Char.ofNat, hv, Char.toNat, Char.ofNatAux]
    have ht := ih (fun x hx => h x (by simp [hx]))
    simp only [textUnits, List.map_cons, List.flatMap_cons] at ht ⊢
    rw [← ht]
    unfold utf16Units
    rw [e, if_pos (by omega)]
    rfl

theorem latin1_units {us : List Nat} (h : ∀ u ∈ us, u < 256) : latin1 (us.map UInt8.ofNat) = us.map Char.ofNat := by
  unfold latin1
  rw [List.map_map]
  apply List.map_congr_left
  intro u hu
  simp only [Function.comp_apply]
  rw [u8_ofNat_toNat (h u hu)]

theorem decodeChars_units {wide : Bool} {t : List Char} {b : Bytes} (h : UnitBytes wide (textUnits t) b) :
    decodeChars wide b = .ok t := by
  unfold UnitBytes at h
  unfold decodeChars
  split at h
  · rename_i hw
    rw [if_pos hw, h.2, utf16le_text]
  · rename_i hw
    rw [if_neg hw, h.2, latin1_units h.1]
    congr 1
    exact (textUnits_inj (units_small h.1)).symm

theorem unitBytes_length {wide : Bool} {us : List Nat} {b : Bytes} (h : UnitBytes wide us b) :
    b.length = charBytes wide us.length := by
  unfold UnitBytes at h
  unfold charBytes
  split at h
  · rename_i hw
    rw [if_pos hw, h.2]
    clear h
    induction us with
    | nil => rfl
    | cons u us ih => simp only [List.flatMap_cons, List.length_append, leBytes_length, ih, List.length_cons]; omega
  · rename_i hw
    rw [if_neg hw, h.2, List.length_map]

/-- What is decoded is encoded by the bytes. -/
theorem utf16le_sound : ∀ {b : Bytes} {t : List Char}, utf16le b = .ok t → b = (textUnits t).flatMap (leBytes 2)
  | [], t, h => by
    simp only [utf16le, Except.ok.injEq] at h
    subst h; rfl
  | [_], t, h => by simp [utf16le] at h
  | lo :: hi :: rest, t, h => by
    have hlo := lo.toNat_lt
    have hhi := hi.toNat_lt
    have elo : UInt8.ofNat ((lo.toNat + 256 * hi.toNat) % 256) = lo := by
      have : (lo.toNat + 256 * hi.toNat) % 256 = lo.toNat := by omega
      rw [this]; simp
    have ehi : UInt8.ofNat ((lo.toNat + 256 * hi.toNat) / 256 % 256) = hi := by
      have : (lo.toNat + 256 * hi.toNat) / 256 % 256 = hi.toNat := by omega
      rw [this]; simp
    rw [utf16le_eq] at h
    split at h
    · rename_i hu
      split at h
      · simp at h
      · rename_i s hs
        have ih := utf16le_sound hs
        simp only [Except.ok.injEq] at h
        subst h
        have hv : (lo.toNat + 256 * hi.toNat).isValidChar := by
          rcases hu with hu | hu
          · exact .inl hu
          · exact .inr ⟨by omega, by omega⟩
        have e : (Char.ofNat (lo.toNat + 256 * hi.toNat)).toNat = lo.toNat + 256 * hi.toNat := by
          rw [Char.ofNat, dif_pos hv]; simp [Char.toNat, Char.ofNatAux]; omega
        simp only [textUnits, List.flatMap_cons, List.flatMap_append] at ih ⊢
        rw [← ih]
        unfold utf16Units
        rw [e, if_pos (by omega)]
        simp only [List.flatMap_cons, List.flatMap_nil, List.append_nil, leBytes_two, elo, ehi]
        rfl
    · split at h
      · simp at h
      · split at h
        · rename_i hu1 hu2 lo2 hi2 rest2
          have hlo2 := lo2.toNat_lt
          have hhi2 := hi2.toNat_lt
          split at h
          · rename_i hv2
            split at h
            · simp at h
            · rename_i s hs
              have ih := utf16le_sound hs
              simp only [Except.ok.injEq] at h
              subst h
              generalize hu : lo.toNat + 256 * hi.toNat = u at *
              generalize hw : lo2.toNat + 256 * hi2.toNat = v at *
              have hv : (0x10000 + (u - 0xD800) * 0x400 + (v - 0xDC00)).isValidChar := .inr ⟨by omega, by omega⟩
              have e : (Char.ofNat (0x10000 + (u - 0xD800) * 0x400 + (v - 0xDC00))).toNat = 0x10000 + (u - 0xD800) * 0x400 + (v - 0xDC00) := by
                rw [Char.ofNat, dif_pos hv]; simp [Char.toNat, Char.ofNatAux]; omega
              simp only [textUnits, List.flatMap_cons, List.flatMap_append] at ih ⊢
              rw [← ih]
              unfold utf16Units
              rw [e, if_neg (by omega)]
              have e1 : 0xD800 + (0x10000 + (u - 0xD800) * 0x400 + (v - 0xDC00) - 0x10000) / 0x400 = u := by omega
              have e2 : 0xDC00 + (0x10000 + (u - 0xD800) * 0x400 + (v - 0xDC00) - 0x10000) % 0x400 = v := by omega
              rw [e1, e2]
              have elo2 : UInt8.ofNat (v % 256) = lo2 := by
                have : v % 256 = lo2.toNat := by omega
                rw [this]; simp
              have ehi2 : UInt8.ofNat (v / 256 % 256) = hi2 := by
                have : v / 256 % 256 = hi2.toNat := by omega
                rw [this]; simp
              simp only [List.flatMap_cons, List.flatMap_nil, List.append_nil, leBytes_two, elo, ehi, elo2, ehi2]
              rfl
          · simp at h
        · simp at h

/-! ### Slices -/

theorem pySliceI_natCast {α : Type} (l : List α) (a b : Nat) : pySliceI l a b = pySlice l a b := by
  unfold pySliceI
  congr 1 <;> (rw [if_neg (by omega)]; omega)

/-- The slice after `pre` that has `m`. -/
theorem pySlice_mid {α : Type} (pre m post : List α) : pySlice (pre ++ (m ++ post)) pre.length (pre.length + m.length) = m := by
  unfold pySlice
  rw [List.take_append, List.take_of_length_le (by omega), Nat.add_sub_cancel_left, List.take_append_of_le_length (Nat.le_refl _),
    List.take_length, List.drop_left]

theorem pySliceI_mid {α : Type} {pre m post : List α} {a b : Int} (ha : a = pre.length) (hb : b = a + m.length) :
    pySliceI (pre ++ (m ++ post)) a b = m := by
  subst ha hb
  rw [← Int.natCast_add, pySliceI_natCast, pySlice_mid]

theorem pyIndex_mid {α : Type} {pre post : List α} {x : α} {a : Int} (ha : a = pre.length) :
    pyIndex (pre ++ (x :: post)) a = .ok x := by
  subst ha
  unfold pyIndex
  rw [if_neg (show ¬ ((pre.length : Int) < 0) by omega)]
  simp

/-! ### Heads of strings -/

theorem wide_eq (o : UInt8) : optWide o = Wide o := by
  simp only [optWide, Wide, Nat.testBit_eq_decide_div_mod_eq, Nat.pow_zero, Nat.div_one]

theorem phonetic_eq (o : UInt8) : optPhonetic o = Phonetic o := by
  simp only [optPhonetic, Phonetic, Nat.testBit_eq_decide_div_mod_eq]

theorem rich_eq (o : UInt8) : optRich o = Rich o := by
  simp only [optRich, Rich, Nat.testBit_eq_decide_div_mod_eq]

theorem leInt_nat {n : Nat} (h : n < 2 ^ 31) : leInt (leBytes 4 n) = n := by
  unfold leInt
  rw [leNat_leBytes (by omega), if_pos (by omega)]

theorem unpackNat_leBytes {k n : Nat} (h : n < 256 ^ k) : unpackNat k (leBytes k n) = .ok n := by
  unfold unpackNat
  rw [if_pos (leBytes_length k n), leNat_leBytes h]

theorem unpackInt_leBytes {n : Nat} (h : n < 2 ^ 31) : unpackInt (leBytes 4 n) = .ok (n : Int) := by
  unfold unpackInt
  rw [if_pos (leBytes_length 4 n), leInt_nat h]

/-- The numbers after the options byte. -/
def sizeBytes (o : UInt8) (rt sz : Nat) : Bytes :=
  (if Rich o then leBytes 2 rt else []) ++ (if Phonetic o then leBytes 4 sz else [])

theorem optSizes_head {o : UInt8} {rt sz : Nat} (h1 : rt < 65536) (h2 : sz < 2 ^ 31) (h3 : Rich o = false → rt = 0)
    (h4 : Phonetic o = false → sz = 0) (pre post : Bytes) {a : Int} (ha : a = pre.length) :
    optSizes o (pre ++ (sizeBytes o rt sz ++ post)) a = .ok (rt, (sz : Int), a + (sizeBytes o rt sz).length) := by
  unfold optSizes optRuns sizeBytes
  rw [rich_eq, phonetic_eq]
  cases hr : Rich o <;> cases hp : Phonetic o
  · simp [h3 hr, h4 hp]
  · simp only [Bool.false_eq_true, if_false, List.nil_append, if_true]
    rw [pySliceI_mid ha (by rw [leBytes_length]; rfl), unpackInt_leBytes h2]
    simp [h3 hr, leBytes_length]
  · simp only [Bool.false_eq_true, if_false, List.append_nil, if_true]
    rw [pySliceI_mid ha (by rw [leBytes_length]; rfl), unpackNat_leBytes (by omega)]
    simp [h4 hp, leBytes_length]
  · simp only [if_true]
    rw [List.append_assoc, pySliceI_mid ha (by rw [leBytes_length]; rfl), unpackNat_leBytes (by omega)]
    dsimp only
    rw [← List.append_assoc, pySliceI_mid (by rw [ha]; simp [leBytes_length]) (by rw [leBytes_length]; rfl), unpackInt_leBytes h2]
    simp only [List.length_append, leBytes_length]
    congr 3
    omega

/-! ### The shared string table -/

/-- The model is at this place of the table. -/
def AtPlace (p : SstPos) (cur : Bytes) (rest : List Bytes) : Prop :=
  ∃ pre, p.data = pre ++ cur ∧ p.pos = pre.length ∧ p.rest = rest

theorem sstChars_sound {wide : Bool} {n : Nat} {cur : Bytes} {rest : List Bytes} {us : List Nat} {cur' : Bytes}
    {rest' : List Bytes} (h : SstUnits true wide n cur rest us cur' rest') :
    ∀ pre : Bytes, ∃ t p, us = textUnits t ∧ sstChars wide (pre ++ cur) pre.length rest n = .ok (t, p) ∧
      AtPlace p cur' rest' := by
  induction h with
  | @last wide us b cur rest hb hw =>
    intro pre
    obtain ⟨t, rfl⟩ := hw rfl
    have hlen := unitBytes_length hb
    refine ⟨t, ⟨pre ++ (b ++ cur), pre.length + b.length, rest⟩, rfl, ?_, pre ++ b, by simp, by simp, rfl⟩
    rw [sstChars]
    have ha : (if wide = true then min (((((pre ++ (b ++ cur)).length : Nat) : Int) - (pre.length : Int)) / 2).toNat (textUnits t).length
        else min (((((pre ++ (b ++ cur)).length : Nat) : Int) - (pre.length : Int))).toNat (textUnits t).length) = (textUnits t).length := by
      simp only [List.length_append, hlen]
      unfold charBytes
      split <;> omega
    simp only [ha]
    rw [← hlen, pySliceI_mid rfl rfl, decodeChars_units hb]
    simp
  | @over wide us b o n next rest us' cur' rest' hb hw hn _ ih =>
    intro pre
    obtain ⟨t, rfl⟩ := hw rfl
    obtain ⟨t', p, h1, h2, h3⟩ := ih [o]
    have hlen := unitBytes_length hb
    refine ⟨t ++ t', p, by rw [h1, textUnits_append], ?_, h3⟩
    rw [sstChars]
    have ha : (if wide = true then min (((((pre ++ b).length : Nat) : Int) - (pre.length : Int)) / 2).toNat ((textUnits t).length + n)
        else min (((((pre ++ b).length : Nat) : Int) - (pre.length : Int))).toNat ((textUnits t).length + n)) = (textUnits t).length := by
      simp only [List.length_append, hlen]
      unfold charBytes
      split <;> omega
    simp only [ha]
    have hs : pySliceI (pre ++ b) pre.length ((pre.length : Int) + charBytes wide (textUnits t).length) = b := by
      have := pySliceI_mid (pre := pre) (m := b) (post := []) (a := pre.length) rfl (b := pre.length + b.length) rfl
      rw [List.append_nil] at this
      rw [← hlen, this]
    rw [hs, decodeChars_units hb]
    simp only
    rw [if_neg (by omega), wide_eq, Nat.add_sub_cancel_left]
    rw [show (1 : Int) = (([o] : Bytes).length : Int) from rfl, show o :: next = [o] ++ next from rfl, h2]

theorem sstRuns_sound {n : Nat} {cur : Bytes} {rest : List Bytes} {cur' : Bytes} {rest' : List Bytes}
    (h : SstRuns n cur rest cur' rest') : ∀ {p : SstPos}, AtPlace p cur rest → (∀ c ∈ rest, c ≠ []) →
      ∃ p', sstRuns n p = .ok p' ∧ AtPlace p' cur' rest' := by
  induction h with
  | zero => intro p hp _; exact ⟨p, rfl, hp⟩
  | @run n r cur rest cur' rest' hr _ ih =>
    rintro ⟨data, pos, prest⟩ ⟨pre, h1, h2, h3⟩ hne
    simp only at h1 h2 h3
    subst h1 h2 h3
    obtain ⟨p', g1, g2⟩ := @ih ⟨pre ++ (r ++ cur), pre.length + 4, prest⟩
      ⟨pre ++ r, by simp, by simp [hr], rfl⟩ hne
    refine ⟨p', ?_, g2⟩
    rw [sstRuns]
    have ht : SstPos.turn ⟨pre ++ (r ++ cur), pre.length, prest⟩ = .ok ⟨pre ++ (r ++ cur), pre.length, prest⟩ := by
      unfold SstPos.turn
      rw [if_neg (by simp only [List.length_append]; omega)]
    rw [ht]
    simp only
    rw [pySliceI_mid rfl (by rw [hr]; rfl), if_pos hr]
    exact g1
  | @over n next rest cur' rest' _ ih =>
    rintro ⟨data, pos, prest⟩ ⟨pre, h1, h2, h3⟩ hne
    simp only [List.append_nil] at h1 h2 h3
    subst h1 h2 h3
    obtain ⟨p', g1, g2⟩ := @ih ⟨next, 0, rest⟩ ⟨[], rfl, rfl, rfl⟩ (fun c hc => hne c (by simp [hc]))
    refine ⟨p', ?_, g2⟩
    rw [sstRuns] at g1 ⊢
    have ht : SstPos.turn ⟨data, data.length, next :: rest⟩ = .ok ⟨next, 0, rest⟩ := by
      unfold SstPos.turn
      rw [if_pos rfl]
    have ht' : SstPos.turn ⟨next, 0, rest⟩ = .ok ⟨next, 0, rest⟩ := by
      unfold SstPos.turn
      have : next ≠ [] := hne next (by simp)
      rw [if_neg (by
        intro h
        simp only at h
        have : next.length = 0 := by omega
        exact absurd (List.length_eq_zero_iff.1 this) (hne next (by simp)))]
    rw [ht] 
    rw [ht'] at g1
    exact g1

/-- After a string the model may be at the beginning of the next record already. -/
def AtPlace' (p : SstPos) (cur : Bytes) (rest : List Bytes) : Prop :=
  (cur ≠ [] ∧ AtPlace p cur rest) ∨ (cur = [] ∧ ∃ d more, rest = d :: more ∧ AtPlace p d more) ∨ (cur = [] ∧ rest = [])

theorem sstSkip_sound {n : Nat} {cur : Bytes} {rest : List Bytes} {cur' : Bytes} {rest' : List Bytes}
    (h : SstSkip true n cur rest cur' rest') {last : Bool} (hlast : cur' = [] → rest' = [] → last = true)
    {p : SstPos} (hp : AtPlace p cur rest) :
      ∃ p', sstSkip n last p = .ok p' ∧ AtPlace' p' cur' rest' := by
  obtain ⟨data, pos, prest⟩ := p
  obtain ⟨pre, h1, h2, h3⟩ := hp
  simp only at h1 h2 h3
  subst h1 h2 h3
  unfold sstSkip
  cases h with
  | @within s =>
    simp only
    by_cases hc : cur' = []
    · subst hc
      rw [if_pos (by simp)]
      cases rest' with
      | nil => simp only [hlast rfl rfl, if_true]; exact ⟨_, rfl, .inr (.inr ⟨rfl, rfl⟩)⟩
      | cons d more =>
        exact ⟨_, rfl, .inr (.inl ⟨rfl, d, more, rfl, [], rfl, by simp, rfl⟩)⟩
    · have : 0 < cur'.length := List.length_pos_iff.2 hc
      rw [if_neg (by simp only [List.length_append]; omega)]
      exact ⟨_, rfl, .inl ⟨hc, pre ++ s, by simp, by simp, rfl⟩⟩
  | @over n _ next rest _ _ hn hw hrec =>
    simp only
    rw [if_pos (by simp only [List.length_append]; omega)]
    have hw := hw rfl
    refine ⟨_, rfl, ?_⟩
    cases hrec with
    | @within s =>
      simp only [List.length_append] at hw
      refine .inl ⟨?_, s, rfl, ?_, rfl⟩
      · rintro rfl; simp at hw
      · simp only [List.length_append]; omega
    | over => omega

theorem Spec.SstUnits.mem {w wide : Bool} {n : Nat} {cur : Bytes} {rest : List Bytes} {us : List Nat} {cur' : Bytes}
    {rest' : List Bytes} (h : SstUnits w wide n cur rest us cur' rest') : ∀ c ∈ rest', c ∈ rest := by
  induction h with
  | last => exact fun _ h => h
  | over _ _ _ _ ih => exact fun c hc => List.mem_cons_of_mem _ (ih c hc)

theorem Spec.SstRuns.mem {n : Nat} {cur : Bytes} {rest : List Bytes} {cur' : Bytes} {rest' : List Bytes}
    (h : SstRuns n cur rest cur' rest') : ∀ c ∈ rest', c ∈ rest := by
  induction h with
  | zero => exact fun _ h => h
  | run _ _ ih => exact ih
  | over _ ih => exact fun c hc => List.mem_cons_of_mem _ (ih c hc)

theorem Spec.SstSkip.mem {w : Bool} {n : Nat} {cur : Bytes} {rest : List Bytes} {cur' : Bytes} {rest' : List Bytes}
    (h : SstSkip w n cur rest cur' rest') : ∀ c ∈ rest', c ∈ rest := by
  induction h with
  | within => exact fun _ h => h
  | over _ _ _ ih => exact fun c hc => List.mem_cons_of_mem _ (ih c hc)

theorem sstString_sound {cur : Bytes} {rest : List Bytes} {t : List Char} {cur' : Bytes} {rest' : List Bytes}
    (h : SstString true cur rest t cur' rest') {last : Bool} (hlast : cur' = [] → rest' = [] → last = true)
    (hne : ∀ c ∈ rest, c ≠ []) {p : SstPos} (hp : AtPlace p cur rest) :
    ∃ p', sstString last p = .ok (t, p') ∧ AtPlace' p' cur' rest' ∧ ∀ c ∈ rest', c ≠ [] := by
  cases h with
  | @mk _ o rt sz head cur _ cur1 rest1 cur2 rest2 _ _ hh hu hr hs =>
    obtain ⟨data, pos, prest⟩ := p
    obtain ⟨pre, h1, h2, h3⟩ := hp
    obtain ⟨g1, g2, g3, g4, g5, rfl⟩ := hh
    simp only at h1 h2 h3
    subst h1 h2 h3
    have hne1 : ∀ c ∈ rest1, c ≠ [] := fun c hc => hne c (hu.mem c hc)
    have hne3 : ∀ c ∈ rest', c ≠ [] := fun c hc => hne1 c (hr.mem c (hs.mem c hc))
    have e : pre ++ (leBytes 2 (textUnits t).length ++ [o] ++ (if Rich o then leBytes 2 rt else []) ++
        (if Phonetic o then leBytes 4 sz else []) ++ cur) =
        pre ++ (leBytes 2 (textUnits t).length ++ (o :: (sizeBytes o rt sz ++ cur))) := by
      simp [sizeBytes]
    obtain ⟨t', p1, k1, k2, k3⟩ := sstChars_sound hu (pre ++ leBytes 2 (textUnits t).length ++ [o] ++ sizeBytes o rt sz)
    obtain rfl := textUnits_inj k1
    obtain ⟨p2, m1, m2⟩ := sstRuns_sound hr k3 hne1
    obtain ⟨p3, n1, n2⟩ := sstSkip_sound hs hlast m2
    refine ⟨p3, ?_, n2, hne3⟩
    unfold sstString
    rw [e]
    simp only
    rw [pySliceI_mid rfl (by rw [leBytes_length]; rfl), unpackNat_leBytes g1]
    simp only
    rw [← List.append_assoc, pyIndex_mid (by simp [leBytes_length])]
    simp only
    rw [show (pre ++ leBytes 2 (textUnits t).length) ++ (o :: (sizeBytes o rt sz ++ cur)) =
      (pre ++ leBytes 2 (textUnits t).length ++ [o]) ++ (sizeBytes o rt sz ++ cur) by simp,
      optSizes_head g2 g3 g4 g5 _ _ (by simp [leBytes_length])]
    simp only
    rw [← List.append_assoc, wide_eq]
    have e2 : (pre.length : Int) + 3 + (sizeBytes o rt sz).length =
        ((pre ++ leBytes 2 (textUnits t).length ++ [o] ++ sizeBytes o rt sz).length : Int) := by
      simp [leBytes_length]; omega
    rw [e2, k2]
    simp only
    rw [m1]
    simp only
    rw [n1]

theorem sstLoop_sound {cur : Bytes} {rest : List Bytes} {ts : List (List Char)} (h : SstStrings true cur rest ts) :
    ∀ {p : SstPos}, AtPlace' p cur rest → (∀ c ∈ rest, c ≠ []) → sstLoop ts.length p = .ok ts := by
  induction h with
  | nil => intro p _ _; rfl
  | @cons cur rest t cur' rest' ts hs hrec ih =>
    intro p hp hne
    have hat : AtPlace p cur rest := by
      rcases hp with hp | ⟨hc, _⟩ | ⟨hc, _⟩
      · exact hp.2
      all_goals
        subst hc
        generalize hz : ([] : Bytes) = z at hs
        cases hs with
        | mk hh =>
          obtain ⟨_, _, _, _, _, rfl⟩ := hh
          simp at hz
    have hlast : cur' = [] → rest' = [] → (decide (ts.length = 0)) = true := by
      rintro rfl rfl
      generalize hz : ([] : Bytes) = z at hrec
      generalize hz' : ([] : List Bytes) = z' at hrec
      cases hrec with
      | nil => simp
      | cons h1 =>
        cases h1 with
        | mk hh =>
          obtain ⟨_, _, _, _, _, rfl⟩ := hh
          simp at hz
      | turn => simp at hz'
    obtain ⟨p', g1, g2, g3⟩ := sstString_sound hs hlast hne hat
    rw [List.length_cons, sstLoop, g1]
    simp only
    rw [ih g2 g3]
  | @turn next rest ts hrec ih =>
    intro p hp hne
    apply ih ?_ (fun c hc => hne c (by simp [hc]))
    have : next ≠ [] := hne next (by simp)
    rcases hp with ⟨hc, _⟩ | ⟨_, d, more, he, hp⟩ | ⟨_, he⟩
    · exact absurd rfl hc
    · simp only [List.cons.injEq] at he
      obtain ⟨rfl, rfl⟩ := he
      exact .inl ⟨this, hp⟩
    · simp at he

theorem readSST_sound {data : Bytes} {conts : List Bytes} {ts : List (List Char)} (h : SstIs true data conts ts) :
    readSST data conts = .ok ts := by
  obtain ⟨hne, hlen, uses, strings, rfl, hfirst, hs⟩ := h
  unfold readSST unpackSST
  have e1 : pySlice (leBytes 4 uses ++ leBytes 4 ts.length ++ strings) 4 8 = leBytes 4 ts.length := by
    have := pySlice_mid (leBytes 4 uses) (leBytes 4 ts.length) strings
    rw [leBytes_length, leBytes_length, ← List.append_assoc] at this
    exact this
  rw [e1, unpackInt_leBytes hlen]
  simp only [Int.toNat_natCast]
  cases ts with
  | nil => rfl
  | cons t ts =>
    apply sstLoop_sound hs (.inl ⟨hfirst (by simp), leBytes 4 uses ++ leBytes 4 (t :: ts).length, rfl, ?_, rfl⟩) hne
    simp [leBytes_length]

/-! ### Numbers -/

theorem ieee_shift (x : Rat) {e : Nat} (h : e < 1075) :
    x / ((2 ^ (1075 - e) : Nat) : Rat) = x * ((2 ^ e : Nat) : Rat) / ((2 ^ 1075 : Nat) : Rat) := by
  have e1 : (2 ^ 1075 : Nat) = 2 ^ (1075 - e) * 2 ^ e := by
    rw [← Nat.pow_add]; congr 1; omega
  have e2 : (2 ^ (1075 - e) : Nat) ≠ 0 := by simp
  have e3 : (2 ^ e : Nat) ≠ 0 := by simp
  rw [e1]
  generalize (2 ^ (1075 - e) : Nat) = a at *
  generalize (2 ^ e : Nat) = b at *
  have ha : (a : Rat) ≠ 0 := by exact_mod_cast e2
  have hb : (b : Rat) ≠ 0 := by exact_mod_cast e3
  have : ((a * b : Nat) : Rat) = (a : Rat) * (b : Rat) := Rat.natCast_mul a b
  rw [this]
  grind

theorem ieee_shift' (x e : Nat) (h : ¬ e < 1075) :
    ((x * 2 ^ (e - 1075) : Nat) : Rat) = (x : Rat) * ((2 ^ e : Nat) : Rat) / ((2 ^ 1075 : Nat) : Rat) := by
  have e1 : (2 ^ e : Nat) = 2 ^ (e - 1075) * 2 ^ 1075 := by
    rw [← Nat.pow_add]; congr 1; omega
  have e2 : (2 ^ 1075 : Nat) ≠ 0 := by simp
  rw [e1]
  generalize (2 ^ (e - 1075) : Nat) = a at *
  generalize (2 ^ 1075 : Nat) = b at *
  have hb : (b : Rat) ≠ 0 := by exact_mod_cast e2
  rw [Rat.natCast_mul, Rat.natCast_mul]
  grind

theorem doubleOfBits_ieee {neg : Bool} {e m : Nat} (he : e < 2 ^ 11) (hm : m < 2 ^ 52) :
    doubleOfBits ((if neg then 2 ^ 63 else 0) + e * 2 ^ 52 + m) = ieee neg e m := by
  have h1 : ((if neg then 2 ^ 63 else 0) + e * 2 ^ 52 + m) / 2 ^ 63 % 2 = neg.toNat := by
    cases neg <;> simp <;> omega
  have h2 : ((if neg then 2 ^ 63 else 0) + e * 2 ^ 52 + m) / 2 ^ 52 % 2 ^ 11 = e := by
    cases neg <;> simp <;> omega
  have h3 : ((if neg then 2 ^ 63 else 0) + e * 2 ^ 52 + m) % 2 ^ 52 = m := by
    cases neg <;> simp <;> omega
  unfold doubleOfBits
  simp only [h1, h2, h3]
  unfold ieee
  have hn : decide (neg.toNat = 1) = neg := by cases neg <;> rfl
  simp only [hn]
  by_cases c1 : e = 2047
  · rw [if_pos c1, if_pos c1]
  · rw [if_neg c1, if_neg c1]
    by_cases c2 : e = 0
    · rw [if_pos c2, if_pos c2]
      congr 1
      cases neg <;> simp <;> grind
    · rw [if_neg c2, if_neg c2]
      congr 1
      by_cases c3 : e < 1075
      · rw [if_pos c3, ieee_shift _ c3]
        generalize ((2 ^ e : Nat) : Rat) = a
        generalize ((2 ^ 1075 : Nat) : Rat) = b
        cases neg <;> simp <;> grind
      · rw [if_neg c3, ieee_shift' _ _ c3]
        generalize ((2 ^ e : Nat) : Rat) = a
        generalize ((2 ^ 1075 : Nat) : Rat) = b
        cases neg <;> simp <;> grind

theorem bits_split {n : Nat} (h : n < 2 ^ 64) :
    (if decide (n / 2 ^ 63 = 1) = true then 2 ^ 63 else 0) + n / 2 ^ 52 % 2 ^ 11 * 2 ^ 52 + n % 2 ^ 52 = n := by
  have h' : n < 18446744073709551616 := h
  by_cases c : n / 2 ^ 63 = 1
  · have c' : n / 9223372036854775808 = 1 := c
    rw [if_pos (decide_eq_true c)]
    show 9223372036854775808 + n / 4503599627370496 % 2048 * 4503599627370496 + n % 4503599627370496 = n
    omega
  · have c' : ¬ n / 9223372036854775808 = 1 := c
    rw [if_neg (by simpa using c)]
    show 0 + n / 4503599627370496 % 2048 * 4503599627370496 + n % 4503599627370496 = n
    omega

theorem doubleIs_iff {n : Nat} (h : n < 2 ^ 64) {v : Val} : DoubleIs n v ↔ doubleOfBits n = v := by
  constructor
  · rintro ⟨neg, e, m, he, hm, rfl, rfl⟩
    exact doubleOfBits_ieee he hm
  · rintro rfl
    refine ⟨decide (n / 2 ^ 63 = 1), n / 2 ^ 52 % 2 ^ 11, n % 2 ^ 52, Nat.mod_lt _ (by decide), Nat.mod_lt _ (by decide),
      (bits_split h).symm, ?_⟩
    rw [← doubleOfBits_ieee (Nat.mod_lt _ (by decide)) (Nat.mod_lt _ (by decide)), bits_split h]

theorem leBytes_four (n : Nat) : leBytes 4 n = UInt8.ofNat (n % 256) :: leBytes 3 (n / 256) := rfl

theorem leNat_append (a b : Bytes) : leNat (a ++ b) = leNat a + 256 ^ a.length * leNat b := by
  induction a with
  | nil => simp [leNat]
  | cons x a ih =>
    simp only [List.cons_append, leNat, ih, List.length_cons, Nat.pow_succ]
    grind

theorem unpackRK_iff (rnd : Rat → Rat) {n : Nat} (h : n < 2 ^ 32) {v : Val} :
    RkIs rnd n v ↔ unpackRK rnd (leBytes 4 n) = .ok v := by
  have hb : (UInt8.ofNat (n % 256)).toNat = n % 256 := u8_ofNat_toNat (Nat.mod_lt _ (by omega))
  have hlen : (leBytes 4 n).length = 4 := leBytes_length 4 n
  have hle : leNat (leBytes 4 n) = n := leNat_leBytes h
  have hint : leInt (leBytes 4 n) = if n < 2147483648 then (n : Int) else (n : Int) - 4294967296 := by
    unfold leInt; rw [hle]
  have hbits : leNat ([0, 0, 0, 0, UInt8.ofNat (n % 256 / 4 * 4)] ++ leBytes 3 (n / 256)) = n / 4 * 2 ^ 34 := by
    rw [leNat_append, leNat_leBytes (by omega)]
    simp only [leNat, List.length_cons, List.length_nil]
    rw [u8_ofNat_toNat (by omega)]
    show 0 + 256 * (0 + 256 * (0 + 256 * (0 + 256 * (n % 256 / 4 * 4 + 256 * 0)))) + 1099511627776 * (n / 256) = n / 4 * 17179869184
    omega
  have hslice : pySlice (leBytes 4 n) 1 4 = leBytes 3 (n / 256) := rfl
  have hl3 : (leBytes 3 (n / 256)).length = 3 := leBytes_length 3 _
  have hrk : unpackRK rnd (leBytes 4 n) = .ok (
      let w : Val := if n % 256 / 2 % 2 = 1 then .flt (((if n < 2147483648 then (n : Int) else (n : Int) - 4294967296) / 4 : Int) : Rat)
        else doubleOfBits (n / 4 * 2 ^ 34)
      if n % 256 % 2 = 1 then divHundred rnd w else w) := by
    unfold unpackRK
    rw [leBytes_four]
    simp only [hb]
    rw [← leBytes_four]
    unfold unpackInt unpackDouble
    rw [if_pos hlen, hint, hslice]
    by_cases c : n % 256 / 2 % 2 = 1
    · simp only [c, if_true]
    · simp only [c, if_false]
      rw [if_pos (by simp only [List.length_append, hl3]; rfl), hbits]
  have hd : n / 4 * 2 ^ 34 < 2 ^ 64 := by
    show n / 4 * 17179869184 < 18446744073709551616
    omega
  have h29 : (n / 4 < 2 ^ 29) ↔ n < 2147483648 := by
    show n / 4 < 536870912 ↔ _
    omega
  have forward : ∀ {v : Val}, RkIs rnd n v → unpackRK rnd (leBytes 4 n) = .ok v := by
    rintro v ⟨hundred, int, k, w, hk, hn, h1, h2, h3, h4⟩
    rw [hrk]
    have hk4 : n / 4 = k := by cases hundred <;> cases int <;> simp at hn <;> omega
    have hf : n % 256 / 2 % 2 = int.toNat := by cases hundred <;> cases int <;> simp at hn ⊢ <;> omega
    have hx : n % 256 % 2 = hundred.toNat := by cases hundred <;> cases int <;> simp at hn ⊢ <;> omega
    have hw : w = if n % 256 / 2 % 2 = 1 then .flt (((if n < 2147483648 then (n : Int) else (n : Int) - 4294967296) / 4 : Int) : Rat)
        else doubleOfBits (n / 4 * 2 ^ 34) := by
      rw [hf, hk4]
      cases int with
      | true =>
        rw [h1 rfl, if_pos (show true.toNat = 1 from rfl)]
        congr 2
        rw [← hk4]
        by_cases c : n < 2147483648
        · rw [if_pos (h29.2 c), if_pos c]; omega
        · rw [if_neg (mt h29.1 c), if_neg c]; omega
      | false =>
        rw [if_neg (by simp)]
        exact ((doubleIs_iff (by rw [← hk4]; exact hd)).1 (h2 rfl)).symm
    simp only
    rw [← hw, hx]
    cases hundred with
    | true =>
      rw [h4 rfl]
      cases w <;> rfl
    | false => rw [h3 rfl]; rfl
  have ex : ∃ v', RkIs rnd n v' := by
    have hk : n / 4 < 2 ^ 30 := by
      show n / 4 < 1073741824
      have : n < 4294967296 := h
      omega
    obtain ⟨w, hw1, hw2⟩ : ∃ w : Val,
        (decide (n / 2 % 2 = 1) = true → w = .flt (if n / 4 < 2 ^ 29 then ((n / 4 : Nat) : Int) else ((n / 4 : Nat) : Int) - 2 ^ 30 : Int)) ∧
        (decide (n / 2 % 2 = 1) = false → DoubleIs (n / 4 * 2 ^ 34) w) := by
      by_cases c : n / 2 % 2 = 1
      · exact ⟨_, fun _ => rfl, fun h => absurd c (of_decide_eq_false h)⟩
      · exact ⟨_, fun h => absurd (of_decide_eq_true h) c, fun _ => (doubleIs_iff hd).2 rfl⟩
    have hn : n = (decide (n % 2 = 1)).toNat + 2 * (decide (n / 2 % 2 = 1)).toNat + 4 * (n / 4) := by
      by_cases c : n % 2 = 1 <;> by_cases d : n / 2 % 2 = 1 <;> simp [c, d] <;> omega
    by_cases c : n % 2 = 1
    · exact ⟨_, _, _, _, w, hk, hn, hw1, hw2, fun h => absurd c (of_decide_eq_false h), fun _ => rfl⟩
    · exact ⟨_, _, _, _, w, hk, hn, hw1, hw2, fun _ => rfl, fun h => absurd (of_decide_eq_true h) c⟩
  refine ⟨forward, fun h => ?_⟩
  obtain ⟨v', hv'⟩ := ex
  have := forward hv'
  rw [h] at this
  injection this with this
  rw [this]
  exact hv'

/-! ### Strings in one record -/

theorem pySlice_at {α : Type} {l pre m post : List α} {a b : Nat} (hl : l = pre ++ (m ++ post)) (ha : a = pre.length)
    (hb : b = a + m.length) : pySlice l a b = m := by
  subst hl ha hb
  exact pySlice_mid pre m post

theorem charBytes_pos {w : Bool} {n : Nat} (h : n ≠ 0) : charBytes w n ≠ 0 := by
  unfold charBytes; split <;> omega

theorem unpackUnicode_sound {lenlen : Nat} {b : Bytes} {t : List Char} (h : StringIs lenlen b t) (pre : Bytes) :
    unpackUnicode (pre ++ b) pre.length lenlen = .ok t := by
  unfold unpackUnicode
  rcases h with ⟨rfl, more, rfl⟩ | ⟨o, rt, sz, head, text, more, ⟨h1, h2, h3, h4, h5, rfl⟩, hu, rfl⟩
  · rw [pySlice_at rfl rfl (by rw [leBytes_length]), unpackNat_leBytes (Nat.pow_pos (by omega))]
    rfl
  · rw [pySlice_at (pre := pre) (m := leBytes lenlen (textUnits t).length)
      (post := [o] ++ (if Rich o then leBytes 2 rt else []) ++ (if Phonetic o then leBytes 4 sz else []) ++ text ++ more)
      (by simp) rfl (by rw [leBytes_length]), unpackNat_leBytes h1]
    simp only
    by_cases c : (textUnits t).length = 0
    · rw [if_pos c]
      congr 1
      exact (textUnits_inj (a := t) (b := []) (List.length_eq_zero_iff.1 c)).symm
    · rw [if_neg c]
      have hget : (pre ++ (leBytes lenlen (textUnits t).length ++ [o] ++ (if Rich o then leBytes 2 rt else []) ++
          (if Phonetic o then leBytes 4 sz else []) ++ text ++ more))[pre.length + lenlen]? = some o := by
        rw [List.getElem?_append_right (by omega), Nat.add_sub_cancel_left]
        simp only [List.append_assoc]
        rw [List.getElem?_append_right (by rw [leBytes_length]; omega), leBytes_length, Nat.sub_self]
        rfl
      rw [hget]
      simp only
      rw [wide_eq, rich_eq, phonetic_eq]
      have e1 : (if Rich o = true then leBytes 2 rt else ([] : Bytes)).length = if Rich o = true then 2 else 0 := by
        split <;> simp [leBytes_length]
      have e2 : (if Phonetic o = true then leBytes 4 sz else ([] : Bytes)).length = if Phonetic o = true then 4 else 0 := by
        split <;> simp [leBytes_length]
      rw [pySlice_at (pre := pre ++ leBytes lenlen (textUnits t).length ++ [o] ++ (if Rich o then leBytes 2 rt else []) ++
          (if Phonetic o then leBytes 4 sz else [])) (m := text) (post := more) (by simp)
          (by simp only [List.length_append, leBytes_length, e1, e2, List.length_cons, List.length_nil]) (by rw [unitBytes_length hu]),
        decodeChars_units hu]

end CP
