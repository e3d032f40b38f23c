import Verif.Spec.SstSplit
import Verif.Props.Biff
/-!
# C66: which tables are read, if records end within texts
-/

namespace CP
open CP.Spec

theorem units_bytes_inj : ∀ {a b : List Nat}, (∀ u ∈ a, u < 65536) → (∀ u ∈ b, u < 65536) → a.flatMap (leBytes 2) = b.flatMap (leBytes 2) → a = b
  | [], [], _, _, _ => rfl
  | [], y :: ys, _, _, h => by simp [leBytes_two] at h
  | x :: xs, [], _, _, h => by simp [leBytes_two] at h
  | x :: xs, y :: ys, ha, hb, h => by
    rw [List.flatMap_cons, List.flatMap_cons] at h
    obtain ⟨h1, h2⟩ := List.append_inj h (by rw [leBytes_length, leBytes_length])
    have hx := ha x (by simp)
    have hy := hb y (by simp)
    have e := congrArg leNat h1
    rw [leNat_leBytes (by omega), leNat_leBytes (by omega)] at e
    rw [e, units_bytes_inj (fun u hu => ha u (by simp [hu])) (fun u hu => hb u (by simp [hu])) h2]

theorem utf16le_fails : ∀ {b : Bytes} {e : Exc}, utf16le b = .error e → e = .unicodeError
  | [], e, h => by simp [utf16le] at h
  | [_], e, h => by
    simp only [utf16le, Except.error.injEq] at h
    exact h.symm
  | lo :: hi :: rest, e, h => by
    rw [utf16le_eq] at h
    split at h
    · split at h
      · rename_i e' h'
        cases h
        exact utf16le_fails h'
      · cases h
    · split at h
      · cases h; rfl
      · split at h
        · split at h
          · split at h
            · rename_i e' h'
              cases h
              exact utf16le_fails h'
            · cases h
          · cases h; rfl
        · cases h; rfl

/-- Units as they are stored are those of the text read, or are not read. -/
theorem decode_any {wide : Bool} {us : List Nat} {b : Bytes} (h : UnitBytes wide us b) :
    (∃ t, us = textUnits t) ∨ decodeChars wide b = .error .unicodeError := by
  unfold UnitBytes at h
  cases wide with
  | true =>
    rw [if_pos rfl] at h
    obtain ⟨h1, rfl⟩ := h
    unfold decodeChars
    rw [if_pos rfl]
    cases h2 : utf16le (us.flatMap (leBytes 2)) with
    | error e => exact .inr (by rw [utf16le_fails h2])
    | ok t =>
      refine .inl ⟨t, units_bytes_inj h1 ?_ (utf16le_sound h2)⟩
      intro u hu
      obtain ⟨c, _, hc⟩ := List.mem_flatMap.1 hu
      exact utf16Units_lt hc
  | false =>
    rw [if_neg (by decide)] at h
    refine .inl ⟨us.map Char.ofNat, ?_⟩
    have h1 := h.1
    clear h
    induction us with
    | nil => rfl
    | cons u us ih =>
      have hu := h1 u (by simp)
      have e : (Char.ofNat u).toNat = u := by
        rw [Char.ofNat, dif_pos (.inl (by omega))]
        simp [Char.toNat, Char.ofNatAux]
      rw [List.map_cons, show textUnits (Char.ofNat u :: us.map Char.ofNat) = utf16Units (Char.ofNat u) ++ textUnits (us.map Char.ofNat) by
        simp [textUnits], ← ih fun v hv => h1 v (by simp [hv])]
      unfold utf16Units
      rw [e, if_pos (by omega)]
      rfl

theorem sstChars_any {wide : Bool} {n : Nat} {cur : Bytes} {rest : List Bytes} {us : List Nat} {cur' : Bytes}
    {rest' : List Bytes} (h : SstUnits false wide n cur rest us cur' rest') :
    SstUnits true wide n cur rest us cur' rest' ∨ ∀ pre : Bytes, sstChars wide (pre ++ cur) pre.length rest n = .error .unicodeError := by
  induction h with
  | @last wide us b cur rest hb hw =>
    rcases decode_any hb with ht | he
    · exact .inl (.last hb fun _ => ht)
    · refine .inr fun pre => ?_
      have hlen := unitBytes_length hb
      rw [sstChars]
      have ha : (if wide = true then min (((((pre ++ (b ++ cur)).length : Nat) : Int) - (pre.length : Int)) / 2).toNat us.length
          else min (((((pre ++ (b ++ cur)).length : Nat) : Int) - (pre.length : Int))).toNat us.length) = us.length := by
        simp only [List.length_append, hlen]
        unfold charBytes
        split <;> omega
      simp only [ha]
      rw [← hlen, pySliceI_mid rfl rfl, he]
  | @over wide us b o n next rest us' cur' rest' hb hw hn _ ih =>
    have hlen := unitBytes_length hb
    have key : ∀ pre : Bytes, sstChars wide (pre ++ b) pre.length ((o :: next) :: rest) (us.length + n) =
        match decodeChars wide b with
        | .error e => .error e
        | .ok s =>
          match sstChars (Wide o) ([o] ++ next) ([o] : Bytes).length rest n with
          | .error e => .error e
          | .ok (s', p) => .ok (s ++ s', p) := by
      intro pre
      rw [sstChars]
      have ha : (if wide = true then min (((((pre ++ b).length : Nat) : Int) - (pre.length : Int)) / 2).toNat (us.length + n)
          else min (((((pre ++ b).length : Nat) : Int) - (pre.length : Int))).toNat (us.length + n)) = us.length := by
        simp only [List.length_append, hlen]
        unfold charBytes
        split <;> omega
      simp only [ha]
      have hs : pySliceI (pre ++ b) pre.length ((pre.length : Int) + charBytes wide us.length) = b := by
        have := pySliceI_mid (pre := pre) (m := b) (post := []) (a := pre.length) rfl (b := pre.length + b.length) rfl
        rw [List.append_nil] at this
        rw [← hlen, this]
      rw [hs]
      cases decodeChars wide b with
      | error e => rfl
      | ok s =>
        simp only
        rw [if_neg (by omega), wide_eq, Nat.add_sub_cancel_left]
        rfl
    rcases decode_any hb with ht | he
    · rcases ih with h1 | h1
      · exact .inl (.over hb (fun _ => ht) hn h1)
      · refine .inr fun pre => ?_
        obtain ⟨t, rfl⟩ := ht
        rw [key, decodeChars_units hb, h1 [o]]
    · exact .inr fun pre => by rw [key, he]

theorem sstString_any {cur : Bytes} {rest : List Bytes} {t : List Char} {cur' : Bytes} {rest' : List Bytes}
    (h : AnyString cur rest t cur' rest') :
    SstString true cur rest t cur' rest' ∨ ∀ {last : Bool} {p : SstPos}, AtPlace p cur rest → sstString last p = .error .unicodeError := by
  cases h with
  | @mk _ o rt sz head cur _ cur1 rest1 cur2 rest2 _ _ hh hu hr hs =>
    rcases sstChars_any hu with hu | he
    · exact .inl (.mk hh hu hr hs)
    · refine .inr ?_
      rintro last ⟨data, pos, prest⟩ ⟨pre, h1, h2, h3⟩
      obtain ⟨g1, g2, g3, g4, g5, rfl⟩ := hh
      simp only at h1 h2 h3
      subst h1 h2 h3
      have e : pre ++ (leBytes 2 (textUnits t).length ++ [o] ++ (if Rich o then leBytes 2 rt else []) ++
          (if Phonetic o then leBytes 4 sz else []) ++ cur) =
          pre ++ (leBytes 2 (textUnits t).length ++ (o :: (sizeBytes o rt sz ++ cur))) := by
        simp [sizeBytes]
      have k2 := he (pre ++ leBytes 2 (textUnits t).length ++ [o] ++ sizeBytes o rt sz)
      unfold sstString
      rw [e]
      simp only
      rw [pySliceI_mid rfl (by rw [leBytes_length]; rfl), unpackNat_leBytes g1]
      simp only
      rw [← List.append_assoc, pyIndex_mid (by simp [leBytes_length])]
      simp only
      rw [show (pre ++ leBytes 2 (textUnits t).length) ++ (o :: (sizeBytes o rt sz ++ cur)) =
        (pre ++ leBytes 2 (textUnits t).length ++ [o]) ++ (sizeBytes o rt sz ++ cur) by simp,
        optSizes_head g2 g3 g4 g5 _ _ (by simp [leBytes_length])]
      simp only
      rw [← List.append_assoc, wide_eq]
      have e2 : (pre.length : Int) + 3 + (sizeBytes o rt sz).length =
          ((pre ++ leBytes 2 (textUnits t).length ++ [o] ++ sizeBytes o rt sz).length : Int) := by
        simp [leBytes_length]; omega
      rw [e2, k2]

theorem anyString_ne {cur : Bytes} {rest : List Bytes} {t : List Char} {cur' : Bytes} {rest' : List Bytes} (h : AnyString cur rest t cur' rest') :
    cur ≠ [] := by
  cases h with
  | mk hh =>
    obtain ⟨_, _, _, _, _, rfl⟩ := hh
    simp

theorem sstLoop_any {cur : Bytes} {rest : List Bytes} {ts : List (List Char)} (h : AnyStrings cur rest ts) :
    SstStrings true cur rest ts ∨
    ∀ {p : SstPos}, AtPlace' p cur rest → (∀ c ∈ rest, c ≠ []) → sstLoop ts.length p = .error .unicodeError := by
  induction h with
  | nil => exact .inl .nil
  | @cons cur rest t cur' rest' ts hs hrec ih =>
    have hat : ∀ {p : SstPos}, AtPlace' p cur rest → AtPlace p cur rest := by
      intro p hp
      rcases hp with hp | ⟨hc, _⟩ | ⟨hc, _⟩
      · exact hp.2
      · exact absurd hc (anyString_ne hs)
      · exact absurd hc (anyString_ne hs)
    have hlast : cur' = [] → rest' = [] → (decide (ts.length = 0)) = true := by
      rintro rfl rfl
      generalize hz : ([] : Bytes) = z at hrec
      generalize hz' : ([] : List Bytes) = z' at hrec
      cases hrec with
      | nil => simp
      | cons h1 => exact absurd hz.symm (anyString_ne h1)
      | turn => simp at hz'
    rcases sstString_any hs with h1 | h1
    · rcases ih with h2 | h2
      · exact .inl (.cons h1 h2)
      · refine .inr fun {p} hp hne => ?_
        obtain ⟨p', g1, g2, g3⟩ := sstString_sound h1 hlast hne (hat hp)
        rw [List.length_cons, sstLoop, g1]
        simp only
        rw [h2 g2 g3]
    · refine .inr fun {p} hp hne => ?_
      rw [List.length_cons, sstLoop, h1 (hat hp)]
  | @turn next rest ts hrec ih =>
    rcases ih with h | h
    · exact .inl (.turn h)
    · refine .inr fun {p} hp hne => h ?_ (fun c hc => hne c (by simp [hc]))
      have : next ≠ [] := hne next (by simp)
      rcases hp with ⟨hc, _⟩ | ⟨_, d, more, he, hp⟩ | ⟨_, he⟩
      · exact absurd rfl hc
      · simp only [List.cons.injEq] at he
        obtain ⟨rfl, rfl⟩ := he
        exact .inl ⟨this, hp⟩
      · simp at he

theorem readSST_any {data : Bytes} {conts : List Bytes} {ts : List (List Char)} (h : AnySst data conts ts) :
    SstIs true data conts ts ∨ readSST data conts = .error .unicodeError := by
  obtain ⟨hne, hlen, uses, strings, rfl, hfirst, hs⟩ := h
  cases ts with
  | nil => exact .inl ⟨hne, hlen, uses, strings, rfl, hfirst, .nil⟩
  | cons t ts =>
    rcases sstLoop_any hs with h | h
    · exact .inl ⟨hne, hlen, uses, strings, rfl, hfirst, h⟩
    · refine .inr ?_
      unfold readSST unpackSST
      have e1 : pySlice (leBytes 4 uses ++ leBytes 4 (t :: ts).length ++ strings) 4 8 = leBytes 4 (t :: ts).length := by
        have := pySlice_mid (leBytes 4 uses) (leBytes 4 (t :: ts).length) strings
        rw [leBytes_length, leBytes_length, ← List.append_assoc] at this
        exact this
      rw [e1, unpackInt_leBytes hlen]
      simp only [Int.toNat_natCast]
      apply h (.inl ⟨hfirst (by simp), leBytes 4 uses ++ leBytes 4 (t :: ts).length, rfl, ?_, rfl⟩) hne
      simp [leBytes_length]

/-- C66: exactly which tables are read, if phonetic data does not go on beyond the next record: those where no record ends between the two units
of a character.  The others raise UnicodeDecodeError. -/
theorem C66_exact {data : Bytes} {conts : List Bytes} {ts : List (List Char)} (h : AnySst data conts ts) :
    (readSST data conts = .ok ts ↔ SstIs true data conts ts) ∧ (¬ SstIs true data conts ts → readSST data conts = .error .unicodeError) := by
  rcases readSST_any h with h1 | h1
  · exact ⟨⟨fun _ => h1, readSST_sound⟩, fun k => absurd h1 k⟩
  · refine ⟨⟨fun k => ?_, readSST_sound⟩, fun _ => h1⟩
    rw [h1] at k
    cases k

/-- A character between two records: the table of `C66_split_counterexample`. -/
theorem split_sst : AnySst [1, 0, 0, 0, 1, 0, 0, 0, 2, 0, 1, 0x3D, 0xD8] [[1, 0, 0xDE]] [['😀']] := by
  refine ⟨by decide, by decide, 1, [2, 0, 1, 0x3D, 0xD8], by decide, by decide, .cons (cur' := []) (rest' := []) ?_ .nil⟩
  refine .mk (o := 1) (rt := 0) (sz := 0) (head := [2, 0, 1]) (cur := [0x3D, 0xD8]) (cur1 := []) (rest1 := []) (cur2 := []) (rest2 := [])
    ⟨by decide, by decide, by decide, by decide, by decide, by decide⟩ ?_ .zero (.within (p := []))
  exact .over (us := [0xD83D]) (us' := [0xDE00]) (n := 1) (next := [0, 0xDE]) (o := 1)
    (by unfold UnitBytes; decide) (fun h => by cases h) (by decide)
    (.last (us := [0xDE00]) (b := [0, 0xDE]) (cur := []) (by unfold UnitBytes; decide) (fun h => by cases h))

example : ¬ SstIs true [1, 0, 0, 0, 1, 0, 0, 0, 2, 0, 1, 0x3D, 0xD8] [[1, 0, 0xDE]] [['😀']] := by
  intro h
  have h1 := (C66_exact split_sst).1.2 h
  have h2 : readSST [1, 0, 0, 0, 1, 0, 0, 0, 2, 0, 1, 0x3D, 0xD8] [[1, 0, 0xDE]] = .error .unicodeError := by decide +kernel
  rw [h1] at h2
  cases h2

end CP
