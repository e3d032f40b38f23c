import Verif.Props.XlsObjects
import Verif.Props.SstSplit
import Verif.Spec.ObjExact

/-!
# C77: exactly which texts of objects and which URLs of hyperlinks are read
-/

namespace CP
open CP.Spec

/-! ### Texts -/

theorem txoText_any {conts : List Bytes} {us : List Nat} (h : TxoUnits false conts us) :
    TxoUnits true conts us ∨ ∀ after : List Rec, txoText us.length (contRecs conts ++ after) = .error .unicodeError := by
  induction h with
  | nil => exact .inl .nil
  | @cons o us b rest us' h1 h2 h3 h4 _ ih =>
    have hpos : us.length ≠ 0 := fun e => h2 (List.length_eq_zero_iff.1 e)
    have hb := unitBytes_length h3
    have hn : (if o ≠ 0 then ((o :: b).length - 1) / 2 else (o :: b).length - 1) = us.length ∧
        ¬ (o ≠ 0 ∧ ((o :: b).length - 1) % 2 ≠ 0) := by
      rw [List.length_cons, Nat.add_sub_cancel, hb]
      rcases h1 with rfl | rfl
      · exact ⟨rfl, fun c => c.1 rfl⟩
      · have : charBytes (Wide 1) us.length = 2 * us.length := rfl
        rw [this, if_pos (by decide)]
        omega
    have step : ∀ after, txoText (us ++ us').length (contRecs ((o :: b) :: rest) ++ after) =
        match unpackUnicodeUpd (o :: b) 0 2 (some us.length) with
        | .error e => .error e
        | .ok (_, endpos) =>
          if endpos = ((o :: b).length : Int) then (txoText us'.length (contRecs rest ++ after)).map (· + 1) else .error .assertionError := by
      intro after
      unfold contRecs
      rw [List.map_cons, List.cons_append, txoText, if_neg (by rw [List.length_append]; omega), if_pos (by rfl)]
      show (if o ≠ 0 ∧ ((o :: b).length - 1) % 2 ≠ 0 then _ else _) = _
      rw [if_neg hn.2]
      dsimp only
      have hlen : (toRec (0x3C, o :: b)).len = (o :: b).length := rfl
      have hdat : (toRec (0x3C, o :: b)).data = o :: b := rfl
      rw [hlen, hdat, hn.1, List.length_append, Nat.add_sub_cancel_left]
      cases unpackUnicodeUpd (o :: b) 0 2 (some us.length) <;> rfl
    have hs : sizeBytes o 0 0 = [] := by rcases h1 with rfl | rfl <;> rfl
    rcases decode_any h3 with ⟨t, rfl⟩ | he
    · rcases ih with ih | ih
      · exact .inl (.cons h1 h2 h3 (fun _ => ⟨t, rfl⟩) ih)
      · refine .inr fun after => ?_
        have hu : unpackUnicodeUpd (o :: b) 0 2 (some (textUnits t).length) = .ok (t, ((o :: b).length : Nat)) := by
          have := unicodeUpd_sound (rt := 0) (sz := 0) (inner := []) (data := o :: b) (pre := []) (post := []) (pos := 0) (lenlen := 2)
            (known := some (textUnits t).length) (by omega) (by omega) (fun _ => rfl) (fun _ => rfl) h3 rfl rfl (by rw [hs]; simp)
          rw [hs] at this
          simpa using this
        rw [step, hu]
        dsimp only
        rw [if_pos rfl, ih after]
        rfl
    · refine .inr fun after => ?_
      have hu : unpackUnicodeUpd (o :: b) 0 2 (some us.length) = .error .unicodeError := by
        have hsz : optSizes o (o :: b) (0 + 1) = .ok (0, 0, (0 : Int) + 1) := by rcases h1 with rfl | rfl <;> rfl
        have htext : pySliceI (o :: b) ((0 : Int) + 1) ((0 : Int) + 1 + charBytes (optWide o) us.length) = b := by
          have := pySliceI_mid (pre := [o]) (m := b) (post := []) (a := (0 : Int) + 1) (b := (0 : Int) + 1 + charBytes (optWide o) us.length)
            rfl (by rw [wide_eq, hb])
          simpa using this
        unfold unpackUnicodeUpd
        show (if us.length = 0 ∧ _ then _ else _) = _
        rw [if_neg (fun c => hpos c.1)]
        show (match optSizes o (o :: b) (0 + 1) with
          | .error e => _
          | .ok (rt, sz, p) => _) = _
        rw [hsz]
        dsimp only
        rw [htext, wide_eq, he]
      rw [step, hu]

/-- A text of an object, in records as the file format has them, is read exactly if no record ends
between the two units of a character; otherwise the file cannot be read, UnicodeDecodeError. -/
theorem C77_text_exact {data : Bytes} {conts : List Bytes} (h : TxoIs false data conts) (after : List Rec) :
    (handleTxo data (contRecs conts ++ after) = .ok conts.length ↔ TxoIs true data conts) ∧
    (¬ TxoIs true data conts → handleTxo data (contRecs conts ++ after) = .error .unicodeError) := by
  have key : TxoIs true data conts ∨ handleTxo data (contRecs conts ++ after) = .error .unicodeError := by
    obtain ⟨head, more, text, runs, t, h1, h2, h3, h4, h5, h6, hd, rfl⟩ := h
    rcases txoText_any h3 with h3 | h3
    · exact .inl ⟨head, more, text, runs, t, h1, h2, h3, h4, h5, h6, hd, rfl⟩
    · refine .inr ?_
      have f1 : field2 data 10 = (textUnits t).length :=
        field2_at h5 (pre := head) (post := leBytes 2 runs.flatten.length ++ more) (by rw [hd]; simp) h1.symm
      have ec : contRecs (text ++ runs) ++ after = contRecs text ++ (contRecs runs ++ after) := by simp [contRecs]
      unfold handleTxo
      rw [if_pos, f1, ec, h3]
      rw [hd]
      simp only [List.length_take, List.length_append, leBytes_length, h1]
      omega
  rcases key with h1 | h1
  · exact ⟨⟨fun _ => h1, fun h => handleTxo_sound h after⟩, fun k => absurd h1 k⟩
  · refine ⟨⟨fun k => ?_, fun h => handleTxo_sound h after⟩, fun _ => h1⟩
    rw [h1] at k
    cases k

/-- The hypotheses can be met: the text "😀" in two records. -/
theorem exTxo_split : TxoIs false (List.replicate 10 0 ++ leBytes 2 2 ++ leBytes 2 8 ++ [0, 0, 0, 0])
    [[1, 0x3D, 0xD8], [1, 0, 0xDE], List.replicate 8 0] := by
  refine ⟨List.replicate 10 0, [0, 0, 0, 0], [[1, 0x3D, 0xD8], [1, 0, 0xDE]], [List.replicate 8 0], ['😀'], rfl, by decide, ?_, by decide, by decide,
    by decide, by decide, rfl⟩
  exact .cons (us := [0xD83D]) (us' := [0xDE00]) (.inr rfl) (by decide) (by unfold UnitBytes; decide) (fun h => nomatch h)
    (.cons (us := [0xDE00]) (us' := []) (.inr rfl) (by decide) (by unfold UnitBytes; decide) (fun h => nomatch h) .nil)

example : ¬ TxoIs true (List.replicate 10 0 ++ leBytes 2 2 ++ leBytes 2 8 ++ [0, 0, 0, 0])
    [[1, 0x3D, 0xD8], [1, 0, 0xDE], List.replicate 8 0] := by
  intro h
  have := (C77_text_exact exTxo_split []).1.2 h
  revert this
  decide +kernel

/-! ### URLs -/

theorem units_astral (t : List Char) : (textUnits t).length = t.length + astral t := by
  induction t with
  | nil => rfl
  | cons c t ih =>
    have e : textUnits (c :: t) = utf16Units c ++ textUnits t := rfl
    rw [e, List.length_append, ih]
    unfold astral utf16Units
    rw [List.filter_cons]
    by_cases h : c.toNat < 0x10000
    · rw [if_pos h, if_neg (by simpa using h)]
      simp
      omega
    · rw [if_neg h, if_pos (by simpa using h)]
      simp
      omega

theorem urlMoniker_any {t : List Char} {extra : Bytes} (h0 : Char.ofNat 0 ∉ t)
    (h2 : UrlExtra extra) (h3 : 2 * ((textUnits t).length + 1) + extra.length < 2 ^ 32) {data pre post : Bytes}
    (hd : data = pre ++ (leBytes 4 (2 * ((textUnits t).length + 1) + extra.length) ++ (wideText t ++ [0, 0] ++ extra) ++ post))
    {ofs : Int} (ho : ofs = pre.length) :
    urlMoniker data ofs = if astral t = 0 ∨ (astral t = 12 ∧ extra = []) then .ok (ofs + 4 + (wideText t ++ [0, 0] ++ extra).length)
      else .error .assertionError := by
  obtain ⟨e, rfl, hl⟩ := uri_wide h2
  have e1 : pySliceI data ofs (ofs + 4) = leBytes 4 (2 * ((textUnits t).length + 1) + (wideText e).length) := by
    rw [hd, List.append_assoc]
    exact pySliceI_mid ho (by rw [leBytes_length]; rfl)
  have e0 : wideText t ++ [0, 0] ++ wideText e = wideText (t ++ Char.ofNat 0 :: e) := by
    unfold wideText
    rw [textUnits_append, show Char.ofNat 0 :: e = [Char.ofNat 0] ++ e from rfl, textUnits_append, nul_units, List.flatMap_append,
      List.flatMap_append, List.append_assoc]
    rfl
  have e2 : pySliceI data (ofs + 4) (ofs + 4 + ((2 * ((textUnits t).length + 1) + (wideText e).length : Nat) : Int)) =
      wideText t ++ [0, 0] ++ wideText e := by
    rw [hd, List.append_assoc, ← List.append_assoc]
    refine pySliceI_mid (by rw [ho]; simp [leBytes_length]) ?_
    simp only [List.length_append, wideText_length, List.length_cons, List.length_nil]
    omega
  have hnil : wideText e = [] ↔ (wideText e).length = 0 := List.length_eq_zero_iff.symm
  have hlen : (wideText t ++ [0, 0] ++ wideText e).length = 2 * ((textUnits t).length + 1) + (wideText e).length := by
    simp only [List.length_append, wideText_length, List.length_cons, List.length_nil]
    omega
  unfold urlMoniker
  rw [e1, unpackNat_leBytes (by omega)]
  dsimp only
  rw [e2, hlen, e0, utf16le_wide]
  dsimp only
  have hu := units_astral t
  rw [findNul_sound h0]
  by_cases hc : astral t = 0 ∨ (astral t = 12 ∧ wideText e = [])
  · rw [if_pos hc]
    rw [hnil] at hc
    have hl' : (wideText e).length = 0 ∨ (wideText e).length = 24 := by omega
    rw [if_pos (by omega)]
    congr 1
    omega
  · rw [if_neg hc]
    rw [hnil] at hc
    have hl' : (wideText e).length = 0 ∨ (wideText e).length = 24 := by omega
    rw [if_neg (by omega)]

/-- A hyperlink to a URL, as the file format has it, is read exactly if none of the characters of the
URL is beyond the BMP, or just twelve are and nothing comes after it; otherwise the file cannot be
read, AssertionError. -/
theorem C77_url_exact {range data : Bytes} {t : List Char} {extra : Bytes} (h : UrlLinkIs range data t extra) :
    handleHlink data = if astral t = 0 ∨ (astral t = 12 ∧ extra = []) then
      .ok (field2 range 0, field2 range 2, field2 range 4, field2 range 6) else .error .assertionError := by
  obtain ⟨hr, f, name, frame, location, more, hv, hn, hfr, hm, has, h0, hx, hsz, hl, hsite, hd⟩ := h
  generalize htg : urlMonikerId ++ leBytes 4 (2 * ((textUnits t).length + 1) + extra.length) ++ (wideText t ++ [0, 0] ++ extra) = target at hd
  obtain ⟨b0, b1, b2, b3, b4, b5, b6, b7, b8⟩ := flag_bits f
  have hlen : 32 ≤ data.length := by
    rw [hd]
    simp only [List.length_append, leBytes_length, hr, stdLink, List.length_cons, List.length_nil]
    omega
  have s1 : pySlice data 8 24 = linkGuid :=
    pySlice_at (pre := range) (m := stdLink) (post := [2, 0, 0, 0] ++ leBytes 4 f.value ++ name ++ frame ++ target ++ location ++ more)
      (by rw [hd]; simp) hr.symm rfl
  have s2 : pySlice data 24 28 = [2, 0, 0, 0] :=
    pySlice_at (pre := range ++ stdLink) (m := [2, 0, 0, 0]) (post := leBytes 4 f.value ++ name ++ frame ++ target ++ location ++ more)
      (by rw [hd]; simp) (by rw [List.length_append, hr]; rfl) rfl
  have s3 : pySlice data 28 32 = leBytes 4 f.value :=
    pySlice_at (pre := range ++ stdLink ++ [2, 0, 0, 0]) (post := name ++ frame ++ target ++ location ++ more)
      (by rw [hd]; simp) (by rw [List.length_append, List.length_append, hr]; rfl) (by rw [leBytes_length])
  have s4 : ∀ i, i + 2 ≤ 8 → field2 data i = field2 range i := by
    intro i hi
    unfold field2 pySlice
    rw [hd]
    simp only [List.append_assoc]
    rw [List.take_append_of_le_length (by omega)]
  generalize hp : range ++ stdLink ++ [2, 0, 0, 0] ++ leBytes 4 f.value = p at hd
  have hpl : p.length = 32 := by
    rw [← hp]
    simp [hr, stdLink, leBytes_length]
  have hname : (bitOf f.value 2 || bitOf f.value 4) = f.name := by
    rw [b2, b4]
    cases hs : f.siteName
    · rfl
    · rw [hsite hs]; rfl
  have htarget : linkTarget data f.value ((p ++ name ++ frame).length : Nat) =
      if astral t = 0 ∨ (astral t = 12 ∧ extra = []) then .ok ((p ++ name ++ frame ++ target).length : Nat) else .error .assertionError := by
    have ec : pySliceI data ((p ++ name ++ frame).length : Nat) (((p ++ name ++ frame).length : Nat) + 16) = urlMonikerId := by
      have : data = (p ++ name ++ frame) ++ (urlMonikerId ++ (leBytes 4 (2 * ((textUnits t).length + 1) + extra.length) ++
          (wideText t ++ [0, 0] ++ extra) ++ location ++ more)) := by
        rw [hd, ← htg]; simp
      rw [this]
      exact pySliceI_mid rfl rfl
    unfold linkTarget
    rw [b0, b8, if_pos (by simp [hm, has])]
    dsimp only
    rw [ec, if_pos (by decide), if_pos (by decide), urlMoniker_any (pre := p ++ name ++ frame ++ urlMonikerId) (post := location ++ more) h0 hx hsz
      (by rw [hd, ← htg]; simp) (by rw [List.length_append (bs := urlMonikerId)]; rfl)]
    split
    · congr 1
      rw [← htg]
      simp [leBytes_length, urlMonikerId]
      omega
    · rfl
  unfold handleHlink
  rw [if_pos (by rw [List.length_take]; omega), if_pos s1, if_pos s2]
  dsimp only
  rw [s3, leNat_leBytes (by omega), hname, b7, b3,
    linkStringIf_sound hn (pre := p) (post := frame ++ target ++ location ++ more) (by rw [hd]; simp) (by rw [hpl]; rfl)]
  dsimp only
  rw [linkStringIf_sound hfr (pre := p ++ name) (post := target ++ location ++ more) (by rw [hd]; simp) rfl]
  dsimp only
  rw [htarget]
  by_cases hc : astral t = 0 ∨ (astral t = 12 ∧ extra = [])
  · rw [if_pos hc, if_pos hc]
    dsimp only
    rw [linkStringIf_sound hl (pre := p ++ name ++ frame ++ target) (post := more) (by rw [hd]; simp) rfl]
    dsimp only
    have hall : data.length = p.length + name.length + frame.length + target.length + location.length + more.length := by
      rw [hd]; simp only [List.length_append]
    rw [if_neg (by simp only [List.length_append]; omega), s4 0 (by omega), s4 2 (by omega), s4 4 (by omega), s4 6 (by omega)]
  · rw [if_neg hc, if_neg hc]

/-- Hyperlinks to URLs of `n` characters beyond the BMP. -/
def exUrlLink (n : Nat) : Bytes :=
  exRange ++ stdLink ++ [2, 0, 0, 0] ++ leBytes 4 (exFlags true false false false).value ++ [] ++ [] ++
    (urlMonikerId ++ leBytes 4 (2 * ((textUnits (List.replicate n '😀')).length + 1) + ([] : Bytes).length) ++
      (wideText (List.replicate n '😀') ++ [0, 0] ++ [])) ++ [] ++ []

theorem exUrlLink_is (n : Nat) (hn : n < 1000) : UrlLinkIs exRange (exUrlLink n) (List.replicate n '😀') [] := by
  refine ⟨rfl, exFlags true false false false, [], [], [], [], by decide, rfl, rfl, rfl, rfl, ?_, .inl rfl, ?_, rfl, by decide, rfl⟩
  · intro h
    have := (List.mem_replicate.1 h).2
    revert this
    decide
  · rw [units_astral]
    have := List.length_filter_le (fun c : Char => decide (0x10000 ≤ c.toNat)) (List.replicate n '😀')
    unfold astral
    simp only [List.length_replicate, List.length_nil] at this ⊢
    omega

/-- One such character is too many, twelve are not. -/
example : handleHlink (exUrlLink 1) = .error .assertionError ∧
    handleHlink (exUrlLink 12) = .ok (field2 exRange 0, field2 exRange 2, field2 exRange 4, field2 exRange 6) := by
  refine ⟨?_, ?_⟩
  · rw [C77_url_exact (exUrlLink_is 1 (by omega)), if_neg (by decide)]
  · rw [C77_url_exact (exUrlLink_is 12 (by omega)), if_pos (by decide)]

end CP
