import Verif.Lemmas.XlsSheet
import Verif.Model.XlsObjects
import Verif.Spec.XlsObjects
/-!
# Lemmas for hyperlinks, objects and notes
-/

namespace CP
open CP.Spec

theorem wideText_length (t : List Char) : (wideText t).length = 2 * (textUnits t).length := by
  unfold wideText
  generalize textUnits t = us
  induction us with
  | nil => rfl
  | cons u us ih => simp only [List.flatMap_cons, List.length_append, leBytes_length, ih, List.length_cons]; omega

theorem nul_units : textUnits [Char.ofNat 0] = [0] := by decide

theorem wideText_nul (t : List Char) : wideText t ++ [0, 0] = wideText (t ++ [Char.ofNat 0]) := by
  unfold wideText
  rw [textUnits_append, nul_units, List.flatMap_append]
  rfl

theorem utf16le_wide (t : List Char) : utf16le (wideText t) = .ok t := utf16le_text t

/-! ### Hyperlinks -/

/-- The bits of the flags. -/
theorem flag_bits (f : LinkFlags) :
    bitOf f.value 0 = f.moniker ∧ bitOf f.value 1 = f.absolute ∧ bitOf f.value 2 = f.siteName ∧ bitOf f.value 3 = f.location ∧
    bitOf f.value 4 = f.name ∧ bitOf f.value 5 = f.guid ∧ bitOf f.value 6 = f.time ∧ bitOf f.value 7 = f.frame ∧
    bitOf f.value 8 = f.asString := by
  have key : ∀ (b : Bool) (n k : Nat), n / 2 ^ k % 2 = b.toNat → bitOf n k = b := by
    intro b n k h
    unfold bitOf
    rw [h]
    cases b <;> rfl
  unfold LinkFlags.value
  have h0 := f.moniker.toNat_lt
  have h1 := f.absolute.toNat_lt
  have h2 := f.siteName.toNat_lt
  have h3 := f.location.toNat_lt
  have h4 := f.name.toNat_lt
  have h5 := f.guid.toNat_lt
  have h6 := f.time.toNat_lt
  have h7 := f.frame.toNat_lt
  have h8 := f.asString.toNat_lt
  refine ⟨key _ _ _ ?_, key _ _ _ ?_, key _ _ _ ?_, key _ _ _ ?_, key _ _ _ ?_, key _ _ _ ?_, key _ _ _ ?_, key _ _ _ ?_, key _ _ _ ?_⟩ <;>
    omega

theorem linkString_sound {b : Bytes} (h : LinkString b) {data pre post : Bytes} (hd : data = pre ++ (b ++ post)) {ofs : Int}
    (ho : ofs = pre.length) : linkString data ofs = .ok ((pre ++ b).length : Nat) := by
  obtain ⟨t, hn, rfl⟩ := h
  have e1 : pySliceI data ofs (ofs + 4) = leBytes 4 ((textUnits t).length + 1) := by
    rw [hd, List.append_assoc, List.append_assoc]
    exact pySliceI_mid ho (by rw [leBytes_length]; rfl)
  have e2 : pySliceI data (ofs + 4) (ofs + 4 + ((((textUnits t).length + 1) * 2 : Nat) : Int)) = wideText (t ++ [Char.ofNat 0]) := by
    have hd' : data = (pre ++ leBytes 4 ((textUnits t).length + 1)) ++ (wideText (t ++ [Char.ofNat 0]) ++ post) := by
      rw [hd, ← wideText_nul]; simp
    rw [hd']
    refine pySliceI_mid (by rw [ho]; simp [leBytes_length]) ?_
    rw [wideText_length, textUnits_append, nul_units, List.length_append, Nat.mul_comm]
    rfl
  unfold linkString
  rw [e1, unpackNat_leBytes (by omega)]
  dsimp only
  rw [e2, utf16le_wide]
  simp only [Except.map]
  congr 1
  simp only [List.length_append, leBytes_length, wideText_length, List.length_cons, List.length_nil]
  omega

theorem linkStringIf_sound {there : Bool} {b : Bytes} (h : if there then LinkString b else b = []) {data pre post : Bytes}
    (hd : data = pre ++ (b ++ post)) {ofs : Int} (ho : ofs = pre.length) : linkStringIf there data ofs = .ok ((pre ++ b).length : Nat) := by
  unfold linkStringIf
  split
  · rename_i c
    rw [if_pos c] at h
    exact linkString_sound h hd ho
  · rename_i c
    rw [if_neg c] at h
    rw [h, List.append_nil, ho]

theorem uri_wide {b : Bytes} (h : UrlExtra b) : ∃ e, b = wideText e ∧ (b.length = 24 ∨ b.length = 0) := by
  rcases h with rfl | ⟨flags, h1, h2, rfl⟩
  · exact ⟨[], rfl, .inr rfl⟩
  · have hf : flags < 0xD800 ∨ 0xE000 ≤ flags := by
      rw [Nat.testBit_eq_decide_div_mod_eq, Nat.testBit_eq_decide_div_mod_eq] at h2
      simp only [decide_eq_true_eq] at h2
      omega
    have hv : (Char.ofNat flags).toNat = flags := by
      have : flags.isValidChar := by unfold Nat.isValidChar; omega
      unfold Char.ofNat
      rw [dif_pos this]
      rfl
    have hu : utf16Units (Char.ofNat flags) = [flags] := by
      unfold utf16Units
      rw [hv, if_pos (by omega)]
    have hb : leBytes 4 flags = leBytes 2 flags ++ leBytes 2 0 := by
      simp only [leBytes, List.cons_append, List.nil_append]
      have : flags / 256 / 256 = 0 := by omega
      rw [this]
    refine ⟨[0x5879, 0xF481, 0x1D3B, 0x487F, 0x2CAF, 0x5D82, 0x85C4, 0x6327, 0, 0].map Char.ofNat ++ [Char.ofNat flags] ++ [Char.ofNat 0], ?_,
      .inl (by simp [leBytes_length])⟩
    unfold wideText
    rw [textUnits_append, textUnits_append, nul_units]
    have : textUnits [Char.ofNat flags] = [flags] := by
      unfold textUnits
      rw [List.flatMap_cons, hu]; rfl
    rw [this, List.flatMap_append, List.flatMap_append, hb, ← List.append_assoc]
    have h0 : (textUnits ([0x5879, 0xF481, 0x1D3B, 0x487F, 0x2CAF, 0x5D82, 0x85C4, 0x6327, 0, 0].map Char.ofNat)).flatMap (leBytes 2) =
      [0x79, 0x58, 0x81, 0xF4, 0x3B, 0x1D, 0x7F, 0x48, 0xAF, 0x2C, 0x82, 0x5D, 0xC4, 0x85, 0x27, 0x63] ++ leBytes 4 0 := by decide
    rw [h0]
    rfl

theorem findNul_sound {t more : List Char} (h : Char.ofNat 0 ∉ t) : findNul (t ++ Char.ofNat 0 :: more) = t.length := by
  have : (t ++ Char.ofNat 0 :: more).findIdx? (· = Char.ofNat 0) = some t.length := by
    have h0 : t.findIdx? (· = Char.ofNat 0) = none :=
      List.findIdx?_eq_none_iff.2 fun x hx => by simpa using fun e : x = Char.ofNat 0 => h (e ▸ hx)
    rw [List.findIdx?_append, h0]
    simp [List.findIdx?_cons]
  unfold findNul
  rw [this]

theorem urlMoniker_sound {t : List Char} {extra : Bytes} (h0 : Char.ofNat 0 ∉ t) (h1 : ∀ c ∈ t, c.toNat < 0x10000)
    (h2 : UrlExtra extra) (h3 : 2 * ((textUnits t).length + 1) + extra.length < 2 ^ 32) {data pre post : Bytes}
    (hd : data = pre ++ (leBytes 4 (2 * ((textUnits t).length + 1) + extra.length) ++ (wideText t ++ [0, 0] ++ extra) ++ post))
    {ofs : Int} (ho : ofs = pre.length) :
    urlMoniker data ofs = .ok (ofs + 4 + (wideText t ++ [0, 0] ++ extra).length) := by
  obtain ⟨e, rfl, hl⟩ := uri_wide h2
  have e1 : pySliceI data ofs (ofs + 4) = leBytes 4 (2 * ((textUnits t).length + 1) + (wideText e).length) := by
    rw [hd, List.append_assoc]
    exact pySliceI_mid ho (by rw [leBytes_length]; rfl)
  have e0 : wideText t ++ [0, 0] ++ wideText e = wideText (t ++ Char.ofNat 0 :: e) := by
    unfold wideText
    rw [textUnits_append, show Char.ofNat 0 :: e = [Char.ofNat 0] ++ e from rfl, textUnits_append, nul_units, List.flatMap_append,
      List.flatMap_append, List.append_assoc]
    rfl
  have e2 : pySliceI data (ofs + 4) (ofs + 4 + ((2 * ((textUnits t).length + 1) + (wideText e).length : Nat) : Int)) =
      wideText t ++ [0, 0] ++ wideText e := by
    rw [hd, List.append_assoc, ← List.append_assoc]
    refine pySliceI_mid (by rw [ho]; simp [leBytes_length]) ?_
    simp only [List.length_append, wideText_length, List.length_cons, List.length_nil]
    omega
  unfold urlMoniker
  rw [e1, unpackNat_leBytes (by omega)]
  dsimp only
  rw [e2, e0, utf16le_wide]
  dsimp only
  have hu : (textUnits t).length = t.length := by rw [bmp_units h1, List.length_map]
  rw [findNul_sound h0, hu]
  have : (wideText (t ++ Char.ofNat 0 :: e)).length = 2 * (t.length + 1) + (wideText e).length := by
    rw [← e0]
    simp only [List.length_append, wideText_length, List.length_cons, List.length_nil, hu]
    omega
  rw [if_pos (by omega), this]
  congr 1
  omega

theorem fileMoniker_head {up : Nat} {ansi more : Bytes} (h2 : ansi.length < 2 ^ 31) (h3 : more.length = 24)
    {data pre post : Bytes} (hd : data = pre ++ ((leBytes 2 up ++ leBytes 4 ansi.length) ++ (ansi ++ more ++ post))) {ofs : Int}
    (ho : ofs = pre.length) : (pySliceI data ofs (ofs + 6)).length = 6 ∧
      ofs + 6 + leInt ((pySliceI data ofs (ofs + 6)).drop 2) + 24 =
        ((pre ++ (leBytes 2 up ++ leBytes 4 ansi.length) ++ ansi ++ more).length : Nat) := by
  have e1 : pySliceI data ofs (ofs + 6) = leBytes 2 up ++ leBytes 4 ansi.length := by
    rw [hd]
    exact pySliceI_mid ho (by simp [leBytes_length])
  have e2 : (leBytes 2 up ++ leBytes 4 ansi.length).drop 2 = leBytes 4 ansi.length := by
    exact List.drop_left' (leBytes_length 2 up)
  rw [e1, e2, leInt_nat h2]
  refine ⟨by simp [leBytes_length], ?_⟩
  rw [ho]
  simp only [List.length_append, leBytes_length]
  omega

theorem linkTarget_sound {f : LinkFlags} {b : Bytes} (h : LinkTarget true f b) {data pre post : Bytes}
    (hd : data = pre ++ (b ++ post)) {ofs : Int} (ho : ofs = pre.length) :
    linkTarget data f.value ofs = .ok ((pre ++ b).length : Nat) ∨
      (linkTarget data f.value ofs = .ok (pre.length : Nat) ∧ (LinkString b ∨ b = [])) ∨
      (∃ k : Nat, linkTarget data f.value ofs = .ok (k : Int) ∧ k ≤ data.length ∧ f.location = false) := by
  obtain ⟨b0, b1, -, -, -, b5, b6, -, b8⟩ := flag_bits f
  unfold linkTarget
  rw [b0, b1, b5, b6, b8]
  have clsid : ∀ {c more : Bytes}, data = pre ++ (c ++ more) → c.length = 16 → pySliceI data ofs (ofs + 16) = c := by
    intro c more e hc
    rw [e]
    exact pySliceI_mid ho (by rw [hc]; rfl)
  cases h with
  | none h1 =>
    refine .inr (.inl ⟨?_, .inr rfl⟩)
    simp [h1, ho]
  | string h1 h2 h3 =>
    rw [if_neg (by simp [h2])]
    split
    · exact .inl (linkString_sound h3 hd ho)
    · exact .inr (.inl ⟨by rw [ho], .inl h3⟩)
  | @url t extra h1 h2 h3 h4 h5 h6 =>
    have ec := clsid (c := urlMonikerId) (by rw [hd, List.append_assoc, List.append_assoc]) rfl
    refine .inl ?_
    rw [if_pos (by simp [h1, h2])]
    dsimp only
    rw [ec, if_pos (by decide), if_pos (by decide), urlMoniker_sound (pre := pre ++ urlMonikerId) (post := post) h3 (h4 rfl) h5 h6 (by rw [hd]; simp)
      (by rw [ho, List.length_append]; rfl), ho]
    congr 1
    simp [leBytes_length, urlMonikerId]
    omega
  | @shortFile up ansi more h1 h2 h3 h4 h5 =>
    have ec := clsid (c := fileMonikerId) (by rw [hd]; simp only [List.append_assoc]; rfl) rfl
    obtain ⟨m1, m2⟩ := fileMoniker_head (up := up) (data := data) (pre := pre ++ fileMonikerId) (post := leBytes 4 0 ++ post) h4 h5
      (by rw [hd]; simp) (ofs := ofs + 16) (by rw [ho, List.length_append]; rfl)
    refine .inl ?_
    rw [if_pos (by simp [h1, h2])]
    dsimp only
    rw [ec, if_pos (by decide), if_neg (by decide), if_pos (by decide)]
    unfold fileMoniker
    dsimp only
    rw [if_pos m1, m2]
    have e3 : pySliceI data ((pre ++ fileMonikerId ++ (leBytes 2 up ++ leBytes 4 ansi.length) ++ ansi ++ more).length : Nat)
        (((pre ++ fileMonikerId ++ (leBytes 2 up ++ leBytes 4 ansi.length) ++ ansi ++ more).length : Nat) + 4) = leBytes 4 0 := by
      have : data = (pre ++ fileMonikerId ++ (leBytes 2 up ++ leBytes 4 ansi.length) ++ ansi ++ more) ++ (leBytes 4 0 ++ post) := by
        rw [hd]; simp
      rw [this]
      exact pySliceI_mid rfl (by rw [leBytes_length]; rfl)
    rw [e3, unpackInt_leBytes (by omega)]
    dsimp only
    rw [if_pos (by rfl)]
    congr 1
    simp only [List.length_append, leBytes_length]
    omega
  | @longFile up ansi more t x h1 h2 h3 h4 h5 h6 h7 =>
    have ec := clsid (c := fileMonikerId) (by rw [hd]; simp only [List.append_assoc]; rfl) rfl
    obtain ⟨m1, m2⟩ := fileMoniker_head (up := up) (data := data) (pre := pre ++ fileMonikerId)
      (post := leBytes 4 ((wideText t).length + 6) ++ leBytes 4 (wideText t).length ++ x ++ wideText t ++ post) h4 h5
      (by rw [hd]; simp) (ofs := ofs + 16) (by rw [ho, List.length_append]; rfl)
    refine .inl ?_
    rw [if_pos (by simp [h1, h2])]
    dsimp only
    rw [ec, if_pos (by decide), if_neg (by decide), if_pos (by decide)]
    unfold fileMoniker
    dsimp only
    rw [if_pos m1, m2]
    generalize hq : pre ++ fileMonikerId ++ (leBytes 2 up ++ leBytes 4 ansi.length) ++ ansi ++ more = q
    have hd' : data = q ++ (leBytes 4 ((wideText t).length + 6) ++ (leBytes 4 (wideText t).length ++ (x ++ (wideText t ++ post)))) := by
      rw [hd, ← hq]; simp
    have e3 : pySliceI data (q.length : Nat) ((q.length : Nat) + 4) = leBytes 4 ((wideText t).length + 6) := by
      rw [hd']
      exact pySliceI_mid rfl (by rw [leBytes_length]; rfl)
    have e4 : pySliceI data ((q.length : Nat) + 4) ((q.length : Nat) + 8) = leBytes 4 (wideText t).length := by
      rw [hd', ← List.append_assoc]
      exact pySliceI_mid (by simp [leBytes_length]) (by rw [leBytes_length]; omega)
    have e5 : pySliceI data ((q.length : Nat) + 10) ((q.length : Nat) + 10 + (wideText t).length) = wideText t := by
      have : data = (q ++ leBytes 4 ((wideText t).length + 6) ++ leBytes 4 (wideText t).length ++ x) ++ (wideText t ++ post) := by
        rw [hd']; simp
      rw [this]
      exact pySliceI_mid (by simp only [List.length_append, leBytes_length, h7]; omega) rfl
    rw [e3, unpackInt_leBytes h6]
    dsimp only
    rw [if_neg (by omega), e4, unpackInt_leBytes (by omega)]
    dsimp only
    rw [e5, utf16le_wide]
    simp only [Except.map]
    congr 1
    have := congrArg List.length hq
    simp only [List.length_append, leBytes_length, h5, h7] at this ⊢
    omega
  | @other c more h1 h2 h3 h4 h5 h6 =>
    have ec := clsid (c := c) (by rw [hd]; simp only [List.append_assoc]; rfl) h3
    refine .inr (.inr ⟨pre.length + 16, ?_, ?_, h6 rfl⟩)
    · rw [if_pos (by simp [h1, h2])]
      dsimp only
      rw [ec, if_pos h3, if_neg (show c ≠ urlClsid from h4), if_neg (show c ≠ fileClsid from h5), ho]
      rfl
    · rw [hd]
      simp only [List.length_append, h3]
      omega

theorem handleHlink_sound {range data : Bytes} (h : LinkIs true range data) :
    handleHlink data = .ok (field2 range 0, field2 range 2, field2 range 4, field2 range 6) := by
  obtain ⟨hr, f, name, frame, target, location, more, hv, hn, hfr, ht, hl, hsite, hd⟩ := h
  have hsite := hsite rfl
  obtain ⟨-, -, b2, b3, b4, -, -, b7, -⟩ := flag_bits f
  have hlen : 32 ≤ data.length := by
    rw [hd]
    simp only [List.length_append, leBytes_length, hr, stdLink, List.length_cons, List.length_nil]
    omega
  have s1 : pySlice data 8 24 = linkGuid :=
    pySlice_at (pre := range) (m := stdLink) (post := [2, 0, 0, 0] ++ leBytes 4 f.value ++ name ++ frame ++ target ++ location ++ more)
      (by rw [hd]; simp) hr.symm rfl
  have s2 : pySlice data 24 28 = [2, 0, 0, 0] :=
    pySlice_at (pre := range ++ stdLink) (m := [2, 0, 0, 0]) (post := leBytes 4 f.value ++ name ++ frame ++ target ++ location ++ more)
      (by rw [hd]; simp) (by rw [List.length_append, hr]; rfl) rfl
  have s3 : pySlice data 28 32 = leBytes 4 f.value :=
    pySlice_at (pre := range ++ stdLink ++ [2, 0, 0, 0]) (post := name ++ frame ++ target ++ location ++ more)
      (by rw [hd]; simp) (by rw [List.length_append, List.length_append, hr]; rfl) (by rw [leBytes_length])
  have s4 : ∀ i, i + 2 ≤ 8 → field2 data i = field2 range i := by
    intro i hi
    unfold field2 pySlice
    rw [hd]
    simp only [List.append_assoc]
    rw [List.take_append_of_le_length (by omega)]
  generalize hp : range ++ stdLink ++ [2, 0, 0, 0] ++ leBytes 4 f.value = p at hd
  have hpl : p.length = 32 := by
    rw [← hp]
    simp [hr, stdLink, leBytes_length]
  have hname : (bitOf f.value 2 || bitOf f.value 4) = f.name := by
    rw [b2, b4]
    cases hs : f.siteName
    · rfl
    · rw [hsite hs]; rfl
  unfold handleHlink
  rw [if_pos (by rw [List.length_take]; omega), if_pos s1, if_pos s2]
  dsimp only
  rw [s3, leNat_leBytes (by omega), hname, b7, b3,
    linkStringIf_sound hn (pre := p) (post := frame ++ target ++ location ++ more) (by rw [hd]; simp) (by rw [hpl]; rfl)]
  dsimp only
  rw [linkStringIf_sound hfr (pre := p ++ name) (post := target ++ location ++ more) (by rw [hd]; simp) rfl]
  dsimp only
  have hend : ∀ k : Nat, k ≤ data.length → ¬ ((data.length : Int) - k < 0) := by intro k hk; omega
  have hall : data.length = p.length + name.length + frame.length + target.length + location.length + more.length := by
    rw [hd]; simp only [List.length_append]
  rcases linkTarget_sound ht (data := data) (pre := p ++ name ++ frame) (post := location ++ more) (by rw [hd]; simp) rfl with e | ⟨e, hs⟩ | ⟨k, e, hk, hloc⟩
  · rw [e]
    dsimp only
    rw [linkStringIf_sound hl (pre := p ++ name ++ frame ++ target) (post := more) (by rw [hd]; simp) rfl]
    dsimp only
    rw [if_neg (hend _ (by simp only [List.length_append]; omega)), s4 0 (by omega), s4 2 (by omega), s4 4 (by omega), s4 6 (by omega)]
  · rw [e]
    dsimp only
    cases hloc : f.location
    · rw [linkStringIf, if_neg (by simp)]
      dsimp only
      rw [if_neg (hend _ (by simp only [List.length_append]; omega)), s4 0 (by omega), s4 2 (by omega), s4 4 (by omega), s4 6 (by omega)]
    · rw [linkStringIf, if_pos rfl]
      rcases hs with hs | rfl
      · rw [linkString_sound hs (pre := p ++ name ++ frame) (post := location ++ more) (by rw [hd]; simp) rfl]
        dsimp only
        rw [if_neg (hend _ (by simp only [List.length_append]; omega)), s4 0 (by omega), s4 2 (by omega), s4 4 (by omega), s4 6 (by omega)]
      · rw [hloc, if_pos rfl] at hl
        rw [linkString_sound hl (pre := p ++ name ++ frame) (post := more) (by rw [hd]; simp) rfl]
        dsimp only
        rw [if_neg (hend _ (by simp only [List.length_append]; omega)), s4 0 (by omega), s4 2 (by omega), s4 4 (by omega), s4 6 (by omega)]
  · rw [e, hloc]
    dsimp only
    rw [linkStringIf, if_neg (by simp)]
    dsimp only
    rw [if_neg (hend _ hk), s4 0 (by omega), s4 2 (by omega), s4 4 (by omega), s4 6 (by omega)]

theorem handleQuicktip_sound {range data : Bytes} (hr : range.length = 8) (h : TipIs range data) :
    handleQuicktip (some (field2 range 0, field2 range 2, field2 range 4, field2 range 6)) data = .ok () := by
  obtain ⟨t, hd⟩ := h
  have s4 : ∀ i, i + 2 ≤ 8 → field2 data (i + 2) = field2 range i := by
    intro i hi
    have : pySlice data (i + 2) (i + 2 + 2) = pySlice range i (i + 2) :=
      pySlice_at (pre := leBytes 2 0x800 ++ range.take i) (post := range.drop (i + 2) ++ wideText t ++ [0, 0])
        (by
          rw [hd]
          unfold pySlice
          simp only [List.append_assoc]
          congr 1
          rw [← List.append_assoc (List.drop i _), ← List.append_assoc (List.take i _)]
          congr 1
          have : List.take i range = List.take i (List.take (i + 2) range) := by rw [List.take_take, Nat.min_eq_left (by omega)]
          rw [this, ← List.append_assoc, List.take_append_drop, List.take_append_drop])
        (by simp only [List.length_append, leBytes_length, List.length_take]; omega)
        (by unfold pySlice; simp only [List.length_drop, List.length_take]; omega)
    unfold field2
    rw [this]
  have s0 : field2 data 0 = 0x800 := by
    unfold field2
    rw [pySlice_at (l := data) (a := 0) (b := 0 + 2) (pre := []) (m := leBytes 2 0x800) (post := range ++ wideText t ++ [0, 0])
      (by rw [hd]; simp) rfl rfl]
    rfl
  have hlen : data.length = 12 + (wideText t).length := by
    rw [hd]
    simp only [List.length_append, leBytes_length, hr, List.length_cons, List.length_nil]
    omega
  unfold handleQuicktip
  rw [if_pos (by rw [List.length_take]; omega), if_pos s0]
  dsimp only
  have e1 : pySliceI data (-2) data.length = [0, 0] := by
    have : pySliceI data (-2) data.length = pySlice data (10 + (wideText t).length) data.length := by
      unfold pySliceI
      dsimp only
      rw [if_pos (by omega), if_neg (by omega)]
      congr 1
      omega
    rw [this]
    exact pySlice_at (pre := leBytes 2 0x800 ++ range ++ wideText t) (post := []) (by rw [hd]; simp)
      (by simp only [List.length_append, leBytes_length, hr]) (by simp; omega)
  have e2 : pySliceI data 10 (-2) = wideText t := by
    have : pySliceI data 10 (-2) = pySlice data 10 (10 + (wideText t).length) := by
      unfold pySliceI
      dsimp only
      rw [if_neg (by omega), if_pos (by omega)]
      congr 1
      omega
    rw [this]
    exact pySlice_at (pre := leBytes 2 0x800 ++ range) (post := [0, 0]) (by rw [hd]; simp)
      (by simp only [List.length_append, leBytes_length, hr]) rfl
  rw [s4 0 (by omega), s4 2 (by omega), s4 4 (by omega), s4 6 (by omega), if_pos rfl, if_pos e1, e2, utf16le_wide]
  rfl

/-! ### Objects -/

theorem field2_at {x : Nat} (hx : x < 65536) {data pre post : Bytes} {i : Nat} (hd : data = pre ++ (leBytes 2 x ++ post))
    (hi : i = pre.length) : field2 data i = x := by
  unfold field2
  rw [pySlice_at hd hi (by rw [leBytes_length]), leNat_leBytes (by omega)]

theorem objLoop_sound {auto : Bool} {parts : Bytes} (h : ObjParts auto parts) : ∀ (n : Nat) (pre data : Bytes), data = pre ++ parts →
    pre ≠ [] → objLoop data n pre.length auto = .ok () := by
  induction h with
  | nil =>
    intro n pre data hd _
    rw [List.append_nil] at hd
    cases n with
    | zero => rfl
    | succ n => rw [objLoop, if_neg (by rw [hd]; omega)]
  | @zeros k hk =>
    intro n pre data hd hp
    have hp : pre.length ≠ 0 := fun e => hp (List.length_eq_zero_iff.1 e)
    cases n with
    | zero => rfl
    | succ n =>
      obtain ⟨j, rfl⟩ : ∃ j, k = 4 + j := ⟨k - 4, by omega⟩
      have e0 : List.replicate (4 + j) (0 : UInt8) = leBytes 2 0 ++ (leBytes 2 0 ++ List.replicate j 0) := by
        rw [List.replicate_append_replicate.symm]; rfl
      have e1 : (pySlice data pre.length (pre.length + 4)).length = 4 := by
        unfold pySlice
        rw [hd]
        simp
      have f1 : field2 data pre.length = 0 := field2_at (by omega) (by rw [hd, e0]) rfl
      rw [objLoop, if_pos (by rw [hd]; simp; omega), if_pos e1]
      dsimp only
      rw [f1, if_neg (by omega), if_neg (by omega), if_pos rfl, if_pos]
      rw [hd, List.drop_left, List.length_append, Nat.add_sub_cancel_left, List.length_replicate]
  | @part ft d rest h1 h2 h3 h4 h5 _ ih =>
    intro n pre data hd hp
    have hp : pre.length ≠ 0 := fun e => hp (List.length_eq_zero_iff.1 e)
    cases n with
    | zero => rfl
    | succ n =>
      have e1 : (pySlice data pre.length (pre.length + 4)).length = 4 := by
        rw [pySlice_at (m := leBytes 2 ft ++ leBytes 2 d.length) (post := d ++ rest) hd rfl (by simp [leBytes_length])]
        simp [leBytes_length]
      have f1 : field2 data pre.length = ft := field2_at h1 (post := leBytes 2 d.length ++ (d ++ rest)) (by rw [hd]; simp) rfl
      have f2 : field2 data (pre.length + 2) = d.length :=
        field2_at h2 (pre := pre ++ leBytes 2 ft) (post := d ++ rest) (by rw [hd]; simp) (by simp [leBytes_length])
      have hnext : objLoop data n (pre.length + (d.length + 4)) auto = .ok () := by
        have := ih n (pre ++ (leBytes 2 ft ++ leBytes 2 d.length ++ d)) data (by rw [hd]; simp) (by
          intro e
          rw [List.append_eq_nil_iff] at e
          exact hp (by rw [e.1]; rfl))
        rw [← this]
        congr 1
        simp only [List.length_append, leBytes_length]
        omega
      rw [objLoop, if_pos (by rw [hd]; simp [leBytes_length]; omega), if_pos e1]
      dsimp only
      rw [f1, f2, if_neg (by omega), if_neg h4, if_neg h3]
      split
      · rename_i c
        have := h5 c
        rw [if_pos, hnext]
        unfold pySlice
        rw [hd]
        simp only [List.length_drop, List.length_take, List.length_append, leBytes_length]
        omega
      · split
        · rfl
        · exact hnext
  | @list cb rest h1 h2 =>
    intro n pre data hd hp
    have hp : pre.length ≠ 0 := fun e => hp (List.length_eq_zero_iff.1 e)
    cases n with
    | zero => rfl
    | succ n =>
      have e1 : (pySlice data pre.length (pre.length + 4)).length = 4 := by
        rw [pySlice_at (m := leBytes 2 0x13 ++ leBytes 2 cb) (post := rest) hd rfl (by simp [leBytes_length])]
        simp [leBytes_length]
      have f1 : field2 data pre.length = 0x13 := field2_at (by omega) (post := leBytes 2 cb ++ rest) (by rw [hd]; simp) rfl
      have f2 : field2 data (pre.length + 2) = cb :=
        field2_at h1 (pre := pre ++ leBytes 2 0x13) (post := rest) (by rw [hd]; simp) (by simp [leBytes_length])
      rw [objLoop, if_pos (by rw [hd]; simp [leBytes_length]; omega), if_pos e1]
      dsimp only
      rw [f1, f2, if_neg (by omega), if_neg (by omega), if_neg (by omega), if_neg (by omega)]
      split
      · rfl
      · rename_i c
        rcases h2 with h2 | h2
        · exact absurd ⟨rfl, h2⟩ c
        · cases n with
          | zero => rfl
          | succ n =>
            rw [objLoop, if_neg]
            rw [hd]
            simp only [List.length_append, leBytes_length]
            omega

theorem handleObj_sound {data : Bytes} {bv : Nat} (h : ¬ bv < 80 → ObjIs data) : handleObj bv data = .ok () := by
  unfold handleObj
  split
  · rfl
  rename_i hb
  rcases h hb with ⟨head, flags, more, parts, h1, h2, h3, h4, hd⟩ | rfl | ⟨h1, h2⟩
  · obtain ⟨n, hn⟩ : ∃ n, data.length = n + 1 := ⟨data.length - 1, by rw [hd]; simp [leBytes_length]; omega⟩
    have e1 : (pySlice data 0 (0 + 4)).length = 4 := by
      unfold pySlice
      rw [hd]
      simp [leBytes_length]
      omega
    have f1 : field2 data 0 = 0x15 := field2_at (by omega) (pre := []) (post := leBytes 2 18 ++ head ++ leBytes 2 flags ++ more ++ parts)
      (by rw [hd]; simp) rfl
    have f2 : field2 data (0 + 2) = 18 := field2_at (by omega) (pre := leBytes 2 0x15) (post := head ++ leBytes 2 flags ++ more ++ parts)
      (by rw [hd]; simp) rfl
    have f3 : field2 data (0 + 8) = flags :=
      field2_at h2 (pre := leBytes 2 0x15 ++ leBytes 2 18 ++ head) (post := more ++ parts) (by rw [hd]; simp)
        (by simp only [List.length_append, leBytes_length, h1])
    have e2 : (pySlice data (0 + 4) (0 + 10)).length = 6 := by
      unfold pySlice
      rw [hd]
      simp only [List.length_drop, List.length_take, List.length_append, leBytes_length, h1, h3]
      omega
    have hb8 : bitOf flags 8 = flags.testBit 8 := by
      unfold bitOf
      rw [Nat.testBit_eq_decide_div_mod_eq]
    rw [hn, objLoop, if_pos (by omega), if_pos e1]
    dsimp only
    rw [f1, f2, if_neg (by omega), if_pos rfl, if_pos rfl, if_pos e2, f3, hb8]
    have := objLoop_sound h4 n (leBytes 2 0x15 ++ leBytes 2 18 ++ head ++ leBytes 2 flags ++ more) data hd (by simp [leBytes])
    rw [← this]
    congr 1
    simp only [List.length_append, leBytes_length, h1, h3]
  · rfl
  · obtain ⟨n, hn⟩ : ∃ n, data.length = n + 1 := ⟨data.length - 1, by omega⟩
    rw [hn, objLoop, if_pos (by omega), if_pos (by unfold pySlice; simp; omega)]
    dsimp only
    rw [if_pos]
    refine ⟨rfl, fun c => h2 ?_⟩
    match data, h1, c with
    | a :: b :: x :: y :: more, _, c =>
      simp only [field2, pySlice, List.take_succ_cons, List.take_zero, List.drop_zero, List.drop_succ_cons, leNat, Nat.zero_add, Nat.mul_zero,
        Nat.add_zero] at c
      have k1 := a.toNat_lt
      have k2 := b.toNat_lt
      have k3 := x.toNat_lt
      have k4 := y.toNat_lt
      have : a = 0x15 ∧ b = 0 ∧ x = 18 ∧ y = 0 := by
        refine ⟨?_, ?_, ?_, ?_⟩ <;> apply UInt8.toNat_inj.1
        · show _ = 21; omega
        · show _ = 0; omega
        · show _ = 18; omega
        · show _ = 0; omega
      obtain ⟨rfl, rfl, rfl, rfl⟩ := this
      rfl

/-! ### Texts -/

/-- A string and what comes with it: the position after it. -/
theorem unicodeUpd_sound {o : UInt8} {rt sz : Nat} {t : List Char} {text inner : Bytes} (h1 : rt < 65536) (h2 : sz < 2 ^ 31)
    (h3 : Rich o = false → rt = 0) (h4 : Phonetic o = false → sz = 0) (hu : UnitBytes (Wide o) (textUnits t) text)
    (hi : inner.length = 4 * rt + sz) {data pre post : Bytes} {pos lenlen : Nat} {known : Option Nat}
    (hl : strLen data pos lenlen known = .ok ((textUnits t).length, pre.length))
    (hd : data = pre ++ (o :: (sizeBytes o rt sz ++ (text ++ inner ++ post)))) :
    unpackUnicodeUpd data pos lenlen known = .ok (t, ((pre ++ (o :: (sizeBytes o rt sz ++ (text ++ inner)))).length : Nat)) := by
  have hget : data[pre.length]? = some o := by
    rw [hd, List.getElem?_append_right (by omega), Nat.sub_self]
    rfl
  have hdrop : data.drop pre.length ≠ [] := by
    rw [hd, List.drop_left]
    simp
  have hsz : optSizes o data ((pre.length : Nat) + 1) = .ok (rt, (sz : Int), ((pre.length : Nat) : Int) + 1 + (sizeBytes o rt sz).length) := by
    have : data = (pre ++ [o]) ++ (sizeBytes o rt sz ++ (text ++ inner ++ post)) := by rw [hd]; simp
    rw [this]
    exact optSizes_head h1 h2 h3 h4 _ _ (by rw [List.length_append]; rfl)
  have htext : pySliceI data (((pre.length : Nat) : Int) + 1 + (sizeBytes o rt sz).length)
      (((pre.length : Nat) : Int) + 1 + (sizeBytes o rt sz).length + charBytes (Wide o) (textUnits t).length) = text := by
    have : data = (pre ++ [o] ++ sizeBytes o rt sz) ++ (text ++ (inner ++ post)) := by rw [hd]; simp
    rw [this]
    exact pySliceI_mid (by simp only [List.length_append, List.length_cons, List.length_nil]; omega) (by rw [unitBytes_length hu])
  unfold unpackUnicodeUpd
  rw [hl]
  dsimp only
  rw [if_neg (fun c => hdrop c.2), hget]
  dsimp only
  rw [hsz]
  dsimp only
  rw [wide_eq, htext, decodeChars_units hu]
  dsimp only
  congr 2
  rw [← unitBytes_length hu]
  simp only [List.length_append, List.length_cons, hi]
  omega

theorem toRec_code (r : XRec) : (toRec r).code = r.1 := rfl
theorem toRec_data (r : XRec) : (toRec r).data = r.2 := rfl
theorem toRec_len (r : XRec) : (toRec r).len = r.2.length := rfl

theorem txoText_sound {conts : List Bytes} {us : List Nat} (h : TxoUnits true conts us) : ∀ after : List Rec,
    txoText us.length (contRecs conts ++ after) = .ok conts.length := by
  induction h with
  | nil =>
    intro after
    cases after <;> rfl
  | @cons o us b rest us' h1 h2 h3 h4 _ ih =>
    intro after
    obtain ⟨t, rfl⟩ := h4 rfl
    have hpos : (textUnits t).length ≠ 0 := fun e => h2 (List.length_eq_zero_iff.1 e)
    have hb := unitBytes_length h3
    have hn : (if o ≠ 0 then ((o :: b).length - 1) / 2 else (o :: b).length - 1) = (textUnits t).length ∧
        ¬ (o ≠ 0 ∧ ((o :: b).length - 1) % 2 ≠ 0) := by
      rw [List.length_cons, Nat.add_sub_cancel, hb]
      rcases h1 with rfl | rfl
      · exact ⟨rfl, fun c => c.1 rfl⟩
      · have : charBytes (Wide 1) (textUnits t).length = 2 * (textUnits t).length := rfl
        rw [this, if_pos (by decide)]
        omega
    have hu : unpackUnicodeUpd (o :: b) 0 2 (some (textUnits t).length) = .ok (t, ((o :: b).length : Nat)) := by
      have hs : sizeBytes o 0 0 = [] := by rcases h1 with rfl | rfl <;> rfl
      have := unicodeUpd_sound (rt := 0) (sz := 0) (inner := []) (data := o :: b) (pre := []) (post := []) (pos := 0) (lenlen := 2)
        (known := some (textUnits t).length) (by omega) (by omega) (fun _ => rfl) (fun _ => rfl) h3 rfl rfl (by rw [hs]; simp)
      rw [hs] at this
      simpa using this
    unfold contRecs at ih ⊢
    rw [List.map_cons, List.cons_append, txoText, if_neg (by rw [List.length_append]; omega), if_pos (by rfl)]
    show (if o ≠ 0 ∧ ((o :: b).length - 1) % 2 ≠ 0 then _ else _) = _
    rw [if_neg hn.2]
    dsimp only
    have hlen : (toRec (0x3C, o :: b)).len = (o :: b).length := rfl
    have hdat : (toRec (0x3C, o :: b)).data = o :: b := rfl
    rw [hlen, hdat, hn.1, hu]
    dsimp only
    rw [if_pos rfl, List.length_append, Nat.add_sub_cancel_left, ih after]
    rfl

theorem txoRuns_sound {runs : List Bytes} (h : ∀ b ∈ runs, b ≠ [] ∧ b.length % 8 = 0) (after : List Rec) :
    txoRuns runs.flatten.length (contRecs runs ++ after) = .ok runs.length := by
  induction runs with
  | nil => cases after <;> rfl
  | cons b runs ih =>
    obtain ⟨h1, h2⟩ := h b (by simp)
    have h1 : b.length ≠ 0 := fun e => h1 (List.length_eq_zero_iff.1 e)
    have ih := ih fun b hb => h b (by simp [hb])
    unfold contRecs at ih ⊢
    rw [List.map_cons, List.cons_append, List.flatten_cons, List.length_append, txoRuns, if_neg (by omega), if_pos (by rfl), toRec_len,
      toRec_data]
    dsimp only
    rw [if_pos h2, if_pos rfl, Nat.add_sub_cancel_left, ih]
    rfl

theorem handleTxo_sound {data : Bytes} {conts : List Bytes} (h : TxoIs true data conts) (after : List Rec) :
    handleTxo data (contRecs conts ++ after) = .ok conts.length := by
  obtain ⟨head, more, text, runs, t, h1, h2, h3, h4, h5, h6, hd, rfl⟩ := h
  have f1 : field2 data 10 = (textUnits t).length :=
    field2_at h5 (pre := head) (post := leBytes 2 runs.flatten.length ++ more) (by rw [hd]; simp) h1.symm
  have f2 : field2 data 12 = runs.flatten.length :=
    field2_at h6 (pre := head ++ leBytes 2 (textUnits t).length) (post := more) (by rw [hd]; simp) (by simp [leBytes_length, h1])
  have ec : contRecs (text ++ runs) ++ after = contRecs text ++ (contRecs runs ++ after) := by simp [contRecs]
  have hlen : (contRecs text).length = text.length := by simp [contRecs]
  unfold handleTxo
  rw [if_pos, f1, f2, ec, txoText_sound h3]
  · dsimp only
    rw [← hlen, List.drop_left, txoRuns_sound h4]
    dsimp only
    rw [hlen, List.length_append]
  · rw [hd]
    simp only [List.length_take, List.length_append, leBytes_length, h1]
    omega

/-! ### Notes -/

theorem noteRest_sound {more : List (Bytes × Bytes)} (h : ∀ p ∈ more, p.1.length = 2 ∧ p.2 ≠ []) (hl : (more.flatMap Prod.snd).length < 65536)
    (after : List Rec) :
    noteRest ((more.flatMap Prod.snd).length : Nat)
      ((more.map fun p => toRec (0x1C, leBytes 2 0xFFFF ++ p.1 ++ leBytes 2 p.2.length ++ p.2)) ++ after) = .ok (more.map Prod.snd) := by
  induction more with
  | nil => cases after <;> rfl
  | cons p more ih =>
    obtain ⟨h1, h2⟩ := h p (by simp)
    have h2 : p.2.length ≠ 0 := fun e => h2 (List.length_eq_zero_iff.1 e)
    rw [List.flatMap_cons, List.length_append] at hl ⊢
    have ih := ih (fun p hp => h p (by simp [hp])) (by omega)
    have f1 : field2 (leBytes 2 0xFFFF ++ p.1 ++ leBytes 2 p.2.length ++ p.2) 0 = 0xFFFF :=
      field2_at (by omega) (pre := []) (post := p.1 ++ leBytes 2 p.2.length ++ p.2) (by simp) rfl
    have f2 : field2 (leBytes 2 0xFFFF ++ p.1 ++ leBytes 2 p.2.length ++ p.2) 4 = p.2.length :=
      field2_at (by omega) (pre := leBytes 2 0xFFFF ++ p.1) (post := p.2) (by simp) (by rw [List.length_append, h1]; rfl)
    have hlen : (leBytes 2 0xFFFF ++ p.1 ++ leBytes 2 p.2.length ++ p.2).length = p.2.length + 6 := by
      simp only [List.length_append, leBytes_length, h1]
      omega
    have hdrop : (leBytes 2 0xFFFF ++ p.1 ++ leBytes 2 p.2.length ++ p.2).drop 6 = p.2 :=
      List.drop_left' (by simp only [List.length_append, leBytes_length, h1])
    rw [List.map_cons, List.cons_append, noteRest, toRec_code, toRec_data, toRec_len]
    dsimp only
    rw [if_pos (by omega), if_pos rfl, if_pos (by rw [List.length_take, hlen]; omega), f1, if_pos rfl, f2, hlen, if_pos (by omega), hdrop]
    have : (((p.2.length + (more.flatMap Prod.snd).length : Nat) : Int) - (p.2.length : Nat)) = ((more.flatMap Prod.snd).length : Nat) := by omega
    rw [this, ih]
    rfl

theorem handleNote8_sound {bv : Nat} (hb : ¬ bv < 80) {text : Bytes → Except Exc (List Char)} {data : Bytes} (h : Note8 data)
    (after : List Rec) : handleNote bv text data after = .ok 0 := by
  obtain ⟨start, author, pad, h1, h2, hd, h3⟩ := h
  unfold handleNote
  rw [if_neg hb, if_pos (by rw [hd, List.length_take]; simp only [List.length_append, h1]; omega)]
  rcases h3 with ⟨rfl, rfl⟩ | ⟨o, rt, sz, head, t, txt, inner, ⟨k1, k2, k3, k4, k5, rfl⟩, hu, hi, rfl⟩
  · rw [List.append_nil] at hd
    have hs : pySlice data 8 (8 + 2) = leBytes 2 0 :=
      pySlice_at (pre := start) (post := []) (by rw [hd]; simp) h1.symm (by rw [leBytes_length])
    have hl : data.length = 10 := by rw [hd, List.length_append, h1]; rfl
    have : unpackUnicodeUpd data 8 2 none = .ok ([], ((10 : Nat) : Int)) := by
      unfold unpackUnicodeUpd strLen
      rw [hs, unpackNat_leBytes (by omega)]
      dsimp only
      rw [if_pos ⟨rfl, by rw [List.drop_eq_nil_iff, hl]; omega⟩]
    rw [this]
    dsimp only
    rw [hl, if_pos (.inl rfl)]
  · have hd' : data = (start ++ leBytes 2 (textUnits t).length) ++ (o :: (sizeBytes o rt sz ++ (txt ++ inner ++ pad))) := by
      rw [hd]
      unfold sizeBytes
      simp
    have hl : strLen data 8 2 none = .ok ((textUnits t).length, (start ++ leBytes 2 (textUnits t).length).length) := by
      unfold strLen
      rw [pySlice_at (l := data) (pre := start) (m := leBytes 2 (textUnits t).length)
        (post := o :: (sizeBytes o rt sz ++ (txt ++ inner ++ pad))) (by rw [hd']; simp) h1.symm (by rw [leBytes_length]), unpackNat_leBytes k1]
      dsimp only
      rw [List.length_append, h1, leBytes_length]
    rw [unicodeUpd_sound k2 k3 k4 k5 hu hi hl hd']
    dsimp only
    rw [if_pos]
    have : data.length = (start ++ leBytes 2 (textUnits t).length ++ (o :: (sizeBytes o rt sz ++ (txt ++ inner)))).length + pad.length := by
      rw [hd']
      simp only [List.length_append, List.length_cons]
      omega
    omega

theorem handleNote5_sound {bv : Nat} (hb : bv < 80) {tx : Bytes → Option (List Char)} {text : Bytes → Except Exc (List Char)}
    (ht : ∀ b t, tx b = some t → text b = .ok t) {rs : List XRec} (h : Note5 tx rs) :
    ∃ data more, rs = (0x1C, data) :: more ∧
      ∀ after, handleNote bv text data (more.map toRec ++ after) = .ok more.length := by
  obtain ⟨cell, first, more, t, h1, h2, h3, h4, rfl⟩ := h
  refine ⟨_, _, rfl, fun after => ?_⟩
  generalize hd : cell ++ leBytes 2 (first ++ more.flatMap Prod.snd).length ++ first = data
  have hlen : data.length = first.length + 6 := by
    rw [← hd]
    simp only [List.length_append, leBytes_length, h1]
    omega
  have hdrop : data.drop 6 = first := by
    rw [← hd]
    exact List.drop_left' (by simp only [List.length_append, leBytes_length, h1])
  have f1 : field2 data 4 = (first ++ more.flatMap Prod.snd).length :=
    field2_at h2 (pre := cell) (post := first) (by rw [← hd]; simp) h1.symm
  unfold handleNote
  rw [if_pos hb, if_pos (by rw [List.length_take]; omega), f1, hlen, if_pos (by rw [List.length_append]; omega)]
  have : (((first ++ more.flatMap Prod.snd).length : Nat) : Int) - (first.length + 6 - 6 : Nat) = ((more.flatMap Prod.snd).length : Nat) := by
    rw [List.length_append]
    omega
  rw [this, List.map_map]
  have := noteRest_sound h3 (by rw [List.length_append] at h2; omega) after
  rw [show (toRec ∘ fun p : Bytes × Bytes => ((0x1C, leBytes 2 0xFFFF ++ p.1 ++ leBytes 2 p.2.length ++ p.2) : XRec)) =
    fun p => toRec (0x1C, leBytes 2 0xFFFF ++ p.1 ++ leBytes 2 p.2.length ++ p.2) from rfl, this]
  dsimp only
  rw [hdrop, ← List.flatMap_def, ht _ _ h4]
  simp [Except.map]

/-! ### Groups -/

theorem objFollow_steps {v8 : Bool} {bv : Nat} (hb : (bv < 80) = (v8 = false)) {text : Bytes → Except Exc (List Char)} {rs : List XRec}
    (h : ObjFollow true v8 rs) (after : List Rec) : ∀ s : ObjSt, s.obj = true → ObjSteps (handleObject bv text) after s rs s := by
  induction h with
  | nil => exact fun s _ => .nil
  | aside h1 _ ih => exact fun s hs => .aside h1 (ih s hs)
  | @text8 data conts rest h1 h2 _ ih =>
    intro s hs
    have hb : ¬ bv < 80 := by rw [hb, h1]; simp
    refine .object (s' := s) (more := conts.map fun d => (0x3C, d)) (by simp [xlObjects]) ?_ (ih s hs)
    have e : (conts.map fun d => ((0x3C, d) : XRec)).map toRec = contRecs conts := by rw [List.map_map]; rfl
    rw [e, List.length_map]
    unfold handleObject
    rw [toRec_code, toRec_data]
    dsimp only
    rw [if_neg (by decide), if_neg (by decide), if_neg (by decide), if_pos rfl, if_neg hb, handleTxo_sound h2]
    dsimp only
    rw [if_pos hs]
  | @text5 data rest h1 _ ih =>
    intro s hs
    refine .object (s' := s) (more := []) (by simp [xlObjects]) ?_ (ih s hs)
    unfold handleObject
    rw [toRec_code]
    dsimp only
    rw [if_neg (by decide), if_neg (by decide), if_neg (by decide), if_pos rfl, if_pos (by rw [hb]; exact h1)]
    rfl

theorem hlink_handled {bv : Nat} {text : Bytes → Except Exc (List Char)} {range data : Bytes} (h : LinkIs true range data) (s : ObjSt)
    (L : List Rec) : handleObject bv text s (toRec (0x1B8, data)) L =
      .ok ({ s with link := some (field2 range 0, field2 range 2, field2 range 4, field2 range 6) }, 0) := by
  unfold handleObject
  rw [toRec_code, toRec_data]
  dsimp only
  rw [if_pos rfl, handleHlink_sound h]
  rfl

/-- The handlers get through each group. -/
theorem objectGroup_steps {v8 : Bool} {bv : Nat} (hb : (bv < 80) = (v8 = false)) {tx : Bytes → Option (List Char)}
    {text : Bytes → Except Exc (List Char)} (ht : ∀ b t, tx b = some t → text b = .ok t) {rs : List XRec} (h : ObjectGroup true v8 tx rs)
    (s : ObjSt) (after : List Rec) : ∃ s', ObjSteps (handleObject bv text) after s rs s' := by
  cases h with
  | link h1 => exact ⟨_, .object (more := []) (rs := []) (by simp [xlObjects]) (hlink_handled h1 s _) .nil⟩
  | @linkTip range data tip h1 h2 =>
    refine ⟨{ s with link := some (field2 range 0, field2 range 2, field2 range 4, field2 range 6) },
      .object (more := []) (rs := [(0x800, tip)]) (by simp [xlObjects]) (hlink_handled h1 s _)
        (.object (more := []) (rs := []) (by simp [xlObjects]) ?_ .nil)⟩
    · unfold handleObject
      rw [toRec_code, toRec_data]
      dsimp only
      rw [if_neg (by decide), if_pos rfl, handleQuicktip_sound h1.1 h2]
      rfl
  | @object data rest h1 h2 =>
    refine ⟨{ s with obj := true }, .object (more := []) (by simp [xlObjects]) ?_ (objFollow_steps hb h2 after _ rfl)⟩
    unfold handleObject
    rw [toRec_code, toRec_data]
    dsimp only
    rw [if_neg (by decide), if_neg (by decide), if_pos rfl, handleObj_sound fun c => h1 (by rw [hb] at c; simpa using c)]
    rfl
  | @note8 data h1 h2 =>
    refine ⟨s, .object (more := []) (rs := []) (by simp [xlObjects]) ?_ .nil⟩
    unfold handleObject
    rw [toRec_code, toRec_data]
    dsimp only
    rw [if_neg (by decide), if_neg (by decide), if_neg (by decide), if_neg (by decide),
      handleNote8_sound (by rw [hb, h1]; simp) h2]
    rfl
  | note5 h1 h2 =>
    obtain ⟨data, more, rfl, e⟩ := handleNote5_sound (by rw [hb]; exact h1) ht h2
    have : ObjSteps (handleObject bv text) after s ((0x1C, data) :: (more ++ [])) s := by
      refine .object (by simp [xlObjects]) ?_ .nil
      unfold handleObject
      rw [toRec_code, toRec_data]
      dsimp only
      rw [if_neg (by decide), if_neg (by decide), if_neg (by decide), if_neg (by decide), List.map_nil, List.nil_append, e]
      rfl
    rw [List.append_nil] at this
    exact ⟨s, this⟩

end CP
