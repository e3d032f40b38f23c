import Verif.Lemmas.Biff
import Verif.Model.XlsSheet
import Verif.Spec.XlsSheet
import Verif.Props.SheetCells
/-!
# Lemmas about the records of a work sheet
-/

namespace CP
open Spec

variable {σ : Type}

/-- A record of the file, as the reader has it. -/
def toRec (r : XRec) : Rec := ⟨r.1, r.2.length, r.2⟩

/-- The handler of objects gets through the records `rs` (with `after` after them) from one
state to another. -/
inductive ObjSteps (handler : σ → Rec → List Rec → Except Exc (σ × Nat)) (after : List Rec) : σ → List XRec → σ → Prop
  | nil {s} : ObjSteps handler after s [] s
  | object {s s' s'' r more rs} : r.1 ∈ xlObjects →
      handler s (toRec r) (more.map toRec ++ (rs.map toRec ++ after)) = .ok (s', more.length) →
      ObjSteps handler after s' rs s'' → ObjSteps handler after s (r :: (more ++ rs)) s''
  | aside {s s' r rs} : Aside r → ObjSteps handler after s rs s' → ObjSteps handler after s (r :: rs) s'

/-- The reader has what the file depends on. -/
structure XlsFits (E : XlsEnv σ) (ctx : XlsCtx) : Prop where
  bv : (E.bv < 80) = (ctx.v8 = false)
  three : 30 ≤ E.bv
  rnd : E.rnd = ctx.rnd
  sst : E.sst = ctx.sst
  xfType : E.xfType = ctx.xfType
  text : ∀ b t, ctx.text b = some t → E.text b = .ok t
  obj : ∀ rs, ctx.object rs → ∀ s after, ∃ s', ObjSteps E.obj after s rs s'

/-! ### Cells -/

theorem CellHead.length {row col xf : Nat} {head : Bytes} (h : CellHead row col xf head) : head.length = 6 := by
  obtain ⟨_, _, _, rfl⟩ := h
  simp [leBytes_length]

theorem take_head {head rest : Bytes} (h : head.length = 6) : ((head ++ rest).take 6).length = 6 := by simp; omega

theorem CellHead.fields {row col xf : Nat} {head : Bytes} (h : CellHead row col xf head) (rest : Bytes) :
    field2 (head ++ rest) 0 = row ∧ field2 (head ++ rest) 2 = col ∧ field2 (head ++ rest) 4 = xf := by
  obtain ⟨h1, h2, h3, rfl⟩ := h
  refine ⟨?_, ?_, ?_⟩ <;> unfold field2
  · rw [pySlice_at (a := 0) (pre := []) (m := leBytes 2 row) (post := leBytes 2 col ++ leBytes 2 xf ++ rest) (by simp) rfl
      (by rw [leBytes_length]), leNat_leBytes (by omega)]
  · rw [pySlice_at (pre := leBytes 2 row) (m := leBytes 2 col) (post := leBytes 2 xf ++ rest) (by simp) (by rw [leBytes_length])
      (by rw [leBytes_length]), leNat_leBytes (by omega)]
  · rw [pySlice_at (pre := leBytes 2 row ++ leBytes 2 col) (m := leBytes 2 xf) (post := rest) (by simp)
      (by rw [List.length_append, leBytes_length, leBytes_length]) (by rw [leBytes_length]), leNat_leBytes (by omega)]

theorem run_put {g g' : Grid} {r c : Nat} {cell : PutCell} (h : g.run [.put r c cell] = (g', none)) :
    putE g r c cell = .ok g' := by
  unfold Grid.run at h
  simp only [Grid.op] at h
  unfold putE
  rcases hp : g.put r c cell with ⟨g1, _ | e⟩
  · rw [hp] at h
    simp only [Grid.run, Prod.mk.injEq, and_true] at h
    rw [h]
  · rw [hp] at h
    simp at h

theorem run_putNum {E : XlsEnv σ} {g g' : Grid} {r c xf typ : Nat} {v : Val} (hx : E.xfType xf = some typ)
    (h : g.run [.put r c ⟨typ, v, xf⟩] = (g', none)) : putNum E g r c v xf = .ok g' := by
  unfold putNum
  rw [hx]
  exact run_put h

theorem run_putText {g g' : Grid} {r c xf : Nat} {s : List Char}
    (h : g.run [.put r c ⟨1, .str s, xf⟩] = (g', none)) : putText g r c xf s = .ok g' := run_put h

theorem unpackDouble_is {n : Nat} (h : n < 2 ^ 64) {v : Val} (hv : DoubleIs n v) : unpackDouble (leBytes 8 n) = .ok v := by
  unfold unpackDouble
  rw [if_pos (leBytes_length 8 n), leNat_leBytes h, (doubleIs_iff h).1 hv]

theorem readNumber_sound {E : XlsEnv σ} {row col xf n typ : Nat} {head more : Bytes} {v : Val} {g g' : Grid}
    (h : CellHead row col xf head) (hn : n < 2 ^ 64) (hv : DoubleIs n v) (hx : E.xfType xf = some typ)
    (hr : g.run [.put row col ⟨typ, v, xf⟩] = (g', none)) : readNumber E g (head ++ leBytes 8 n ++ more) = .ok g' := by
  have hl := CellHead.length h
  obtain ⟨f1, f2, f3⟩ := CellHead.fields h (leBytes 8 n ++ more)
  unfold readNumber
  rw [List.append_assoc, if_pos (by simp [leBytes_length]; omega),
    pySlice_at (pre := head) (m := leBytes 8 n) (post := more) rfl hl.symm (by rw [leBytes_length]),
    unpackDouble_is hn hv, f1, f2, f3]
  exact run_putNum hx hr

theorem readRk_sound {E : XlsEnv σ} {row col xf n typ : Nat} {head more : Bytes} {v : Val} {g g' : Grid}
    (h : CellHead row col xf head) (hn : n < 2 ^ 32) (hv : RkIs E.rnd n v) (hx : E.xfType xf = some typ)
    (hr : g.run [.put row col ⟨typ, v, xf⟩] = (g', none)) : readRk E g (head ++ leBytes 4 n ++ more) = .ok g' := by
  have hl := CellHead.length h
  obtain ⟨f1, f2, f3⟩ := CellHead.fields h (leBytes 4 n ++ more)
  unfold readRk
  rw [List.append_assoc, if_pos (take_head hl),
    pySlice_at (pre := head) (m := leBytes 4 n) (post := more) rfl hl.symm (by rw [leBytes_length]),
    (unpackRK_iff E.rnd hn).1 hv, f1, f2, f3]
  exact run_putNum hx hr

theorem readLabelSst_sound {E : XlsEnv σ} {row col xf i : Nat} {head : Bytes} {t : List Char} {g g' : Grid}
    (h : CellHead row col xf head) (hi : i < 2 ^ 31) (ht : E.sst[i]? = some t)
    (hr : g.run [.put row col ⟨1, .str t, xf⟩] = (g', none)) : readLabelSst E g (head ++ leBytes 4 i) = .ok g' := by
  have hl := CellHead.length h
  obtain ⟨f1, f2, f3⟩ := CellHead.fields h (leBytes 4 i)
  unfold readLabelSst
  rw [if_pos (by simp [leBytes_length]; omega),
    pySlice_at (pre := head) (m := leBytes 4 i) (post := []) (by simp) hl.symm (by rw [leBytes_length]), leInt_nat hi, f1, f2, f3]
  have : pyIndex E.sst (i : Int) = .ok t := by
    unfold pyIndex
    simp only [Int.natCast_nonneg, Int.not_lt.2, if_false, Int.toNat_natCast, ht]
  rw [this]
  exact run_putText hr

theorem unpackString_sound {codec : Bytes → Except Exc (List Char)} {pre text more : Bytes} {t : List Char}
    (hl : text.length < 65536) (ht : codec text = .ok t) :
    unpackString codec (pre ++ (leBytes 2 text.length ++ text ++ more)) pre.length 2 = .ok t := by
  unfold unpackString
  rw [pySlice_at (pre := pre) (m := leBytes 2 text.length) (post := text ++ more) (by simp) rfl (by rw [leBytes_length]),
    unpackNat_leBytes (by omega)]
  dsimp only
  rw [pySlice_at (pre := pre ++ leBytes 2 text.length) (m := text) (post := more) (by simp) (by simp [leBytes_length]) rfl, ht]

theorem recText_sound {E : XlsEnv σ} {ctx : XlsCtx} (hf : XlsFits E ctx) {head b : Bytes} {t : List Char} (hl : head.length = 6)
    (h : RecText ctx b t) :
    (if E.bv < 80 then unpackString E.text (head ++ b) 6 2 else unpackUnicode (head ++ b) 6 2) = .ok t := by
  unfold RecText at h
  split at h
  · rename_i h8
    rw [if_neg (by rw [hf.bv, h8]; simp)]
    have := unpackUnicode_sound h head
    rwa [hl] at this
  · rename_i h8
    rw [if_pos (by rw [hf.bv]; simpa using h8)]
    obtain ⟨text, more, h1, rfl, h2⟩ := h
    have := unpackString_sound (pre := head) (more := more) h1 (hf.text _ _ h2)
    rwa [hl] at this

theorem readLabel_sound {E : XlsEnv σ} {ctx : XlsCtx} (hf : XlsFits E ctx) {row col xf : Nat} {head b : Bytes} {t : List Char}
    {g g' : Grid} (h : CellHead row col xf head) (ht : RecText ctx b t)
    (hr : g.run [.put row col ⟨1, .str t, xf⟩] = (g', none)) : readLabel E g (head ++ b) = .ok g' := by
  have hl := CellHead.length h
  obtain ⟨f1, f2, f3⟩ := CellHead.fields h b
  unfold readLabel
  rw [if_pos (take_head hl), recText_sound hf hl ht, f1, f2, f3]
  exact run_putText hr

theorem runsFrom_sound (pre : Bytes) (size : Nat) (n : Nat) (runs : Bytes) (h : runs.length = size * n) {a : Int}
    (ha : a = pre.length) : runsFrom (pre ++ runs) size n a = .ok ((pre ++ runs).length : Nat) := by
  induction n generalizing pre runs a with
  | zero =>
    have : runs = [] := List.eq_nil_of_length_eq_zero (by simpa using h)
    subst this ha
    simp [runsFrom]
  | succ n ih =>
    have hs : size * (n + 1) = size * n + size := by rw [Nat.mul_add, Nat.mul_one]
    have hsplit : runs = runs.take size ++ runs.drop size := (List.take_append_drop size runs).symm
    have hl : (runs.take size).length = size := by rw [List.length_take]; omega
    unfold runsFrom
    rw [hsplit, pySliceI_mid ha (by rw [hl]), if_pos hl, ← List.append_assoc]
    exact ih (pre ++ runs.take size) (runs.drop size) (by rw [List.length_drop]; omega) (by rw [ha]; simp [hl])

theorem rstring5_sound {E : XlsEnv σ} {head text runs : Bytes} {nrt : Nat} {t : List Char} (hl : head.length = 6)
    (h1 : text.length < 65536) (h2 : nrt < 256) (h3 : runs.length = 2 * nrt) (ht : E.text text = .ok t) :
    rstring5 E (head ++ (leBytes 2 text.length ++ text ++ leBytes 1 nrt ++ runs)) = .ok t := by
  unfold rstring5 unpackStringUpd strLen
  dsimp only
  rw [pySlice_at (pre := head) (m := leBytes 2 text.length) (post := text ++ leBytes 1 nrt ++ runs) (by simp) hl.symm
    (by rw [leBytes_length]), unpackNat_leBytes (by omega)]
  dsimp only
  rw [pySlice_at (pre := head ++ leBytes 2 text.length) (m := text) (post := leBytes 1 nrt ++ runs) (by simp)
    (by simp [leBytes_length, hl]) rfl, ht]
  simp only [Except.map]
  have e : head ++ (leBytes 2 text.length ++ text ++ leBytes 1 nrt ++ runs) =
    (head ++ leBytes 2 text.length ++ text) ++ (UInt8.ofNat (nrt % 256) :: runs) := by simp [leBytes]
  have hpre : (head ++ leBytes 2 text.length ++ text).length = 6 + 2 + text.length := by simp [leBytes_length, hl]; omega
  have hget : (head ++ (leBytes 2 text.length ++ text ++ leBytes 1 nrt ++ runs))[6 + 2 + text.length]? = some (UInt8.ofNat (nrt % 256)) := by
    rw [e, List.getElem?_append_right (by omega), hpre]
    simp
  rw [hget]
  dsimp only
  rw [u8_ofNat_toNat (Nat.mod_lt _ (by omega)), Nat.mod_eq_of_lt h2]
  have e2 : head ++ (leBytes 2 text.length ++ text ++ leBytes 1 nrt ++ runs) =
    (head ++ leBytes 2 text.length ++ text ++ leBytes 1 nrt) ++ runs := by simp
  rw [e2, runsFrom_sound _ 2 nrt runs h3 (by simp [leBytes_length, hl]; omega)]
  dsimp only
  rw [if_pos rfl]

theorem rstring8_sound {head shead text inner runs : Bytes} {o : UInt8} {rt sz nrt : Nat} {t : List Char} (hl : head.length = 6)
    (h1 : StringHead 2 (textUnits t).length o rt sz shead) (h2 : UnitBytes (Wide o) (textUnits t) text)
    (h3 : inner.length = 4 * rt + sz) (h4 : nrt < 65536) (h5 : runs.length = 4 * nrt) :
    rstring8 (head ++ (shead ++ text ++ inner ++ leBytes 2 nrt ++ runs)) = .ok t := by
  obtain ⟨k1, k2, k3, k4, k5, rfl⟩ := h1
  have hsize : (if Rich o then leBytes 2 rt else []) ++ (if Phonetic o then leBytes 4 sz else []) = sizeBytes o rt sz := rfl
  have htl := unitBytes_length h2
  generalize hN : (textUnits t).length = N at *
  generalize hS : sizeBytes o rt sz = S at *
  have e0 : head ++ (leBytes 2 N ++ [o] ++ (if Rich o then leBytes 2 rt else []) ++ (if Phonetic o then leBytes 4 sz else []) ++
      text ++ inner ++ leBytes 2 nrt ++ runs) = head ++ (leBytes 2 N ++ (o :: (S ++ (text ++ (inner ++ (leBytes 2 nrt ++ runs)))))) := by
    rw [← hsize]; simp
  rw [e0]
  unfold rstring8 unpackUnicodeUpd strLen
  dsimp only
  rw [pySlice_at (pre := head) (m := leBytes 2 N) (post := o :: (S ++ (text ++ (inner ++ (leBytes 2 nrt ++ runs))))) rfl hl.symm
    (by rw [leBytes_length]), unpackNat_leBytes (by omega)]
  dsimp only
  have e1 : head ++ (leBytes 2 N ++ (o :: (S ++ (text ++ (inner ++ (leBytes 2 nrt ++ runs)))))) =
    (head ++ leBytes 2 N) ++ (o :: (S ++ (text ++ (inner ++ (leBytes 2 nrt ++ runs))))) := by simp
  have hp1 : (head ++ leBytes 2 N).length = 6 + 2 := by simp [leBytes_length, hl]
  rw [e1, if_neg (by rw [← hp1, List.drop_left]; simp)]
  have hget : ((head ++ leBytes 2 N) ++ (o :: (S ++ (text ++ (inner ++ (leBytes 2 nrt ++ runs))))))[6 + 2]? = some o := by
    rw [← hp1, List.getElem?_append_right (Nat.le_refl _)]; simp
  rw [hget]
  dsimp only
  have e2 : (head ++ leBytes 2 N) ++ (o :: (S ++ (text ++ (inner ++ (leBytes 2 nrt ++ runs))))) =
    (head ++ leBytes 2 N ++ [o]) ++ (S ++ (text ++ (inner ++ (leBytes 2 nrt ++ runs)))) := by simp
  rw [e2]
  have hos := optSizes_head k2 k3 k4 k5 (head ++ leBytes 2 N ++ [o]) (text ++ (inner ++ (leBytes 2 nrt ++ runs)))
    (a := ((6 + 2 : Nat) : Int) + 1) (by simp [leBytes_length, hl])
  rw [hS] at hos
  rw [hos]
  dsimp only
  have e3 : (head ++ leBytes 2 N ++ [o]) ++ (S ++ (text ++ (inner ++ (leBytes 2 nrt ++ runs)))) =
    (head ++ leBytes 2 N ++ [o] ++ S) ++ (text ++ (inner ++ (leBytes 2 nrt ++ runs))) := by simp
  rw [e3, wide_eq, pySliceI_mid (by simp [leBytes_length, hl]; omega) (by rw [htl]), decodeChars_units h2]
  dsimp only
  have e4 : (head ++ leBytes 2 N ++ [o] ++ S) ++ (text ++ (inner ++ (leBytes 2 nrt ++ runs))) =
    (head ++ leBytes 2 N ++ [o] ++ S ++ text ++ inner) ++ (leBytes 2 nrt ++ runs) := by simp
  have hpos : ((6 + 2 : Nat) : Int) + 1 + S.length + charBytes (Wide o) N + 4 * rt + sz =
      (head ++ leBytes 2 N ++ [o] ++ S ++ text ++ inner).length := by
    simp [leBytes_length, hl, htl, h3]; omega
  rw [e4, pySliceI_mid hpos (by rw [leBytes_length]; rfl), unpackNat_leBytes (by omega)]
  dsimp only
  have e5 : (head ++ leBytes 2 N ++ [o] ++ S ++ text ++ inner) ++ (leBytes 2 nrt ++ runs) =
    (head ++ leBytes 2 N ++ [o] ++ S ++ text ++ inner ++ leBytes 2 nrt) ++ runs := by simp
  rw [e5, runsFrom_sound _ 4 nrt runs h5 (by rw [hpos]; simp [leBytes_length]; omega)]
  dsimp only
  rw [if_pos rfl]

theorem readRString_sound {E : XlsEnv σ} {ctx : XlsCtx} (hf : XlsFits E ctx) {row col xf : Nat} {head b : Bytes} {t : List Char}
    {g g' : Grid} (h : CellHead row col xf head) (ht : RichText ctx b t)
    (hr : g.run [.put row col ⟨1, .str t, xf⟩] = (g', none)) : readRString E g (head ++ b) = .ok g' := by
  have hl := CellHead.length h
  obtain ⟨f1, f2, f3⟩ := CellHead.fields h b
  unfold readRString
  have : (if E.bv < 80 then rstring5 E (head ++ b) else rstring8 (head ++ b)) = .ok t := by
    unfold RichText at ht
    split at ht
    · rename_i h8
      rw [if_neg (by rw [hf.bv, h8]; simp)]
      obtain ⟨o, rt, sz, sh, text, inner, nrt, runs, h1, h2, h3, h4, h5, rfl⟩ := ht
      exact rstring8_sound hl h1 h2 h3 h4 h5
    · rename_i h8
      rw [if_pos (by rw [hf.bv]; simpa using h8)]
      obtain ⟨text, nrt, runs, h1, h2, h3, rfl, h4⟩ := ht
      exact rstring5_sound hl h1 h2 h3 (hf.text _ _ h4)
  rw [if_pos (take_head hl), this, f1, f2, f3]
  exact run_putText hr

theorem mulRkLoop_sound {E : XlsEnv σ} {ctx : XlsCtx} (hf : XlsFits E ctx) {row col : Nat} {items : Bytes} {ops : List CellOp}
    (h : RkItems ctx row col items ops) : ∀ (pre post : Bytes) {g g' : Grid}, g.run ops = (g', none) →
      mulRkLoop E (pre ++ (items ++ post)) row ops.length col pre.length g = .ok g' := by
  induction h with
  | nil =>
    intro pre post g g' hr
    simp only [Grid.run, Prod.mk.injEq, and_true] at hr
    simp [mulRkLoop, hr]
  | @cons col xf n v typ b ops h1 h2 h3 h4 _ ih =>
    intro pre post g g' hr
    rw [List.length_cons, mulRkLoop,
      pySlice_at (pre := pre) (m := leBytes 2 xf) (post := leBytes 4 n ++ (b ++ post)) (by simp) rfl (by rw [leBytes_length]),
      unpackNat_leBytes (by omega)]
    dsimp only
    rw [pySlice_at (pre := pre ++ leBytes 2 xf) (m := leBytes 4 n) (post := b ++ post) (by simp) (by simp [leBytes_length])
      (by rw [leBytes_length]), (unpackRK_iff E.rnd h2).1 (by rw [hf.rnd]; exact h3)]
    dsimp only
    have ha := run_append g [.put row col ⟨typ, v, xf⟩] ops
    rw [List.singleton_append, hr] at ha
    rcases hp : g.run [.put row col ⟨typ, v, xf⟩] with ⟨g1, _ | e⟩
    · rw [hp] at ha
      dsimp only at ha
      rw [run_putNum (by rw [hf.xfType]; exact h4) hp]
      dsimp only
      have := ih (pre ++ (leBytes 2 xf ++ leBytes 4 n)) post ha.symm
      have e1 : (pre ++ (leBytes 2 xf ++ leBytes 4 n)).length = pre.length + 6 := by simp [leBytes_length]
      rw [e1] at this
      rw [← this]
      congr 1
      simp
    · rw [hp] at ha
      simp at ha

theorem RkItems.length {ctx : XlsCtx} {row col : Nat} {items : Bytes} {ops : List CellOp}
    (h : RkItems ctx row col items ops) : items.length = 6 * ops.length := by
  induction h with
  | nil => rfl
  | cons _ _ _ _ _ ih => simp [leBytes_length, ih]; omega

theorem readMulRk_sound {E : XlsEnv σ} {ctx : XlsCtx} (hf : XlsFits E ctx) {row first : Nat} {items : Bytes} {ops : List CellOp}
    {g g' : Grid} (h1 : row < 65536) (h2 : first + ops.length ≤ 65536) (h3 : ops ≠ []) (h4 : RkItems ctx row first items ops)
    (hr : g.run ops = (g', none)) :
    readMulRk E g (leBytes 2 row ++ leBytes 2 first ++ items ++ leBytes 2 (first + ops.length - 1)) = .ok g' := by
  have hpos : 0 < ops.length := List.length_pos_iff.2 h3
  unfold readMulRk
  rw [if_pos (by simp [leBytes_length]; omega)]
  dsimp only
  have f1 : field2 (leBytes 2 row ++ leBytes 2 first ++ items ++ leBytes 2 (first + ops.length - 1)) 0 = row := by
    unfold field2
    rw [pySlice_at (a := 0) (pre := []) (m := leBytes 2 row) (post := leBytes 2 first ++ items ++ leBytes 2 (first + ops.length - 1))
      (by simp) rfl (by rw [leBytes_length]), leNat_leBytes (by omega)]
  have f2 : field2 (leBytes 2 row ++ leBytes 2 first ++ items ++ leBytes 2 (first + ops.length - 1)) 2 = first := by
    unfold field2
    rw [pySlice_at (pre := leBytes 2 row) (m := leBytes 2 first) (post := items ++ leBytes 2 (first + ops.length - 1))
      (by simp) (by rw [leBytes_length]) (by rw [leBytes_length]), leNat_leBytes (by omega)]
  have f3 : leNat ((leBytes 2 row ++ leBytes 2 first ++ items ++ leBytes 2 (first + ops.length - 1)).drop
      ((leBytes 2 row ++ leBytes 2 first ++ items ++ leBytes 2 (first + ops.length - 1)).length - 2)) = first + ops.length - 1 := by
    rw [List.length_append, leBytes_length, Nat.add_sub_cancel, List.drop_left, leNat_leBytes (by omega)]
  rw [f1, f2, f3, show first + ops.length - 1 + 1 - first = ops.length by omega]
  have := mulRkLoop_sound hf h4 (leBytes 2 row ++ leBytes 2 first) (leBytes 2 (first + ops.length - 1)) hr
  rw [show (leBytes 2 row ++ leBytes 2 first).length = 4 by simp [leBytes_length]] at this
  simpa using this

theorem readBoolErr_sound {row col xf : Nat} {head more : Bytes} {v : UInt8} {err : Bool} {g g' : Grid}
    (h : CellHead row col xf head) (hr : g.run [.put row col ⟨if err then 5 else 4, .int v.toNat, xf⟩] = (g', none)) :
    readBoolErr g (head ++ [v, if err then 1 else 0] ++ more) = .ok g' := by
  have hl := CellHead.length h
  rw [List.append_assoc]
  obtain ⟨f1, f2, f3⟩ := CellHead.fields h ([v, if err then 1 else 0] ++ more)
  have ht : ∃ a b c d e f, (head ++ ([v, if err then 1 else 0] ++ more)).take 8 = [a, b, c, d, e, f, v, if err then 1 else 0] := by
    match head, hl with
    | [a, b, c, d, e, f], _ => exact ⟨a, b, c, d, e, f, by simp⟩
  obtain ⟨a, b, c, d, e, f, ht⟩ := ht
  unfold readBoolErr
  rw [ht]
  dsimp only
  rw [f1, f2, f3]
  cases err
  · rw [if_pos (by simp)]
    exact run_put hr
  · rw [if_neg (by simp), if_pos (by simp)]
    exact run_put hr

/-! ### The text of a formula -/

theorem bmp_units {t : List Char} (h : ∀ c ∈ t, c.toNat < 0x10000) : textUnits t = t.map Char.toNat := by
  induction t with
  | nil => rfl
  | cons c t ih =>
    have e : textUnits (c :: t) = utf16Units c ++ textUnits t := rfl
    rw [e, ih fun d hd => h d (List.mem_cons_of_mem _ hd)]
    unfold utf16Units
    rw [if_pos (h c (List.mem_cons_self ..))]
    rfl

theorem bmp_split {t : List Char} (h : ∀ c ∈ t, c.toNat < 0x10000) {us us' : List Nat} (e : textUnits t = us ++ us') :
    ∃ a b, t = a ++ b ∧ us = textUnits a ∧ us' = textUnits b ∧ a.length = us.length ∧ (∀ c ∈ b, c.toNat < 0x10000) := by
  rw [bmp_units h] at e
  obtain ⟨a, b, rfl, ha, hb⟩ := List.map_eq_append_iff.1 e
  refine ⟨a, b, rfl, ?_, ?_, ?_, fun c hc => h c (List.mem_append_right _ hc)⟩
  · rw [bmp_units fun c hc => h c (List.mem_append_left _ hc), ha]
  · rw [bmp_units fun c hc => h c (List.mem_append_right _ hc), hb]
  · rw [← ha, List.length_map]

/-- The CONTINUE records. -/
def contRecs (conts : List Bytes) : List Rec := conts.map fun d => toRec (0x3C, d)

theorem strChunk8 {E : XlsEnv σ} (h8 : ¬ E.bv < 80) (o : UInt8) (b : Bytes) : strChunk E (o :: b) = decodeChars (Wide o) b := by
  unfold strChunk
  rw [if_neg h8, ← wide_eq]

theorem strChunk5 {E : XlsEnv σ} (h8 : E.bv < 80) (b : Bytes) : strChunk E b = E.text b := by
  unfold strChunk
  rw [if_pos h8]

theorem strLoop8_sound {E : XlsEnv σ} (h8 : ¬ E.bv < 80) {n : Nat} {b : Bytes} {conts : List Bytes} {us : List Nat}
    (h : StrUnits n b conts us) : ∀ {t : List Char}, us = textUnits t → (∀ c ∈ t, c.toNat < 0x10000) → ∀ after,
      strLoop E n b (contRecs conts ++ after) = .ok (t, conts.length) := by
  induction h with
  | @last o us b hu =>
    intro t ht hb after
    subst ht
    rw [strLoop, strChunk8 h8, decodeChars_units hu]
    dsimp only
    rw [if_pos (by rw [bmp_units hb, List.length_map])]
    rfl
  | @over o us b n next rest us' hu hn _ ih =>
    intro t ht hb after
    obtain ⟨t1, t2, rfl, rfl, h2, h3, h4⟩ := bmp_split hb ht.symm
    rw [strLoop, strChunk8 h8, decodeChars_units hu]
    dsimp only
    rw [if_neg (by omega), if_neg (by omega)]
    unfold contRecs
    rw [List.map_cons, List.cons_append]
    dsimp only [toRec]
    rw [if_neg (by simp [xlContinue]), show (textUnits t1).length + n - t1.length = n by omega]
    have := ih h2 h4 after
    unfold contRecs at this
    dsimp only [toRec] at this
    rw [this]
    rfl

theorem mapM_append {f : UInt8 → Option Char} {a b : Bytes} {t : List Char} (h : (a ++ b).mapM f = some t) :
    ∃ t1 t2, t = t1 ++ t2 ∧ a.mapM f = some t1 ∧ b.mapM f = some t2 := by
  rw [List.mapM_append] at h
  cases h1 : a.mapM f with
  | none => simp [h1] at h
  | some t1 =>
    cases h2 : b.mapM f with
    | none => simp [h1, h2] at h
    | some t2 =>
      simp [h1, h2] at h
      exact ⟨t1, t2, h.symm, rfl, rfl⟩

theorem mapM_length {f : UInt8 → Option Char} {a : Bytes} {t : List Char} (h : a.mapM f = some t) : t.length = a.length := by
  induction a generalizing t with
  | nil => simp at h; simp [← h]
  | cons x a ih =>
    rw [List.mapM_cons] at h
    cases h1 : f x with
    | none => simp [h1] at h
    | some c =>
      cases h2 : a.mapM f with
      | none => simp [h1, h2] at h
      | some t2 =>
        simp [h1, h2] at h
        rw [← h, List.length_cons, ih h2, List.length_cons]

/-- In a code page with a character for each byte this is so for all texts. -/
theorem single_oneEach {ctx : XlsCtx} (hs : SingleByte ctx) {n : Nat} {b : Bytes} {conts : List Bytes} {all : Bytes}
    (h : StrBytes n b conts all) : ∀ {t : List Char}, ctx.text all = some t → OneEach ctx.text b conts t := by
  obtain ⟨f, hs⟩ := hs
  induction h with
  | @last b =>
    intro t ht
    exact .last ht (mapM_length (by rw [← hs]; exact ht))
  | @over b n next rest b' hn _ ih =>
    intro t ht
    rw [hs] at ht
    obtain ⟨t1, t2, rfl, h1, h2⟩ := mapM_append ht
    exact .over (by rw [hs]; exact h1) (mapM_length h1) (ih (by rw [hs]; exact h2))

theorem strLoop5_sound {E : XlsEnv σ} {text : Bytes → Option (List Char)} (htext : ∀ b t, text b = some t → E.text b = .ok t)
    (h8 : E.bv < 80) {n : Nat} {b : Bytes} {conts : List Bytes} {all : Bytes} (h : StrBytes n b conts all) :
    ∀ {t : List Char}, OneEach text b conts t → ∀ after, strLoop E n b (contRecs conts ++ after) = .ok (t, conts.length) := by
  induction h with
  | @last b =>
    intro t ht after
    obtain ⟨h1, h2⟩ : text b = some t ∧ t.length = b.length := by
      cases ht with
      | last h1 h2 => exact ⟨h1, h2⟩
    rw [strLoop, strChunk5 h8, htext _ _ h1]
    dsimp only
    rw [if_pos h2]
    rfl
  | @over b n next rest b' hn _ ih =>
    intro t ht after
    obtain ⟨t1, t2, rfl, h1, hl, h2⟩ : ∃ t1 t2, t = t1 ++ t2 ∧ text b = some t1 ∧ t1.length = b.length ∧ OneEach text next rest t2 := by
      cases ht with
      | over h1 h2 h3 => exact ⟨_, _, rfl, h1, h2, h3⟩
    rw [strLoop, strChunk5 h8, htext _ _ h1]
    dsimp only
    rw [if_neg (by omega), if_neg (by omega)]
    unfold contRecs
    rw [List.map_cons, List.cons_append]
    dsimp only [toRec]
    rw [if_neg (by simp [xlContinue]), show b.length + n - t1.length = n by omega]
    have := ih h2 after
    unfold contRecs at this
    dsimp only [toRec] at this
    rw [this]
    rfl

theorem stringContents_sound {E : XlsEnv σ} {ctx : XlsCtx} (hf : XlsFits E ctx) {first : Bytes} {conts : List Bytes} {t : List Char}
    (h : StringRecs true ctx first conts t) (after : List Rec) :
    stringContents E first (contRecs conts ++ after) = .ok (t, conts.length) := by
  obtain ⟨n, b, hn, rfl, h⟩ := h
  unfold stringContents
  dsimp only
  rw [if_pos hf.three]
  have ht : (leBytes 2 n ++ b).take 2 = leBytes 2 n := by
    have := List.take_left (l₁ := leBytes 2 n) (l₂ := b)
    rwa [leBytes_length] at this
  have hd : (leBytes 2 n ++ b).drop 2 = b := by
    have := List.drop_left (l₁ := leBytes 2 n) (l₂ := b)
    rwa [leBytes_length] at this
  rw [ht, hd, unpackNat_leBytes (by omega)]
  dsimp only
  split at h
  · rename_i h8
    exact strLoop8_sound (by rw [hf.bv, h8]; simp) h.1 rfl (h.2 rfl) after
  · rename_i h8
    obtain ⟨⟨all, h1, h2⟩, h3⟩ := h
    exact strLoop5_sound hf.text (by rw [hf.bv]; simpa using h8) h1 (h3 rfl) after

theorem formulaText_sound {E : XlsEnv σ} {ctx : XlsCtx} (hf : XlsFits E ctx) {between : List XRec} {first : Bytes} {conts : List Bytes}
    {t : List Char} (hb : Between between) (h : StringRecs true ctx first conts t) (after : List Rec) :
    formulaText E (between.map toRec ++ toRec (0x207, first) :: (contRecs conts ++ after)) = .ok (t, between.length + 1 + conts.length) := by
  rcases hb with rfl | ⟨code, data, rfl, hb⟩
  · rw [List.map_nil, List.nil_append, formulaText.eq_def]
    dsimp only [toRec]
    rw [if_pos (.inl rfl), stringContents_sound hf h after]
    simp; omega
  · have hbt : betweenOk (toRec (code, data)) = .ok () := by
      unfold betweenOk toRec
      dsimp only
      rcases hb with ⟨rfl, hl⟩ | ⟨rfl, hl⟩ | rfl
      · rw [if_pos (by decide), if_pos (by rw [List.length_take]; omega)]
      · rw [if_neg (by decide), if_pos (by decide), if_pos (by rw [List.length_take]; omega)]
      · rw [if_neg (by decide), if_neg (by decide), if_pos (by decide)]
    have hc : ¬ (code = xlString ∨ code = xlStringB2) := by
      rcases hb with ⟨rfl, _⟩ | ⟨rfl, _⟩ | rfl <;> decide
    rw [List.map_cons, List.map_nil, List.singleton_append, formulaText.eq_def]
    dsimp only
    rw [if_neg (show ¬ ((toRec (code, data)).code = xlString ∨ (toRec (code, data)).code = xlStringB2) from hc), hbt]
    dsimp only
    rw [if_pos (.inl rfl), show (toRec (0x207, first)).data = first from rfl, stringContents_sound hf h after]
    simp; omega

theorem formula_head {row col xf : Nat} {head res more : Bytes} (h : CellHead row col xf head) (hres : res.length = 8)
    (hm : 2 ≤ more.length) (E : XlsEnv σ) (g : Grid) (after : List Rec) :
    readFormula E g (head ++ res ++ more) after = formulaCell E g row col xf res after := by
  have hl := CellHead.length h
  unfold readFormula
  rw [List.append_assoc]
  obtain ⟨f1, f2, f3⟩ := CellHead.fields h (res ++ more)
  rw [if_pos (by simp; omega), f1, f2, f3, pySlice_at rfl hl.symm (by omega)]

theorem fmla_number_top {n : Nat} (hn : n < 0xFFFF * 2 ^ 48) : (leBytes 8 n).drop 6 ≠ [0xFF, 0xFF] := by
  intro h
  have e : (leBytes 8 n).drop 6 = leBytes 2 (n / 256 / 256 / 256 / 256 / 256 / 256) := rfl
  rw [e] at h
  have hn' : n < 65535 * 281474976710656 := hn
  have h2 := congrArg leNat h
  rw [leNat_leBytes (by omega)] at h2
  have : leNat [0xFF, 0xFF] = 65535 := by decide
  omega

theorem pySlice_drop6 {res : Bytes} (h : res.length = 8) : pySlice res 6 8 = res.drop 6 :=
  pySlice_at (pre := res.take 6) (m := res.drop 6) (post := []) (by simp) (by simp; omega) (by simp; omega)

theorem formulaCell_number {E : XlsEnv σ} {row col xf n typ : Nat} {v : Val} {g g' : Grid} (after : List Rec)
    (hn : n < 0xFFFF * 2 ^ 48) (hv : DoubleIs n v) (hx : E.xfType xf = some typ)
    (hr : g.run [.put row col ⟨typ, v, xf⟩] = (g', none)) :
    formulaCell E g row col xf (leBytes 8 n) after = .ok (g', 0) := by
  unfold formulaCell
  dsimp only
  rw [pySlice_drop6 (leBytes_length 8 n), if_neg (fmla_number_top hn), unpackDouble_is (Nat.lt_trans hn (by decide)) hv]
  dsimp only
  rw [run_putNum hx hr]
  rfl

theorem formulaCell_special {E : XlsEnv σ} {row col xf : Nat} {k x1 v x2 x3 x4 : UInt8} {g g' : Grid} (after : List Rec)
    {typ : Nat} {val : Val}
    (hk : (k = 1 ∧ typ = 4 ∧ val = .int v.toNat) ∨ (k = 2 ∧ typ = 5 ∧ val = .int v.toNat) ∨ (k = 3 ∧ typ = 1 ∧ val = .str []))
    (hr : g.run [.put row col ⟨typ, val, xf⟩] = (g', none)) :
    formulaCell E g row col xf [k, x1, v, x2, x3, x4, 0xFF, 0xFF] after = .ok (g', 0) := by
  have hv : leNat (pySlice [k, x1, v, x2, x3, x4, 0xFF, 0xFF] 2 3) = v.toNat := by simp [pySlice, leNat]
  have hk' : leNat (pySlice [k, x1, v, x2, x3, x4, 0xFF, 0xFF] 0 1) = k.toNat := by simp [pySlice, leNat]
  unfold formulaCell
  dsimp only
  rw [pySlice_drop6 rfl, if_pos (by simp), hv, hk']
  have hp := run_put hr
  rcases hk with ⟨rfl, rfl, rfl⟩ | ⟨rfl, rfl, rfl⟩ | ⟨rfl, rfl, rfl⟩
  · rw [if_neg (by simp), if_pos (by simp)]
    simp only [xlBoolean]
    rw [hp]; rfl
  · rw [if_neg (by simp), if_neg (by simp), if_pos (by simp)]
    simp only [xlError]
    rw [hp]; rfl
  · rw [if_neg (by simp), if_neg (by simp), if_neg (by simp), if_pos (by simp)]
    simp only [xlText]
    rw [hp]; rfl

theorem formulaCell_text {E : XlsEnv σ} {row col xf : Nat} {x1 x2 x3 x4 x5 : UInt8} {after : List Rec} {t : List Char} {k : Nat}
    {g g' : Grid} (ht : formulaText E after = .ok (t, k)) (hr : g.run [.put row col ⟨1, .str t, xf⟩] = (g', none)) :
    formulaCell E g row col xf [0, x1, x2, x3, x4, x5, 0xFF, 0xFF] after = .ok (g', k) := by
  have hk' : leNat (pySlice [0, x1, x2, x3, x4, x5, 0xFF, 0xFF] 0 1) = 0 := by simp [pySlice, leNat]
  unfold formulaCell
  dsimp only
  rw [pySlice_drop6 rfl, if_pos (by simp), hk', if_pos rfl, ht]
  dsimp only
  rw [run_putText hr]
  rfl

theorem readFormula_number {E : XlsEnv σ} {row col xf n typ : Nat} {head more : Bytes} {v : Val} {g g' : Grid} (after : List Rec)
    (h : CellHead row col xf head) (hn : n < 0xFFFF * 2 ^ 48) (hv : DoubleIs n v) (hx : E.xfType xf = some typ) (hm : 2 ≤ more.length)
    (hr : g.run [.put row col ⟨typ, v, xf⟩] = (g', none)) :
    readFormula E g (head ++ leBytes 8 n ++ more) after = .ok (g', 0) := by
  rw [formula_head h (leBytes_length 8 n) hm]
  exact formulaCell_number after hn hv hx hr

theorem readFormula_special {E : XlsEnv σ} {row col xf : Nat} {head more : Bytes} {k x1 v x2 x3 x4 : UInt8} {g g' : Grid} (after : List Rec)
    {typ : Nat} {val : Val} (h : CellHead row col xf head) (hm : 2 ≤ more.length)
    (hk : (k = 1 ∧ typ = 4 ∧ val = .int v.toNat) ∨ (k = 2 ∧ typ = 5 ∧ val = .int v.toNat) ∨ (k = 3 ∧ typ = 1 ∧ val = .str []))
    (hr : g.run [.put row col ⟨typ, val, xf⟩] = (g', none)) :
    readFormula E g (head ++ [k, x1, v, x2, x3, x4, 0xFF, 0xFF] ++ more) after = .ok (g', 0) := by
  rw [formula_head (res := [k, x1, v, x2, x3, x4, 0xFF, 0xFF]) h rfl hm]
  exact formulaCell_special after hk hr

theorem readFormula_text {E : XlsEnv σ} {ctx : XlsCtx} (hf : XlsFits E ctx) {row col xf : Nat} {head more : Bytes}
    {x1 x2 x3 x4 x5 : UInt8} {between : List XRec} {first : Bytes} {conts : List Bytes} {t : List Char} {g g' : Grid}
    (h : CellHead row col xf head) (hm : 2 ≤ more.length) (hb : Between between) (ht : StringRecs true ctx first conts t)
    (hr : g.run [.put row col ⟨1, .str t, xf⟩] = (g', none)) (after : List Rec) :
    readFormula E g (head ++ [0, x1, x2, x3, x4, x5, 0xFF, 0xFF] ++ more)
      (between.map toRec ++ toRec (0x207, first) :: (contRecs conts ++ after)) = .ok (g', between.length + 1 + conts.length) := by
  rw [formula_head (res := [0, x1, x2, x3, x4, x5, 0xFF, 0xFF]) h rfl hm]
  exact formulaCell_text (formulaText_sound hf hb ht after) hr

/-! ### Steps -/

/-- Records that stand for cells are taken together, and do what they stand for. -/
theorem cells_step {E : XlsEnv σ} {ctx : XlsCtx} (hf : XlsFits E ctx) {rs : List XRec} {ops : List CellOp}
    (h : CellRecs true ctx rs ops) (st : XlsSt σ) {g' : Grid} (hr : st.grid.run ops = (g', none)) (after : List Rec) :
    ∃ r more, rs = r :: more ∧ r.1 ≠ 0xA ∧
      sheetStep E st (toRec r) (more.map toRec ++ after) = .ok ({ st with grid := g' }, more.length) := by
  have hx : ∀ {xf typ}, ctx.xfType xf = some typ → E.xfType xf = some typ := fun h => by rw [hf.xfType]; exact h
  cases h with
  | number h1 h2 h3 h4 =>
    refine ⟨_, [], rfl, by simp, ?_⟩
    unfold sheetStep toRec
    dsimp only
    rw [if_pos (by decide), readNumber_sound h1 h2 h3 (hx h4) hr]; rfl
  | rk h1 h2 h3 h4 =>
    refine ⟨_, [], rfl, by simp, ?_⟩
    unfold sheetStep toRec
    dsimp only
    rw [if_neg (by decide), if_neg (by decide), if_neg (by decide), if_neg (by decide), if_pos (by decide),
      readRk_sound h1 h2 (by rw [hf.rnd]; exact h3) (hx h4) hr]; rfl
  | mulRk h1 h2 h3 h4 =>
    refine ⟨_, [], rfl, by simp, ?_⟩
    unfold sheetStep toRec
    dsimp only
    rw [if_neg (by decide), if_neg (by decide), if_neg (by decide), if_neg (by decide), if_neg (by decide), if_pos (by decide),
      readMulRk_sound hf h1 h2 h3 h4 hr]; rfl
  | labelSst h1 h2 h3 =>
    refine ⟨_, [], rfl, by simp, ?_⟩
    unfold sheetStep toRec
    dsimp only
    rw [if_neg (by decide), if_pos (by decide), readLabelSst_sound h1 h2 (by rw [hf.sst]; exact h3) hr]; rfl
  | label h1 h2 =>
    refine ⟨_, [], rfl, by simp, ?_⟩
    unfold sheetStep toRec
    dsimp only
    rw [if_neg (by decide), if_neg (by decide), if_pos (by decide), readLabel_sound hf h1 h2 hr]; rfl
  | rstring h1 h2 =>
    refine ⟨_, [], rfl, by simp, ?_⟩
    unfold sheetStep toRec
    dsimp only
    rw [if_neg (by decide), if_neg (by decide), if_neg (by decide), if_pos (by decide), readRString_sound hf h1 h2 hr]; rfl
  | @bool row col xf head v more h1 =>
    have : readBoolErr st.grid (head ++ [v, 0] ++ more) = .ok g' := readBoolErr_sound (err := false) h1 hr
    refine ⟨_, [], rfl, by simp, ?_⟩
    unfold sheetStep toRec
    dsimp only
    rw [if_neg (by decide), if_neg (by decide), if_neg (by decide), if_neg (by decide), if_neg (by decide), if_neg (by decide),
      if_neg (by decide), if_pos (by decide), this]; rfl
  | @error row col xf head v more h1 =>
    have : readBoolErr st.grid (head ++ [v, 1] ++ more) = .ok g' := readBoolErr_sound (err := true) h1 hr
    refine ⟨_, [], rfl, by simp, ?_⟩
    unfold sheetStep toRec
    dsimp only
    rw [if_neg (by decide), if_neg (by decide), if_neg (by decide), if_neg (by decide), if_neg (by decide), if_neg (by decide),
      if_neg (by decide), if_pos (by decide), this]; rfl
  | fmlaNumber hc h1 h2 h3 h4 h5 =>
    refine ⟨_, [], rfl, by rcases hc with rfl | rfl | rfl <;> simp, ?_⟩
    have := readFormula_number (E := E) after h1 h2 h3 (hx h4) h5 hr
    rcases hc with rfl | rfl | rfl <;>
    · unfold sheetStep toRec
      dsimp only
      rw [if_neg (by decide), if_neg (by decide), if_neg (by decide), if_neg (by decide), if_neg (by decide), if_neg (by decide),
        if_pos (by decide), List.map_nil, List.nil_append, this]; rfl
  | @fmlaBool code row col xf head v x1 x2 x3 x4 more hc h1 h5 =>
    refine ⟨_, [], rfl, by rcases hc with rfl | rfl | rfl <;> simp, ?_⟩
    have := readFormula_special (E := E) (x1 := x1) (x2 := x2) (x3 := x3) (x4 := x4) after h1 h5 (.inl ⟨rfl, rfl, rfl⟩) hr
    rcases hc with rfl | rfl | rfl <;>
    · unfold sheetStep toRec
      dsimp only
      rw [if_neg (by decide), if_neg (by decide), if_neg (by decide), if_neg (by decide), if_neg (by decide), if_neg (by decide),
        if_pos (by decide), List.map_nil, List.nil_append, this]; rfl
  | @fmlaError code row col xf head v x1 x2 x3 x4 more hc h1 h5 =>
    refine ⟨_, [], rfl, by rcases hc with rfl | rfl | rfl <;> simp, ?_⟩
    have := readFormula_special (E := E) (x1 := x1) (x2 := x2) (x3 := x3) (x4 := x4) after h1 h5 (.inr (.inl ⟨rfl, rfl, rfl⟩)) hr
    rcases hc with rfl | rfl | rfl <;>
    · unfold sheetStep toRec
      dsimp only
      rw [if_neg (by decide), if_neg (by decide), if_neg (by decide), if_neg (by decide), if_neg (by decide), if_neg (by decide),
        if_pos (by decide), List.map_nil, List.nil_append, this]; rfl
  | @fmlaEmpty code row col xf head x1 x2 x3 x4 x5 more hc h1 h5 =>
    refine ⟨_, [], rfl, by rcases hc with rfl | rfl | rfl <;> simp, ?_⟩
    have := readFormula_special (E := E) (x1 := x1) (v := x2) (x2 := x3) (x3 := x4) (x4 := x5) after h1 h5 (.inr (.inr ⟨rfl, rfl, rfl⟩)) hr
    rcases hc with rfl | rfl | rfl <;>
    · unfold sheetStep toRec
      dsimp only
      rw [if_neg (by decide), if_neg (by decide), if_neg (by decide), if_neg (by decide), if_neg (by decide), if_neg (by decide),
        if_pos (by decide), List.map_nil, List.nil_append, this]; rfl
  | @fmlaText code row col xf head x1 x2 x3 x4 x5 more between first conts t hc h1 h5 hb ht =>
    refine ⟨_, _, rfl, by rcases hc with rfl | rfl | rfl <;> simp, ?_⟩
    have := readFormula_text hf (x1 := x1) (x2 := x2) (x3 := x3) (x4 := x4) (x5 := x5) h1 h5 hb ht hr after
    have e : (between ++ (0x207, first) :: conts.map fun d => (0x3C, d)).map toRec ++ after =
        between.map toRec ++ toRec (0x207, first) :: (contRecs conts ++ after) := by
      simp [contRecs, Function.comp_def]
    rw [e]
    have el : (between ++ (0x207, first) :: conts.map fun d => (0x3C, d)).length = between.length + 1 + conts.length := by
      simp; omega
    rw [el]
    generalize between.map toRec ++ toRec (0x207, first) :: (contRecs conts ++ after) = L at this ⊢
    rcases hc with rfl | rfl | rfl <;>
    · unfold sheetStep toRec
      dsimp only
      rw [if_neg (by decide), if_neg (by decide), if_neg (by decide), if_neg (by decide), if_neg (by decide), if_neg (by decide),
        if_pos (by decide), this]; rfl

theorem needs_ok {n : Nat} {data : Bytes} (h : n ≤ data.length) : needs n data = .ok () := by
  unfold needs
  rw [if_pos (by rw [List.length_take]; omega)]

theorem rangesFrom_sound (pre post : Bytes) (n : Nat) (r : Bytes) (h : r.length = 8 * n) :
    rangesFrom (pre ++ (r ++ post)) n pre.length = .ok (pre.length + r.length) := by
  induction n generalizing pre r with
  | zero =>
    have : r = [] := List.eq_nil_of_length_eq_zero (by simpa using h)
    subst this
    simp [rangesFrom]
  | succ n ih =>
    have hl : (r.take 8).length = 8 := by rw [List.length_take]; omega
    unfold rangesFrom
    have e : pre ++ (r ++ post) = pre ++ (r.take 8 ++ (r.drop 8 ++ post)) := by
      rw [← List.append_assoc (r.take 8), List.take_append_drop]
    rw [e, pySlice_at (pre := pre) (m := r.take 8) (post := r.drop 8 ++ post) rfl rfl (by rw [hl]), if_pos hl, ← List.append_assoc]
    have := ih (pre ++ r.take 8) (r.drop 8) (by rw [List.length_drop]; omega)
    rw [List.length_append, hl, List.length_drop] at this
    rw [this]
    congr 1
    omega

theorem rangeList_sound (pre post : Bytes) {n : Nat} {r : Bytes} (hn : n < 65536) (h : r.length = 8 * n) :
    rangeList (pre ++ (leBytes 2 n ++ r ++ post)) pre.length = .ok (pre.length + 2 + r.length) := by
  unfold rangeList
  rw [pySlice_at (pre := pre) (m := leBytes 2 n) (post := r ++ post) (by simp) rfl (by rw [leBytes_length]), unpackNat_leBytes (by omega)]
  dsimp only
  have := rangesFrom_sound (pre ++ leBytes 2 n) post n r h
  rw [List.length_append, leBytes_length] at this
  rw [← this]
  congr 1
  simp

theorem labelRanges_sound {data : Bytes} (h : LabelRanges data) (code : Nat) : labelRangesOk (toRec (code, data)) = .ok () := by
  obtain ⟨n, m, r1, r2, h1, h2, h3, h4, rfl⟩ := h
  unfold labelRangesOk toRec
  dsimp only
  have e1 := rangeList_sound [] (leBytes 2 m ++ r2) h1 h3
  have e2 := rangeList_sound (leBytes 2 n ++ r1) [] h2 h4
  simp only [List.nil_append, List.length_nil, List.append_nil, ← List.append_assoc, List.length_append, leBytes_length] at e1 e2
  rw [e1]
  dsimp only
  rw [show 0 + 2 + r1.length = 2 + r1.length by omega, e2]
  dsimp only
  rw [if_pos (by simp [leBytes_length]; omega)]

theorem aside_ok {bv : Nat} {r : XRec} (h : Aside r) : asideOk bv (toRec r) = .ok () := by
  obtain ⟨code, data⟩ := r
  obtain ⟨_, h1, h2, h3, h4, h5, h6, h7, h8⟩ := h
  dsimp only at h1 h2 h3 h4 h5 h6 h7 h8
  have hlr := fun h => labelRanges_sound (h2 h) code
  unfold toRec at hlr
  dsimp only at hlr
  unfold asideOk toRec
  dsimp only
  split; · rfl
  split; · exact needs_ok (h1 (by assumption))
  split; · exact hlr (by assumption)
  split; · exact needs_ok (h3 (by assumption))
  split; · exact needs_ok (h4 (by assumption))
  split; · rw [if_pos (h5 (by assumption))]; exact needs_ok (by rw [h5 (by assumption)]; omega)
  split
  · have := h6 (by assumption)
    split
    · exact needs_ok (by omega)
    · exact needs_ok (by omega)
  split; · rw [if_pos (h7 (by assumption))]
  split; · exact needs_ok (h8 (by assumption))
  rfl

theorem aside_step {E : XlsEnv σ} {r : XRec} (h : Aside r) (st : XlsSt σ) (after : List Rec) :
    sheetStep E st (toRec r) after = .ok (st, 0) := by
  have ha := aside_ok (bv := E.bv) h
  have hs := h.1
  obtain ⟨code, data⟩ := r
  simp only [structural, List.mem_cons, List.not_mem_nil, or_false, not_or] at hs
  unfold toRec at ha
  unfold sheetStep toRec
  dsimp only at hs ha ⊢
  rw [if_neg (by simp [xlNumberRec]; omega), if_neg (by simp [xlLabelSst]; omega), if_neg (by simp [xlLabel]; omega),
    if_neg (by simp [xlRString]; omega), if_neg (by simp [xlRk]; omega), if_neg (by simp [xlMulRk]; omega),
    if_neg (by simp [xlFormulas]; omega), if_neg (by simp [xlBoolErr]; omega), if_neg (by simp [xlDimensions]; omega),
    if_neg (by simp [xlObjects]; omega), if_neg (by simp [xlBofs]; omega), if_neg (by simp [xlCountry]; omega), ha]
  rfl

theorem skipChart_sound {rs : List XRec} (h : ∀ r ∈ rs, r.1 ≠ 0xA) (eof : Bytes) (after : List Rec) :
    skipChart (rs.map toRec ++ toRec (0xA, eof) :: after) = .ok (rs.length + 1) := by
  induction rs with
  | nil => rfl
  | cons r rs ih =>
    rw [List.map_cons, List.cons_append, skipChart, if_neg (show ¬ (toRec r).code = xlEof from h r (List.mem_cons_self ..)),
      ih fun x hx => h x (List.mem_cons_of_mem _ hx)]
    rfl

theorem dimension_step {E : XlsEnv σ} {ctx : XlsCtx} (hf : XlsFits E ctx) {data : Bytes}
    (h : if ctx.v8 then 12 ≤ data.length else 8 ≤ data.length) (st : XlsSt σ) (hg : st.grid.nrows = 0 ∧ st.grid.ncols = 0)
    (after : List Rec) : sheetStep E st (toRec (0x200, data)) after = .ok (st, 0) := by
  have hd : readDimension E.bv st.grid ⟨0x200, data.length, data⟩ = .ok st.grid := by
    have hst : { st.grid with nrows := 0, ncols := 0 } = st.grid := by
      rcases hs : st.grid with ⟨a, b, c, d, e, f, g, h, i, j, k⟩
      rw [hs] at hg
      dsimp only at hg ⊢
      rw [hg.1, hg.2]
    unfold readDimension
    dsimp only
    rw [hst]
    split at h
    · rename_i h8
      have h80 : ¬ E.bv < 80 := by rw [hf.bv, h8]; simp
      rw [if_neg (by omega), if_pos (by rw [if_neg h80]; simp [pySlice]; omega)]
    · rename_i h8
      have h80 : E.bv < 80 := by rw [hf.bv]; simpa using h8
      rw [if_neg (by omega), if_pos (by rw [if_pos h80]; simp [pySlice]; omega)]
  unfold sheetStep toRec
  dsimp only
  rw [if_neg (by decide), if_neg (by decide), if_neg (by decide), if_neg (by decide), if_neg (by decide), if_neg (by decide),
    if_neg (by decide), if_neg (by decide), if_pos (by decide), hd]
  rfl

theorem country_step {E : XlsEnv σ} {a b : Nat} (ha : a < 65536) (hb : b < 65536) (more : Bytes) (st : XlsSt σ)
    (hc : st.countries = (0, 0) ∨ st.countries = (a, b)) (after : List Rec) :
    sheetStep E st (toRec (0x8C, leBytes 2 a ++ leBytes 2 b ++ more)) after = .ok ({ st with countries := (a, b) }, 0) := by
  have hh : handleCountry st.countries (leBytes 2 a ++ leBytes 2 b ++ more) = .ok (a, b) := by
    have f1 : field2 (leBytes 2 a ++ leBytes 2 b ++ more) 0 = a := by
      unfold field2
      rw [pySlice_at (a := 0) (pre := []) (m := leBytes 2 a) (post := leBytes 2 b ++ more) (by simp) rfl (by rw [leBytes_length]),
        leNat_leBytes (by omega)]
    have f2 : field2 (leBytes 2 a ++ leBytes 2 b ++ more) 2 = b := by
      unfold field2
      rw [pySlice_at (pre := leBytes 2 a) (m := leBytes 2 b) (post := more) (by simp) (by rw [leBytes_length]) (by rw [leBytes_length]),
        leNat_leBytes (by omega)]
    unfold handleCountry
    rw [if_pos (by simp [leBytes_length]; omega), f1, f2, if_pos hc]
  unfold sheetStep toRec
  dsimp only
  rw [if_neg (by decide), if_neg (by decide), if_neg (by decide), if_neg (by decide), if_neg (by decide), if_neg (by decide),
    if_neg (by decide), if_neg (by decide), if_neg (by decide), if_neg (by decide), if_neg (by decide), if_pos (by decide), hh]
  rfl

theorem object_step {E : XlsEnv σ} {r : XRec} (h1 : r.1 ∈ xlObjects) {st : XlsSt σ} {L : List Rec} {o : σ} {k : Nat}
    (ho : E.obj st.obj (toRec r) L = .ok (o, k)) : r.1 ≠ 0xA ∧ sheetStep E st (toRec r) L = .ok ({ st with obj := o }, k) := by
  obtain ⟨code, data⟩ := r
  have hc : code = 0x1B8 ∨ code = 0x800 ∨ code = 0x5D ∨ code = 0x1B6 ∨ code = 0x1C := by simpa [xlObjects] using h1
  refine ⟨?_, ?_⟩
  · rcases hc with rfl | rfl | rfl | rfl | rfl <;> simp
  · unfold toRec at ho
    dsimp only at ho
    rcases hc with rfl | rfl | rfl | rfl | rfl <;>
    · unfold sheetStep toRec
      dsimp only
      rw [if_neg (by decide), if_neg (by decide), if_neg (by decide), if_neg (by decide), if_neg (by decide), if_neg (by decide),
        if_neg (by decide), if_neg (by decide), if_neg (by decide), if_pos (by decide), ho]
      rfl

theorem chart_step {E : XlsEnv σ} {code : Nat} {data eof : Bytes} {rs : List XRec} (hc : code = 0x809 ∨ code = 0x409 ∨ code = 0x209)
    (hd : 4 ≤ data.length) (h : ∀ r ∈ rs, r.1 ≠ 0xA) (st : XlsSt σ) (after : List Rec) :
    sheetStep E st (toRec (code, data)) (rs.map toRec ++ toRec (0xA, eof) :: after) = .ok (st, rs.length + 1) := by
  have hs := skipChart_sound h eof after
  generalize rs.map toRec ++ toRec (0xA, eof) :: after = L at hs ⊢
  rcases hc with rfl | rfl | rfl <;>
  · unfold sheetStep toRec
    dsimp only
    rw [if_neg (by decide), if_neg (by decide), if_neg (by decide), if_neg (by decide), if_neg (by decide), if_neg (by decide),
      if_neg (by decide), if_neg (by decide), if_neg (by decide), if_neg (by decide), if_pos (by decide), needs_ok hd, hs]
    rfl

theorem sheetLoop_step {E : XlsEnv σ} {n : Nat} {st st' : XlsSt σ} {r : XRec} {more : List XRec} {after : List Rec}
    (hr : r.1 ≠ 0xA) (h : sheetStep E st (toRec r) (more.map toRec ++ after) = .ok (st', more.length)) :
    sheetLoop E (n + 1) st (toRec r :: (more.map toRec ++ after)) = sheetLoop E n st' after := by
  rw [sheetLoop, if_neg (show ¬ (toRec r).code = xlEof from hr), h]
  dsimp only
  congr 1
  have : (more.map toRec).length = more.length := List.length_map ..
  rw [← this, List.drop_left]

/-- Objects leave the cells and the country as they are. -/
theorem objSteps_loop {E : XlsEnv σ} {after : List Rec} {s s' : σ} {rs : List XRec} (h : ObjSteps E.obj after s rs s') :
    ∀ (n : Nat) (st : XlsSt σ), st.obj = s → rs.length ≤ n →
      ∃ m, n ≤ m + rs.length ∧ sheetLoop E n st (rs.map toRec ++ after) = sheetLoop E m { st with obj := s' } after := by
  induction h with
  | nil => exact fun n st e _ => ⟨n, by simp, by subst e; rfl⟩
  | @object s s' s'' r more rs h1 h2 _ ih =>
    intro n st e hn
    obtain ⟨m, rfl⟩ : ∃ m, n = m + 1 := ⟨n - 1, by simp at hn; omega⟩
    subst e
    obtain ⟨hne, hs⟩ := object_step h1 h2
    obtain ⟨k, hk, e⟩ := ih m { st with obj := s' } rfl (by simp at hn; omega)
    refine ⟨k, by simp; omega, ?_⟩
    rw [List.map_cons, List.map_append, List.cons_append, List.append_assoc, sheetLoop_step hne hs, e]
  | @aside s s' r rs h1 _ ih =>
    intro n st e hn
    obtain ⟨m, rfl⟩ : ∃ m, n = m + 1 := ⟨n - 1, by simp at hn; omega⟩
    have hne : r.1 ≠ 0xA := fun e => h1.1 (by rw [e]; decide)
    have := sheetLoop_step (n := m) (more := []) (after := rs.map toRec ++ after) hne (aside_step (E := E) h1 st (rs.map toRec ++ after))
    obtain ⟨k, hk, e⟩ := ih m st e (by simp at hn; omega)
    refine ⟨k, by simp; omega, ?_⟩
    rw [List.map_nil, List.nil_append] at this
    rw [List.map_cons, List.cons_append, this, e]

/-- The records of a sheet do what they stand for. -/
theorem sheetLoop_sound {E : XlsEnv σ} {ctx : XlsCtx} (hf : XlsFits E ctx) {fresh : Bool} {rs : List XRec} {ops : List CellOp}
    (h : SheetRecs true ctx fresh rs ops) : ∀ (n : Nat) (st : XlsSt σ) (after : List Rec) {g' : Grid}, rs.length ≤ n →
      (fresh = true → st.grid.nrows = 0 ∧ st.grid.ncols = 0) → (st.countries = (0, 0) ∨ st.countries = ctx.country) →
      st.grid.run ops = (g', none) →
      ∃ st', sheetLoop E n st (rs.map toRec ++ after) = .ok st' ∧ st'.grid = g' ∧
        (st'.countries = (0, 0) ∨ st'.countries = ctx.country) := by
  induction h with
  | eof =>
    intro n st after g' hn _ hc hr
    obtain ⟨m, rfl⟩ : ∃ m, n = m + 1 := ⟨n - 1, by simp at hn; omega⟩
    simp only [Grid.run, Prod.mk.injEq, and_true] at hr
    refine ⟨st, ?_, hr, hc⟩
    rw [List.map_cons, List.cons_append, sheetLoop, if_pos (show (toRec (0xA, _)).code = xlEof from rfl)]
  | @cells fresh rs ops rest more h1 _ ih =>
    intro n st after g' hn hg hc hr
    rw [run_append] at hr
    rcases hp : st.grid.run ops with ⟨g1, _ | e⟩
    · rw [hp] at hr
      obtain ⟨r, tl, rfl, hne, hs⟩ := cells_step hf h1 st hp (rest.map toRec ++ after)
      obtain ⟨m, rfl⟩ : ∃ m, n = m + 1 := ⟨n - 1, by simp at hn; omega⟩
      have := sheetLoop_step (n := m) hne hs
      rw [List.cons_append, List.map_cons, List.map_append, List.cons_append, List.append_assoc, this]
      exact ih m _ after (by simp at hn; omega) (by simp) hc hr
    · rw [hp] at hr
      simp at hr
  | @aside fresh r rest ops h1 _ ih =>
    intro n st after g' hn hg hc hr
    obtain ⟨m, rfl⟩ : ∃ m, n = m + 1 := ⟨n - 1, by simp at hn; omega⟩
    have hne : r.1 ≠ 0xA := fun e => h1.1 (by rw [e]; decide)
    have := sheetLoop_step (n := m) (more := []) (after := rest.map toRec ++ after) hne (aside_step (E := E) h1 st (rest.map toRec ++ after))
    rw [List.map_cons, List.cons_append]
    rw [List.map_nil, List.nil_append] at this
    rw [this]
    exact ih m st after (by simp at hn; omega) hg hc hr
  | @dimensions data rest ops h1 _ ih =>
    intro n st after g' hn hg hc hr
    obtain ⟨m, rfl⟩ : ∃ m, n = m + 1 := ⟨n - 1, by simp at hn; omega⟩
    have := sheetLoop_step (n := m) (more := []) (after := rest.map toRec ++ after) (by simp) (dimension_step hf h1 st (hg rfl) (rest.map toRec ++ after))
    rw [List.map_cons, List.cons_append]
    rw [List.map_nil, List.nil_append] at this
    rw [this]
    exact ih m st after (by simp at hn; omega) hg hc hr
  | @country fresh more rest ops h1 h2 _ ih =>
    intro n st after g' hn hg hc hr
    obtain ⟨m, rfl⟩ : ∃ m, n = m + 1 := ⟨n - 1, by simp at hn; omega⟩
    have := sheetLoop_step (n := m) (more := []) (after := rest.map toRec ++ after) (by simp) (country_step (E := E) h1 h2 more st hc (rest.map toRec ++ after))
    rw [List.map_cons, List.cons_append]
    rw [List.map_nil, List.nil_append] at this
    rw [this]
    exact ih m _ after (by simp at hn; omega) hg (.inr rfl) hr
  | @object fresh rs rest ops h1 _ ih =>
    intro n st after g' hn hg hc hr
    obtain ⟨o, hs⟩ := hf.obj rs h1 st.obj (rest.map toRec ++ after)
    obtain ⟨m, hm, e⟩ := objSteps_loop hs n st rfl (by simp at hn; omega)
    rw [List.map_append, List.append_assoc, e]
    exact ih m _ after (by simp at hn; omega) hg hc hr
  | @chart fresh code data eof rs rest ops h1 h2 h3 _ ih =>
    intro n st after g' hn hg hc hr
    obtain ⟨m, rfl⟩ : ∃ m, n = m + 1 := ⟨n - 1, by simp at hn; omega⟩
    have hs := chart_step (E := E) (eof := eof) h1 h2 h3 st (rest.map toRec ++ after)
    have := sheetLoop_step (n := m) (more := rs ++ [(0xA, eof)]) (r := (code, data)) (by rcases h1 with rfl | rfl | rfl <;> simp)
      (after := rest.map toRec ++ after) (st := st) (st' := st) (E := E) (by simpa using hs)
    rw [List.map_cons, List.map_append, List.map_cons, List.cons_append, List.append_assoc, List.cons_append]
    rw [List.map_append, List.map_cons, List.map_nil, List.append_assoc, List.singleton_append] at this
    rw [this]
    exact ih m st after (by simp at hn; omega) hg hc hr

/-! ### Records in a file -/

theorem recordAt_sound {pre post : Bytes} {r : XRec} (h : RecordOk r) :
    recordAt (pre ++ (recordBytes r ++ post)) pre.length = .ok (toRec r, ((pre ++ recordBytes r).length : Nat)) := by
  obtain ⟨code, data⟩ := r
  obtain ⟨h1, h2⟩ := h
  dsimp only at h1 h2
  have e : pre ++ (recordBytes (code, data) ++ post) =
    pre ++ ((leBytes 2 code ++ leBytes 2 data.length) ++ (data ++ post)) := by simp [recordBytes]
  have e2 : pre ++ (recordBytes (code, data) ++ post) =
    (pre ++ (leBytes 2 code ++ leBytes 2 data.length)) ++ (data ++ post) := by simp [recordBytes]
  have hlen : (leBytes 2 code ++ leBytes 2 data.length).length = 4 := by simp [leBytes_length]
  have hhead : pySliceI (pre ++ (recordBytes (code, data) ++ post)) (pre.length : Int) ((pre.length : Int) + 4) =
      leBytes 2 code ++ leBytes 2 data.length := by
    rw [e]
    exact pySliceI_mid rfl (by rw [hlen]; rfl)
  have hc : leNat (pySlice (leBytes 2 code ++ leBytes 2 data.length) 0 2) = code := by
    rw [pySlice_at (a := 0) (pre := []) (m := leBytes 2 code) (post := leBytes 2 data.length) (by simp) rfl (by rw [leBytes_length]),
      leNat_leBytes (by omega)]
  have hl : leNat (pySlice (leBytes 2 code ++ leBytes 2 data.length) 2 4) = data.length := by
    rw [pySlice_at (pre := leBytes 2 code) (m := leBytes 2 data.length) (post := []) (by simp) (by rw [leBytes_length])
      (by rw [leBytes_length]), leNat_leBytes (by omega)]
  have hd : pySliceI (pre ++ (recordBytes (code, data) ++ post)) ((pre.length : Int) + 4) ((pre.length : Int) + 4 + data.length) = data := by
    rw [e2]
    exact pySliceI_mid (by rw [List.length_append, hlen]; rfl) rfl
  unfold recordAt
  dsimp only
  rw [hhead, if_pos hlen, hc, hl, hd]
  unfold toRec
  congr 2
  simp [recordBytes, leBytes_length]
  omega

theorem recordsFrom_sound {rs : List XRec} (h : ∀ r ∈ rs, RecordOk r) : ∀ (pre post : Bytes) (n : Nat), rs.length ≤ n →
    ∃ more, recordsFrom (pre ++ (rs.flatMap recordBytes ++ post)) n pre.length = rs.map toRec ++ more := by
  induction rs with
  | nil => exact fun pre post n _ => ⟨_, rfl⟩
  | cons r rs ih =>
    intro pre post n hn
    obtain ⟨m, rfl⟩ : ∃ m, n = m + 1 := ⟨n - 1, by simp at hn; omega⟩
    obtain ⟨more, hm⟩ := ih (fun x hx => h x (List.mem_cons_of_mem _ hx)) (pre ++ recordBytes r) post m (by simp at hn; omega)
    refine ⟨more, ?_⟩
    have e : pre ++ ((r :: rs).flatMap recordBytes ++ post) = pre ++ (recordBytes r ++ (rs.flatMap recordBytes ++ post)) := by simp
    rw [recordsFrom, e, recordAt_sound (h r (List.mem_cons_self ..))]
    dsimp only
    rw [← List.append_assoc, hm]
    rfl

theorem recordBytes_length (r : XRec) : 4 ≤ (recordBytes r).length := by simp [recordBytes, leBytes_length]; omega

theorem records_length (rs : List XRec) : 4 * rs.length ≤ (rs.flatMap recordBytes).length := by
  induction rs with
  | nil => simp
  | cons r rs ih =>
    have := recordBytes_length r
    rw [List.flatMap_cons, List.length_append, List.length_cons]
    omega

/-- The records in a file are found, with others after them. -/
theorem recordsAt_sound {rs : List XRec} (h : ∀ r ∈ rs, RecordOk r) (pre post : Bytes) :
    ∃ more, recordsAt (pre ++ (rs.flatMap recordBytes ++ post)) pre.length = rs.map toRec ++ more := by
  refine recordsFrom_sound h pre post _ ?_
  have := records_length rs
  rw [List.length_append, List.length_append]
  omega

end CP
