import Verif.Props.XlsBook

/-!
# C68: formats that come after XF records use them, examples
-/

namespace CP
open Spec

def exLateOf (text : List UInt8) : List XRec :=
  [(0xE0, leBytes 2 0 ++ leBytes 2 0 ++ List.replicate 16 0), (0xE0, leBytes 2 0 ++ leBytes 2 164 ++ List.replicate 16 0),
   (0x41E, leBytes 2 164 ++ ([4, 0, 0] ++ text)), (0x85, leBytes 4 90 ++ [0, 0] ++ [1, 0, 0x53]), (0xA, [])]

def exLateItemsOf (code : List Char) : List GItem := [.xf 0, .xf 164, .format 164 code, .sheet ['S'] 90 0]

def exLateBookOf (text : List UInt8) : List UInt8 :=
  recordBytes (0x809, exBof 0x600 5) ++ ((exLateOf text).flatMap recordBytes ++
    (recordBytes (0x809, exBof 0x600 0x10) ++ exLateSheet.flatMap recordBytes))

def exPlainType (i : Nat) : Option Nat := if i < 2 then some 2 else none

theorem exLate_key {code : List Char} {i k : Nat} : ReadKey (exLateItemsOf code) i k ↔ i < 2 ∧ k = 0 := by
  constructor
  · rintro ⟨a, key, b, e, rfl, hk⟩
    match a, e with
    | [], e =>
      simp only [exLateItemsOf, List.nil_append, List.cons.injEq, GItem.xf.injEq] at e
      obtain ⟨rfl, _⟩ := e
      exact ⟨by decide, hk.elim (fun h => h.2) fun h => h.2⟩
    | [_], e =>
      simp only [exLateItemsOf, List.cons_append, List.nil_append, List.cons.injEq, GItem.xf.injEq] at e
      obtain ⟨rfl, rfl, _⟩ := e
      refine ⟨by simp [xfKeys], hk.elim (fun h => ?_) fun h => h.2⟩
      rcases h.1 with h | h
      · unfold StandardKey at h
        omega
      · simp [formatsOf] at h
    | [_, _], e => simp [exLateItemsOf] at e
    | [_, _, _], e => simp [exLateItemsOf] at e
    | _ :: _ :: _ :: _ :: _, e => simp [exLateItemsOf] at e
  · rintro ⟨h, rfl⟩
    match i, h with
    | 0, _ => exact ⟨[], 0, _, rfl, rfl, .inl ⟨.inl (by unfold StandardKey; omega), rfl⟩⟩
    | 1, _ => exact ⟨[.xf 0], 164, _, rfl, rfl, .inr ⟨by simp [StandardKey, formatsOf], rfl⟩⟩

theorem exLate_types {code : List Char} (i typ : Nat) : exPlainType i = some typ ↔ ReadTypeIs (exLateItemsOf code) i typ := by
  have h0 : ¬ DateKey (formatsOf (exLateItemsOf code)) 0 := by
    rw [dateKey_iff]
    show ¬ StandardDate 0
    unfold StandardDate
    omega
  unfold exPlainType ReadTypeIs
  constructor
  · intro h
    split at h
    · exact .inl ⟨0, exLate_key.2 ⟨‹_›, rfl⟩, .inr ⟨h0, (Option.some.inj h).symm⟩⟩
    · cases h
  · rintro (⟨k, hk, h⟩ | ⟨h, _⟩)
    · obtain ⟨hi, rfl⟩ := exLate_key.1 hk
      rw [if_pos hi]
      rcases h with h | h
      · exact absurd h.1 h0
      · rw [h.2]
    · simp [exLateItemsOf, xfKeys] at h

/-- The book is one with formats in any place, where the cell is a number. -/
theorem exLateOf_is {text : List UInt8} {code : List Char} (hr : ∀ r ∈ exLateOf text, RecordOk r)
    (hb : (recordBytes (0x809, exBof 0x600 5) ++ (exLateOf text).flatMap recordBytes).length = 90)
    (hs : StringIs 2 ([4, 0, 0] ++ text) code)
    {types : List GItem → Nat → Nat → Prop} (h : ∀ i typ, exPlainType i = some typ ↔ types (exLateItemsOf code) i typ) :
    AnyFormatsBook (exBookCtx true) (exLateBookOf text) (exLateItemsOf code) [(['S'], [.put 0 0 ⟨2, .flt 1, 1⟩])] types := by
  refine ⟨exBof 0x600 5, exLateOf text, exPlainType, recordBytes (0x809, exBof 0x600 0x10) ++ exLateSheet.flatMap recordBytes,
    rfl, ⟨by simp [exBookCtx], by decide, [0, 0, 0, 0], rfl⟩, hr, ?_, trivial, h, .cons ⟨rfl, ?_⟩ .nil⟩
  · refine .xf (by omega) (by omega) (by simp [exBookCtx]) (.xf (by omega) (by omega) (by simp [exBookCtx]) ?_)
    refine .format (by omega) hs ?_
    exact .sheet (kind := 0) (by omega) (exString (lenlen := 1) (head := [1, 0]) (text := [0x53]) (by decide) (by decide)
      (by unfold UnitBytes; decide)) .eof
  · refine ⟨recordBytes (0x809, exBof 0x600 5) ++ (exLateOf text).flatMap recordBytes, 0x600, exBof 0x600 0x10, exLateSheet, [],
      by simp [exLateBookOf], hb, ⟨by omega, by decide, [0, 0, 0, 0], rfl⟩, by unfold RecordOk; decide, ?_, ?_⟩
    · exact .cells (ops := [.put 0 0 ⟨2, .flt 1, 1⟩]) (rs := [_])
        (.number (more := []) (exHead 0 0 1 (by omega) (by omega) (by omega)) (by omega)
          ((C65_double (by omega) _).1 (by decide +kernel)) rfl) .eof
    · intro row col v hv
      simp only [List.mem_cons, CellOp.put.injEq, List.not_mem_nil, or_false] at hv
      obtain ⟨rfl, rfl, _⟩ := hv
      exact ⟨Nat.zero_lt_succ _, by decide⟩

/-- A late format for dates: the cell is read as a number. -/
example : ∃ gs, openStream exBookEnv false (exLateBookOf [0x79, 0x79, 0x79, 0x79]) 0 = .ok (0, gs) ∧
    Each (fun (s : List Char × List CellOp) (b : BookSheet) => b.name = s.1 ∧ GridHolds s.2 b.grid)
      [(['S'], [.put 0 0 ⟨2, .flt 1, 1⟩])] gs := by
  have := C68_any_formats Unit Unit exBookEnv _ (exBook_fits true) _ _ _
    (exLateOf_is (text := [0x79, 0x79, 0x79, 0x79]) (code := "yyyy".toList) (by unfold RecordOk; decide +kernel) (by decide +kernel)
      (exString (by decide) (by decide) (by unfold UnitBytes; decide)) exLate_types) [] []
  simpa [exLateItemsOf, lastMode] using this

/-- Its types are not right. -/
example : ¬ FormatsAgree (exLateItemsOf "yyyy".toList) := by
  intro h
  rcases h [.xf 0] 164 _ rfl with h | h | h
  · unfold StandardKey at h
    omega
  · simp [formatsOf] at h
  · rw [dateKey_iff, dateKey_iff] at h
    have h1 : isDateFormat "yyyy".toList = true := by decide +kernel
    have h2 : StandardDate 0 := h.1 h1
    unfold StandardDate at h2
    omega

/-- A late format for numbers does no harm. -/
theorem exLate_agrees : FormatsAgree (exLateItemsOf "0.00".toList) := by
  refine (C68_types _).1 fun i typ => ?_
  rw [← exLate_types]
  have h0 : ¬ DateKey (formatsOf (exLateItemsOf "0.00".toList)) 0 := by
    rw [dateKey_iff]
    show ¬ StandardDate 0
    unfold StandardDate
    omega
  have h1 : ¬ DateKey (formatsOf (exLateItemsOf "0.00".toList)) 164 := by
    rw [dateKey_iff]
    show ¬ isDateFormat "0.00".toList = true
    decide +kernel
  unfold exPlainType XfTypeIs
  match i with
  | 0 =>
    refine ⟨fun e => .inl ⟨0, rfl, .inr ⟨h0, (Option.some.inj e).symm⟩⟩, ?_⟩
    rintro (⟨k, e, h⟩ | ⟨e, _⟩)
    · cases Option.some.inj e
      rcases h with h | h
      · exact absurd h.1 h0
      · rw [h.2]; rfl
    · simp [exLateItemsOf, xfKeys] at e
  | 1 =>
    refine ⟨fun e => .inl ⟨164, rfl, .inr ⟨h1, (Option.some.inj e).symm⟩⟩, ?_⟩
    rintro (⟨k, e, h⟩ | ⟨e, _⟩)
    · cases Option.some.inj e
      rcases h with h | h
      · exact absurd h.1 h1
      · rw [h.2]; rfl
    · simp [exLateItemsOf, xfKeys] at e
  | i + 2 =>
    refine ⟨fun e => by simp at e; omega, ?_⟩
    rintro (⟨k, e, h⟩ | ⟨e, _⟩)
    · simp [exLateItemsOf, xfKeys] at e
    · simp [exLateItemsOf, xfKeys] at e

example : ∃ gs, openStream exBookEnv false (exLateBookOf [0x30, 0x2E, 0x30, 0x30]) 0 = .ok (0, gs) ∧
    Each (fun (s : List Char × List CellOp) (b : BookSheet) => b.name = s.1 ∧ GridHolds s.2 b.grid)
      [(['S'], [.put 0 0 ⟨2, .flt 1, 1⟩])] gs := by
  have := C68_agree Unit Unit exBookEnv _ (exBook_fits true) _ _ _
    (exLateOf_is (text := [0x30, 0x2E, 0x30, 0x30]) (code := "0.00".toList) (by unfold RecordOk; decide +kernel) (by decide +kernel)
      (exString (by decide) (by decide) (by unfold UnitBytes; decide))
      fun i typ => (exLate_types i typ).trans ((C68_types _).2 exLate_agrees i typ)) exLate_agrees [] []
  simpa [exLateItemsOf, lastMode] using this

end CP
