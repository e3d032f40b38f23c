import Verif.Lemmas.Biff
/-!
# C65, C66: numbers and strings in .xls files
-/

namespace CP
open Spec

/-! ### C65 -/

/-- C65: the four bytes of an RK number are read as the number they stand for, whatever they
are. -/
theorem C65_rk (rnd : Rat → Rat) {n : Nat} (h : n < 2 ^ 32) (v : Val) :
    unpackRK rnd (leBytes 4 n) = .ok v ↔ RkIs rnd n v := (unpackRK_iff rnd h).symm

/-- C65: so are the eight bytes of a double. -/
theorem C65_double {n : Nat} (h : n < 2 ^ 64) (v : Val) : unpackDouble (leBytes 8 n) = .ok v ↔ DoubleIs n v := by
  unfold unpackDouble
  rw [if_pos (leBytes_length 8 n), leNat_leBytes h, Except.ok.injEq]
  exact (doubleIs_iff h).symm

/-- 1.5, -2, 12.34 and 0.1 -/
example : unpackDouble [0, 0, 0, 0, 0, 0, 0xF8, 0x3F] = .ok (.flt (3 / 2)) := by decide +kernel
example : unpackRK id [0xFA, 0xFF, 0xFF, 0xFF] = .ok (.flt (-2)) := by decide +kernel
example : unpackRK id [0x4B, 0x13, 0, 0] = .ok (.flt (1234 / 100)) := by decide +kernel
example : unpackRK id [1, 0, 0x24, 0x40] = .ok (.flt (1 / 10)) := by decide +kernel
example : RkIs id 0xFFFFFFFA (.flt (-2)) := (C65_rk id (by decide) _).1 (by decide +kernel)

/-! ### C66 -/

/-- C66: a string in one record, with anything around it, is read as its text. -/
theorem C66_string {lenlen : Nat} {b : Bytes} {t : List Char} (h : StringIs lenlen b t) (pre : Bytes) :
    unpackUnicode (pre ++ b) pre.length lenlen = .ok t := unpackUnicode_sound h pre

example : StringIs 2 [2, 0, 1, 0xB5, 0, 0x6D, 0] ['µ', 'm'] :=
  .inr ⟨1, 0, 0, [2, 0, 1], [0xB5, 0, 0x6D, 0], [], ⟨by decide, by decide, by decide, fun _ => rfl, fun _ => rfl, by decide⟩,
    by unfold UnitBytes; decide, rfl⟩

example : unpackUnicode [2, 0, 1, 0xB5, 0, 0x6D, 0] 0 2 = .ok ['µ', 'm'] := by decide +kernel

/-- The full property C66: the strings of every shared string table are read. -/
def AllSharedStrings : Prop := ∀ (data : Bytes) (conts : List Bytes) (ts : List (List Char)),
  SstIs false data conts ts → readSST data conts = .ok ts

/-- C66: they are, if no record ends between the two units of a character and phonetic data
does not go on beyond the next record.  (The full property is `AllSharedStrings`.) -/
theorem C66_shared_strings_partial {data : Bytes} {conts : List Bytes} {ts : List (List Char)}
    (h : SstIs true data conts ts) : readSST data conts = .ok ts := readSST_sound h

/-- Two strings.  The first is "abµ" with one formatting run and three bytes of phonetic data;
the record ends after "ab", and the next one in the phonetic data. -/
def exSst : Bytes × List Bytes :=
  ([7, 0, 0, 0, 2, 0, 0, 0, 3, 0, 0x0C, 1, 0, 3, 0, 0, 0, 97, 98], [[1, 0xB5, 0, 0, 0, 1, 0, 0xAA], [0xBB, 0xCC, 1, 0, 0, 99]])

theorem exSst_is : SstIs true exSst.1 exSst.2 [['a', 'b', 'µ'], ['c']] := by
  refine ⟨by decide, by decide, 7, [3, 0, 0x0C, 1, 0, 3, 0, 0, 0, 97, 98], by decide, by decide, ?_⟩
  refine .cons (cur' := [1, 0, 0, 99]) (rest' := []) ?_ ?_
  · refine .mk (o := 0x0C) (rt := 1) (sz := 3) (head := [3, 0, 0x0C, 1, 0, 3, 0, 0, 0]) (cur := [97, 98])
      (cur1 := [0, 0, 1, 0, 0xAA]) (rest1 := [[0xBB, 0xCC, 1, 0, 0, 99]]) (cur2 := [0xAA]) (rest2 := [[0xBB, 0xCC, 1, 0, 0, 99]])
      ⟨by decide, by decide, by decide, by decide, by decide, by decide⟩ ?_ ?_ ?_
    · exact .over (us := [97, 98]) (us' := [0xB5]) (n := 1) (next := [0xB5, 0, 0, 0, 1, 0, 0xAA]) (o := 1)
        (by unfold UnitBytes; decide) (fun _ => ⟨['a', 'b'], by decide⟩) (by decide)
        (.last (us := [0xB5]) (b := [0xB5, 0]) (cur := [0, 0, 1, 0, 0xAA]) (by unfold UnitBytes; decide) (fun _ => ⟨['µ'], by decide⟩))
    · exact .run (r := [0, 0, 1, 0]) rfl .zero
    · exact .over (n := 2) (cur := [0xAA]) (by decide) (fun _ => by decide) (.within (p := [0xBB, 0xCC]))
  · refine .cons (cur' := []) (rest' := []) ?_ .nil
    refine .mk (o := 0) (rt := 0) (sz := 0) (head := [1, 0, 0]) (cur := [99]) (cur1 := []) (rest1 := []) (cur2 := []) (rest2 := [])
      ⟨by decide, by decide, by decide, by decide, by decide, by decide⟩ ?_ .zero (.within (p := []))
    exact .last (us := [99]) (b := [99]) (by unfold UnitBytes; decide) (fun _ => ⟨['c'], by decide⟩)

example : readSST exSst.1 exSst.2 = .ok [['a', 'b', 'µ'], ['c']] := C66_shared_strings_partial exSst_is

/-- C66 is false as it stands: a character of two units may be split between records. -/
theorem C66_split_counterexample : ¬ AllSharedStrings := by
  intro h
  have h1 : SstIs false [1, 0, 0, 0, 1, 0, 0, 0, 2, 0, 1, 0x3D, 0xD8] [[1, 0, 0xDE]] [['😀']] := by
    refine ⟨by decide, by decide, 1, [2, 0, 1, 0x3D, 0xD8], by decide, by decide, .cons (cur' := []) (rest' := []) ?_ .nil⟩
    refine .mk (o := 1) (rt := 0) (sz := 0) (head := [2, 0, 1]) (cur := [0x3D, 0xD8]) (cur1 := []) (rest1 := []) (cur2 := []) (rest2 := [])
      ⟨by decide, by decide, by decide, by decide, by decide, by decide⟩ ?_ .zero (.within (p := []))
    exact .over (us := [0xD83D]) (us' := [0xDE00]) (n := 1) (next := [0, 0xDE]) (o := 1)
      (by unfold UnitBytes; decide) (fun h => by cases h) (by decide)
      (.last (us := [0xDE00]) (b := [0, 0xDE]) (cur := []) (by unfold UnitBytes; decide) (fun h => by cases h))
  have h2 : readSST [1, 0, 0, 0, 1, 0, 0, 0, 2, 0, 1, 0x3D, 0xD8] [[1, 0, 0xDE]] = .error .unicodeError := by decide +kernel
  rw [h _ _ _ h1] at h2
  cases h2

/-- C66 is false for another reason: phonetic data may go on beyond the next record. -/
theorem C66_phonetic_counterexample : ¬ AllSharedStrings := by
  intro h
  have h1 : SstIs false [2, 0, 0, 0, 2, 0, 0, 0, 1, 0, 4, 3, 0, 0, 0, 97] [[1], [2], [3, 1, 0, 0, 98]] [['a'], ['b']] := by
    refine ⟨by decide, by decide, 2, [1, 0, 4, 3, 0, 0, 0, 97], by decide, by decide,
      .cons (cur' := [1, 0, 0, 98]) (rest' := []) ?_ (.cons (cur' := []) (rest' := []) ?_ .nil)⟩
    · refine .mk (o := 4) (rt := 0) (sz := 3) (head := [1, 0, 4, 3, 0, 0, 0]) (cur := [97]) (cur1 := [])
        (rest1 := [[1], [2], [3, 1, 0, 0, 98]]) (cur2 := []) (rest2 := [[1], [2], [3, 1, 0, 0, 98]])
        ⟨by decide, by decide, by decide, by decide, by decide, by decide⟩ ?_ .zero ?_
      · exact .last (us := [97]) (b := [97]) (by unfold UnitBytes; decide) (fun h => by cases h)
      · exact .over (n := 3) (cur := []) (by decide) (fun h => by cases h)
          (.over (n := 2) (cur := [1]) (by decide) (fun h => by cases h)
            (.over (n := 1) (cur := [2]) (by decide) (fun h => by cases h) (.within (p := [3]))))
    · refine .mk (o := 0) (rt := 0) (sz := 0) (head := [1, 0, 0]) (cur := [98]) (cur1 := []) (rest1 := []) (cur2 := []) (rest2 := [])
        ⟨by decide, by decide, by decide, by decide, by decide, by decide⟩ ?_ .zero (.within (p := []))
      exact .last (us := [98]) (b := [98]) (by unfold UnitBytes; decide) (fun h => by cases h)
  have h2 : readSST [2, 0, 0, 0, 2, 0, 0, 0, 1, 0, 4, 3, 0, 0, 0, 97] [[1], [2], [3, 1, 0, 0, 98]] = .error .structError := by
    decide +kernel
  rw [h _ _ _ h1] at h2
  cases h2

end CP
