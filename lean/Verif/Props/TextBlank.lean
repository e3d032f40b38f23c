import Verif.Props.Text
import Verif.Lemmas.Preparse
/-!
# C37: exactly which blank lines are ignored
-/

namespace CP
open Spec

/-- A blank line that `textpack` takes for a row without a delimiter: whitespace only, but not only that of `string.whitespace` without the
tab. -/
def TakenBlank (h : Hint) (line : List Char) : Prop := (∀ c ∈ line, White h c) ∧ ¬ AllPad none line

/-- Without a delimiter, all lines are rows, padding, or rows without fields; these are the blank lines taken. -/
theorem C37_lines (h : Hint) (ls : List (List Char)) :
    ∃ rs, Rows (White h) none ls rs ∧ ([] ∈ rs ↔ ∃ line ∈ ls, TakenBlank h line) := by
  induction ls with
  | nil => exact ⟨[], .nil, by simp⟩
  | cons line ls ih =>
    obtain ⟨rs, hr, hi⟩ := ih
    by_cases hp : AllPad none line
    · refine ⟨rs, .blank hp hr, hi.trans ?_⟩
      simp only [List.mem_cons, exists_eq_or_imp]
      exact ⟨.inr, fun h => h.elim (fun h => absurd hp h.2) id⟩
    · by_cases hw : ∀ c ∈ line, White h c
      · exact ⟨_, .empty rfl hp hw hr, by simp [TakenBlank, hp]; exact .inl hw⟩
      · obtain ⟨fs, hfs⟩ := words_exists h.ws line
        have hW : White h = fun c => h.ws c = true := by funext c; exact propext (white_iff h c)
        rw [← hW] at hfs
        have hne : fs ≠ [] := by
          rintro rfl
          cases hfs with
          | nil h => exact hw h
        refine ⟨_, .row (.white hne hfs) hr, ?_⟩
        simp only [List.mem_cons, exists_eq_or_imp, hi]
        constructor
        · rintro (h | h)
          · exact absurd h.symm hne
          · exact .inr h
        · rintro (h | h)
          · exact absurd h.1 hw
          · exact .inr h

/-- C37, exactly, without a delimiter, for every file whose first line of data is not blank: the lines are rows, with a row without fields
for each blank line taken.  If there is one, no channel is read; else, if the rows are rectangular and their fields can be converted, the
channels are those of the table. -/
theorem C37_exact (fl : FloatS) (h : Hint) (f : TFile) (a : TextArgs) (skipped rest : List (List Char)) (first : List Char)
    (hl : LinesOf (f.chars.drop f.pos) (skipped ++ first :: rest))
    (ha : a.names = [] ∧ a.hasnames = false ∧ a.usecols = none ∧ a.debug = false) (hsk : a.skiprows = skipped.length)
    (hd : a.delimiter = none) (hfirst : ¬ ∀ c ∈ first, White h c) :
    ∃ fs rs, HasFields (White h) none first fs ∧ Rows (White h) none rest rs ∧
      ([] ∈ rs ↔ ∃ line ∈ rest, TakenBlank h line) ∧
      (ConvertersFit a.converters fs.length →
        (∀ r ∈ fs :: rs, r = [] ∨ r.length = fs.length) →
        (∀ r ∈ fs :: rs, ∀ (j : Nat) s, r[j]? = some s → ∃ v, CellMeans' fl h a.stripstrings a.converters fs j s v) →
        ∃ data, textpack fl h f a = .ok (data, []) ∧
          ((∃ line ∈ rest, TakenBlank h line) → data = []) ∧
          ((¬ ∃ line ∈ rest, TakenBlank h line) →
            (∀ k, (∃ col, dget data k = some col) ↔ 0 ≤ k ∧ k < fs.length) ∧
            ∀ (j : Nat) col, dget data (j : Int) = some col →
              col.length = (fs :: rs).length ∧
              ∀ (i : Nat) r s, (fs :: rs)[i]? = some r → r[j]? = some s →
                ∃ v, col[i]? = some v ∧ CellMeans' fl h a.stripstrings a.converters fs j s v)) := by
  have hW : White h = fun c => h.ws c = true := by funext c; exact propext (white_iff h c)
  obtain ⟨fs, hfs⟩ := words_exists h.ws first
  rw [← hW] at hfs
  have hne : fs ≠ [] := by
    rintro rfl
    cases hfs with
    | nil h => exact hfirst h
  obtain ⟨rs, hr, hi⟩ := C37_lines h rest
  have hf : HasFields (White h) none first fs := .white hne hfs
  refine ⟨fs, rs, hf, hr, hi, fun hc hrect hv => ?_⟩
  obtain ⟨h1, h2⟩ := C41_column_types fl h f a skipped rest first fs rs hl ha hsk (by rw [hd]; exact hf) (by rw [hd]; exact hr) hc
  obtain ⟨⟨data, names⟩, hok⟩ := h1.2 (fun r hr j s _ hs => hv r hr j s hs)
  obtain ⟨rfl, h3, h4⟩ := h2 data names hok
  refine ⟨data, hok, fun hb => ?_, fun hb => ?_⟩
  · have hmem := hi.2 hb
    cases data with
    | nil => rfl
    | cons p d =>
      obtain ⟨j, -, hj⟩ := (h3 p.1).1 ⟨p.2, by simp [dget]⟩
      have := hj [] (List.mem_cons_of_mem _ hmem)
      simp at this
  · have hno : [] ∉ rs := fun h => hb (hi.1 h)
    exact by
      refine ⟨?_, h4⟩
      intro k
      rw [h3]
      constructor
      · rintro ⟨j, rfl, hj⟩
        have := hj fs (by simp)
        omega
      · rintro ⟨k0, k1⟩
        refine ⟨k.toNat, by omega, ?_⟩
        intro r hr
        rcases hrect r hr with rfl | hlen
        · rcases List.mem_cons.1 hr with h | h
          · exact absurd h.symm hne
          · exact absurd h hno
        · omega

/-- C37_exact: a line of a tab between the lines; it is taken for a row. -/
example : TakenBlank .text "\t\n".toList ∧ ¬ TakenBlank .text " \n".toList ∧ TakenBlank .text "\xa0\n".toList ∧
    ¬ TakenBlank .bytes "\xa0\n".toList := by
  refine ⟨⟨?_, fun h => absurd (h '\t' (by decide)).2 (by simp)⟩, fun h => h.2 ?_, ⟨?_, fun h => ?_⟩, fun h => ?_⟩
  · show ∀ c ∈ "\t\n".toList, pySpace c = true
    decide
  · intro c hc
    have : c = ' ' ∨ c = '\n' := by simpa using hc
    rcases this with rfl | rfl <;> exact ⟨by decide, by simp⟩
  · show ∀ c ∈ "\xa0\n".toList, pySpace c = true
    decide
  · exact absurd (h '\xa0' (by decide)).1 (by decide)
  · exact absurd (h.1 '\xa0' (by decide)) (by show ¬ _ ∈ whites; decide)

example := C37_exact exFloat .text ⟨"1 2\n\t\n3 4\n".toList, 0⟩ {} [] ["\t\n".toList, "3 4\n".toList] "1 2\n".toList
  (.cons (l := "1 2".toList) (by decide) (.cons (l := "\t".toList) (by decide) (.cons (l := "3 4".toList) (by decide) .nil)))
  ⟨rfl, rfl, rfl, rfl⟩ rfl rfl (fun h => absurd (h '1' (by decide)) (by show ¬ pySpace '1' = true; decide))

end CP
