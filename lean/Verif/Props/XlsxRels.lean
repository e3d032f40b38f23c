import Verif.Spec.XlsxRels
import Verif.Props.XlsxBook
/-!
# C64: exactly which xlsx files are read
-/

namespace CP
open Spec

/-- A part that is there has its plain name, or there is no part with that very name. -/
theorem raw_part {E : XlEnv} {zf : Zip} (hz : (zf.map fun p => plainName E p.1).Nodup)
    (hp : ∀ s, plainName E (plainName E s) = plainName E s) {name : List Char} {e : Elem} (h : HasPart E zf name e) :
    ((name, e) ∈ zf ∧ plainName E name = name) ∨ openRaw zf name = .error .keyError := by
  have hs := openPart_some hz h
  obtain ⟨actual, hm, rfl⟩ := h
  cases hd : dget (dictOf zf) (plainName E actual) with
  | none => right; unfold openRaw; rw [hd]
  | some e' =>
    left
    rw [dget_dictOf (nodup_actual hz)] at hd
    have hm' := dget_mem hd
    have hs' := openPart_some hz (name := plainName E actual) ⟨_, hm', hp _⟩
    rw [hs] at hs'
    cases hs'
    exact ⟨hm', hp _⟩

theorem names_is_some {E : XlEnv} {zf : Zip} (hz : (zf.map fun p => plainName E p.1).Nodup) {name : List Char} {e : Elem}
    (h : HasPart E zf name e) : (dget (componentNames E zf) name).isSome := by
  have := openPart_some hz h
  unfold openPart at this
  cases hd : dget (componentNames E zf) name with
  | none => rw [hd] at this; cases this
  | some _ => rfl

theorem notes_any {E : XlEnv} {zf : Zip} (hz : (zf.map fun p => plainName E p.1).Nodup)
    (hp : ∀ s, plainName E (plainName E s) = plainName E s) {d : List (Option (List Char) × List Char × List Char)}
    (h : ∀ p ∈ d, p.2.2 ≠ [] ∧ NoteAny E zf p.2.1 p.2.2) :
    (∀ p ∈ d, NoteOk E zf p.2.1 p.2.2) ∨ readNotes E zf d = some .keyError := by
  induction d with
  | nil => exact Or.inl (by simp)
  | cons p d ih =>
    obtain ⟨id, typ, path⟩ := p
    have ih := ih fun p hp => h p (by simp [hp])
    obtain ⟨hne, hn⟩ := h (id, typ, path) (by simp)
    have w : "comments".toList = ['c', 'o', 'm', 'm', 'e', 'n', 't', 's'] := by decide
    have one : NoteOk E zf typ path ∨ readNotes E zf ((id, typ, path) :: d) = some .keyError := by
      by_cases ht : typ = "comments".toList
      · rcases hn with hn | hn | ⟨notes, h1, h2⟩
        · exact Or.inl (Or.inl hn)
        · exact Or.inl (Or.inr (Or.inl hn))
        · rcases raw_part hz hp h1 with ⟨h3, h4⟩ | h3
          · exact Or.inl (Or.inr (Or.inr ⟨notes, h3, h4, h2⟩))
          · right
            rw [readNotes, if_pos ⟨by rw [ht, w], hne, names_is_some hz h1⟩]
            dsimp only at h3
            rw [h3]
      · exact Or.inl (Or.inl ht)
    rcases one with one | one
    · rcases ih with ih | ih
      · left
        intro p hp
        rcases List.mem_cons.1 hp with rfl | hp
        · exact one
        · exact ih p hp
      · right
        rw [readNotes]
        unfold NoteOk at one
        rw [w] at one
        rcases one with hn | hn | ⟨notes, h1, h2, h3⟩
        · rw [if_neg fun h => hn h.1]; exact ih
        · rw [if_neg fun h => by rw [names_none hz hn] at h; simp at h]; exact ih
        · split
          · rw [openRaw_mem hz h1]
            dsimp only
            rw [h3]
            exact ih
          · exact ih
    · exact Or.inr one

theorem dset_new {κ ν : Type} [DecidableEq κ] {d : List (κ × ν)} {k : κ} {v : ν} (h : k ∉ d.map Prod.fst) :
    dset d k v = d ++ [(k, v)] := by
  induction d with
  | nil => rfl
  | cons q d ih =>
    obtain ⟨k', v'⟩ := q
    simp only [List.map_cons, List.mem_cons, not_or] at h
    rw [dset, if_neg fun hk => h.1 (by rw [hk]), ih h.2]
    rfl

/-- The relations of a sheet, with distinct ids, are all there. -/
theorem sheetRels_all {E : XlEnv} {root : Elem} (hn : ((relations root).map fun e => e.get (bare "Id".toList)).Nodup)
    (h : ∀ e ∈ relations root, ∃ typ target t, e.get (bare "Type".toList) = some typ ∧ LastPart typ t ∧
      e.get (bare "Target".toList) = some target) :
    ∃ d, sheetRels E root = .ok d ∧
      (∀ p ∈ d, ∃ e ∈ relations root, ∃ typ target, e.get (bare "Type".toList) = some typ ∧ LastPart typ p.2.1 ∧
        e.get (bare "Target".toList) = some target ∧ p.2.2 = E.path target) ∧
      ∀ e ∈ relations root, ∀ typ target t, e.get (bare "Type".toList) = some typ → LastPart typ t →
        e.get (bare "Target".toList) = some target → (e.get (bare "Id".toList), t, E.path target) ∈ d := by
  unfold sheetRels
  have hr : (root.children.filter fun e => e.tag = ⟨.pkgrel, ['R', 'e', 'l', 'a', 't', 'i', 'o', 'n', 's', 'h', 'i', 'p']⟩) =
      relations root := by
    unfold relations
    have : "Relationship".toList = ['R', 'e', 'l', 'a', 't', 'i', 'o', 'n', 's', 'h', 'i', 'p'] := by decide
    rw [this]
  rw [hr]
  have w1 : "Id".toList = ['I', 'd'] := by decide
  have w2 : "Type".toList = ['T', 'y', 'p', 'e'] := by decide
  have w3 : "Target".toList = ['T', 'a', 'r', 'g', 'e', 't'] := by decide
  rw [w1] at hn ⊢
  rw [w2, w3] at h ⊢
  generalize relations root = es at hn h
  have key : ∀ d : List (Option (List Char) × List Char × List Char), (∀ e ∈ es, e.get (bare ['I', 'd']) ∉ d.map Prod.fst) →
      ∃ d', foldE (fun rels e =>
        match e.get (bare ['T', 'y', 'p', 'e']), e.get (bare ['T', 'a', 'r', 'g', 'e', 't']) with
        | none, _ => .error .attributeError
        | _, none => .error .typeError
        | some typ, some target =>
          .ok (dset rels (e.get (bare ['I', 'd'])) ((splitChar '/' typ).getLastD [], E.path target))) d es = .ok (d ++ d') ∧
        (∀ p ∈ d', ∃ e ∈ es, ∃ typ target, e.get (bare ['T', 'y', 'p', 'e']) = some typ ∧ LastPart typ p.2.1 ∧
          e.get (bare ['T', 'a', 'r', 'g', 'e', 't']) = some target ∧ p.2.2 = E.path target) ∧
        ∀ e ∈ es, ∀ typ target t, e.get (bare ['T', 'y', 'p', 'e']) = some typ → LastPart typ t →
          e.get (bare ['T', 'a', 'r', 'g', 'e', 't']) = some target → (e.get (bare ['I', 'd']), t, E.path target) ∈ d' := by
    induction es with
    | nil => exact fun d _ => ⟨[], by rw [List.append_nil]; rfl, by simp, by simp⟩
    | cons e es ih =>
      intro d hd
      obtain ⟨typ, target, t, g1, g2, g3⟩ := h e (by simp)
      rw [List.map_cons, List.nodup_cons] at hn
      rw [foldE, g1, g3]
      dsimp only
      rw [dset_new (hd e (by simp)), lastPart_eq g2]
      obtain ⟨d', k1, k2, k3⟩ := ih hn.2 (fun x hx => h x (by simp [hx])) (d ++ [(e.get (bare ['I', 'd']), t, E.path target)]) (by
        intro x hx hc
        rw [List.map_append, List.mem_append] at hc
        rcases hc with hc | hc
        · exact hd x (by simp [hx]) hc
        · simp only [List.map_cons, List.map_nil, List.mem_singleton] at hc
          exact hn.1 (by rw [← hc]; exact List.mem_map.2 ⟨x, hx, rfl⟩))
      refine ⟨(e.get (bare ['I', 'd']), t, E.path target) :: d', by rw [k1, List.append_assoc]; rfl, ?_, ?_⟩
      · intro p hp
        rcases List.mem_cons.1 hp with rfl | hp
        · exact ⟨e, by simp, typ, target, g1, g2, g3, rfl⟩
        · obtain ⟨x, hx, k⟩ := k2 p hp
          exact ⟨x, by simp [hx], k⟩
      · intro x hx typ' target' t' f1 f2 f3
        rcases List.mem_cons.1 hx with rfl | hx
        · rw [g1] at f1
          rw [g3] at f3
          cases f1
          cases f3
          have : t' = t := by rw [← lastPart_eq f2, ← lastPart_eq g2]
          rw [this]
          simp
        · exact List.mem_cons_of_mem _ (k3 x hx typ' target' t' f1 f2 f3)
  obtain ⟨d', k1, k2, k3⟩ := key [] (by simp)
  exact ⟨d', k1, k2, k3⟩

theorem rels_any {E : XlEnv} {zf : Zip} (hz : (zf.map fun p => plainName E p.1).Nodup)
    (hp : ∀ s, plainName E (plainName E s) = plainName E s) {path : List Char} (h : SheetRelsAny E zf path) :
    SheetRelsOk E zf path ∨ readSheetRels E zf path = some .keyError := by
  obtain ⟨last, h1, h2⟩ := h
  have hn : sheetRelsName path = "xl/worksheets/_rels/".toList ++ last ++ ".rels".toList := by
    unfold sheetRelsName
    rw [lastPart_eq h1]
    have w1 : "xl/worksheets/_rels/".toList =
      ['x', 'l', '/', 'w', 'o', 'r', 'k', 's', 'h', 'e', 'e', 't', 's', '/', '_', 'r', 'e', 'l', 's', '/'] := by decide
    have w2 : ".rels".toList = ['.', 'r', 'e', 'l', 's'] := by decide
    rw [w1, w2]
  rcases h2 with h2 | ⟨root, g1, g2, g3⟩
  · exact Or.inl ⟨last, h1, Or.inl h2⟩
  · rcases raw_part hz hp g1 with ⟨k1, k2⟩ | k1
    · obtain ⟨d, e1, e2, e3⟩ := sheetRels_all (E := E) g2 fun e he => by
        obtain ⟨typ, target, t, f1, f2, f3, _⟩ := g3 e he
        exact ⟨typ, target, t, f1, f2, f3⟩
      rcases notes_any hz hp (d := d) (fun p hp => by
          obtain ⟨e, he, typ, target, f1, f2, f3, f4⟩ := e2 p hp
          obtain ⟨typ', target', t', f1', f2', f3', f4', f5'⟩ := g3 e he
          rw [f1] at f1'
          rw [f3] at f3'
          cases f1'
          cases f3'
          have : t' = p.2.1 := by rw [← lastPart_eq f2, ← lastPart_eq f2']
          rw [f4, ← this]
          exact ⟨f4', f5'⟩) with hk | hk
      · refine Or.inl ⟨last, h1, Or.inr ⟨root, k1, k2, fun e he => ?_⟩⟩
        obtain ⟨typ, target, t, f1, f2, f3, _⟩ := g3 e he
        exact ⟨typ, target, t, f1, f2, f3, hk _ (e3 e he typ target t f1 f2 f3)⟩
      · right
        unfold readSheetRels
        rw [hn, names_is_some hz g1, if_pos rfl, openRaw_mem hz k1]
        dsimp only
        rw [e1]
        exact hk
    · right
      unfold readSheetRels
      rw [hn, names_is_some hz g1, if_pos rfl, k1]

theorem sheets_any {E : XlEnv} {zf : Zip} (hz : (zf.map fun p => plainName E p.1).Nodup)
    (hp : ∀ s, plainName E (plainName E s) = plainName E s) {sst : List (List Char)} {xfMap : List (Int × Nat)} {R : Reading}
    (hf : Fits E sst xfMap R) {targets : List (List Char × List Char)} {sheets : List (List Char × List CellOp)}
    (h : Each (SheetPartAny E zf R) targets sheets) :
    Each (SheetPart E zf R) targets sheets ∨ readSheets E zf sst xfMap false targets = .error .keyError := by
  induction h with
  | nil => exact Or.inl .nil
  | @cons t s targets sheets h1 _ ih =>
    obtain ⟨name, path⟩ := t
    obtain ⟨name', ops⟩ := s
    obtain ⟨rfl, ⟨root, k1, k2⟩, k3⟩ := h1
    obtain ⟨x, g, e1, e2, e3⟩ := C61_worksheet hf k2
    rcases rels_any hz hp k3 with hr | hr
    · rcases ih with ih | ih
      · exact Or.inl (.cons ⟨rfl, ⟨root, k1, k2⟩, hr⟩ ih)
      · right
        rw [readSheets, openPart_some hz k1]
        dsimp only
        rw [e1]
        dsimp only
        rw [readSheetRels_none hz hr]
        dsimp only
        rw [e2]
        dsimp only
        rw [ih]
    · right
      rw [readSheets, openPart_some hz k1]
      dsimp only
      rw [e1]
      dsimp only
      rw [hr]

/-- C64: exactly which files are read.  The relations of sheets and their comments are to be
stored under their plain names (lower case, with slashes), as in `BookIs`; if in an otherwise
sound file one of them is not, then the whole file is not read, but a KeyError raised. -/
theorem C64_exact {E : XlEnv} (hE : XlLaws E) (hp : ∀ s, plainName E (plainName E s) = plainName E s) {zf : Zip} {mode : Nat}
    {sheets : List (List Char × List CellOp)} (h : BookIsAny E zf mode sheets) :
    ((∃ bs, openXlsx E false zf = .ok (mode, bs) ∧
      Each (fun (s : List Char × List CellOp) (b : BookSheet) => b.name = s.1 ∧ GridHolds s.2 b.grid) sheets bs) ↔
      BookIs E zf mode sheets) ∧
    (¬ BookIs E zf mode sheets → openXlsx E false zf = .error .keyError) := by
  have key : BookIs E zf mode sheets ∨ openXlsx E false zf = .error .keyError := by
    obtain ⟨hz, relsRoot, rels, wb, targets, types, s1, s2, h1, h2, h3, h4, h5, h6, h7, h8, h9⟩ := h
    have w1 : partRels = "xl/_rels/workbook.xml.rels".toList := by decide
    have w2 : partWorkbook = "xl/workbook.xml".toList := by decide
    have w3 : partProps = "docprops/core.xml".toList := by decide
    have w4 : partStyles = "xl/styles.xml".toList := by decide
    have w5 : partStrings = "sharedstrings.xml".toList := by decide
    have w6 : ['x', 'l', '/'] ++ "sharedstrings.xml".toList = "xl/sharedstrings.xml".toList := by decide
    obtain ⟨d, e1, hd⟩ := processRels_eq h2
    have hst : ∃ st, readStyles E (openPart E zf "xl/styles.xml".toList) = .ok st ∧
        ∀ k : Nat, dget st.xfMap (k : Int) = (styleTypes types)[k]? := by
      rcases h6 with ⟨k1, rfl⟩ | ⟨root, k1, k2⟩
      · rw [openPart_none hz k1]; exact C63_no_styles E
      · rw [openPart_some hz k1]; exact C63_styles hE k2
    obtain ⟨st, e2, hst⟩ := hst
    have hprops : readProps E zf = none := by
      unfold readProps
      rw [w3]
      by_cases hp : ∃ e, HasPart E zf "docprops/core.xml".toList e
      · obtain ⟨e, hp⟩ := hp
        rw [openPart_some hz hp]
        exact h5 e hp
      · rw [openPart_none hz fun e he => hp ⟨e, he⟩]
    have hf : Fits E (s1 ++ s2) st.xfMap { float := E.float, strings := s1 ++ s2, typeOf := fun k => (styleTypes types)[k]? } :=
      ⟨hE, rfl, rfl, fun n => (hst n).symm⟩
    rcases sheets_any hz hp hf h9 with h10 | h10
    · exact Or.inl ⟨hz, relsRoot, rels, wb, targets, types, s1, s2, h1, h2, h3, h4, h5, h6, h7, h8, h10⟩
    · right
      unfold openXlsx
      rw [w2, openPart_some hz h3]
      dsimp only
      rw [w1, openPart_some hz h1]
      dsimp only
      rw [e1]
      dsimp only
      rw [workbook_eq hE hd h4 []]
      dsimp only
      rw [hprops]
      dsimp only
      rw [w4, e2]
      dsimp only
      rw [w5, w6, strings_eq hz h7, strings_eq hz h8, List.nil_append, h10]
  refine ⟨⟨fun ⟨bs, h1, _⟩ => ?_, fun hb => C64_book hE hb⟩, fun hb => key.resolve_left hb⟩
  rcases key with hk | hk
  · exact hk
  · rw [hk] at h1; cases h1

/-! ## An example -/

/-- The relations of the sheet are stored under a name with capitals. -/
def exZipCaps : Zip := exZip ++ [("xl/worksheets/_rels/Sheet1.xml.rels".toList, .mk ⟨.pkgrel, "Relationships".toList⟩ [] none [])]

theorem exZipCaps_book : BookIsAny exXl exZipCaps 1 [("A".toList, exOps [' ', 'a'])] := by
  have hno : ∀ name, (∀ p ∈ exZipCaps, plainName exXl p.1 ≠ name) → NoPart exXl exZipCaps name :=
    fun name h e ⟨actual, h1, h2⟩ => h _ h1 h2
  have hdig : ∀ c : Char, 48 ≤ c.toNat → c.toNat ≤ 57 → NumberText (some [c]) (c.toNat - 48) := fun c h1 h2 =>
    ⟨[c], rfl, by simp, by simp [DecDigit, h1, h2], by simp [decValue]⟩
  refine ⟨by decide +kernel, exRels,
    [("r1".toList, "worksheet".toList, "xl/worksheets/sheet1.xml".toList), ("r2".toList, "chartsheet".toList, "xl/chart.xml".toList)],
    exWorkbook, [("A".toList, "xl/worksheets/sheet1.xml".toList)], [2, 3, 2, 3], [[' ', 'a'], ['b', '\n']], [],
    ⟨"xl/_rels/workbook.xml.rels".toList, by simp [exZipCaps, exZip], by decide +kernel⟩, ⟨?_, by decide +kernel⟩,
    ⟨"xl\\workbook.xml".toList, by simp [exZipCaps, exZip], by decide +kernel⟩, ?_, fun _ _ => rfl,
    Or.inr ⟨exStyles, ⟨"xl/styles.xml".toList, by simp [exZipCaps, exZip], by decide +kernel⟩, exStyles_are⟩,
    Or.inr ⟨exStrings, ⟨"xl/sharedStrings.xml".toList, by simp [exZipCaps, exZip], by decide +kernel⟩, exStrings_are⟩,
    Or.inl ⟨hno _ (by decide +kernel), rfl⟩, ?_⟩
  · refine .cons ⟨by decide +kernel, ⟨"http://x/worksheet".toList, by decide +kernel, by decide +kernel, Or.inr ⟨"http://x".toList, by decide +kernel⟩⟩,
      "Worksheets\\Sheet1.xml".toList, by decide +kernel, Or.inr (by decide +kernel)⟩ (.cons ⟨by decide +kernel,
        ⟨"http://x/chartsheet".toList, by decide +kernel, by decide +kernel, Or.inr ⟨"http://x".toList, by decide +kernel⟩⟩,
        "/xl/chart.xml".toList, by decide +kernel, Or.inl (by decide +kernel)⟩ .nil)
  · show WorkbookAre exXl _ 0 [_, _, _, _, _] 1 _
    refine .other (by decide +kernel) (by decide +kernel) (by decide +kernel) ?_
    refine .mode (m1 := 1) (by decide +kernel) (Or.inr (Or.inr ⟨Or.inl (by decide +kernel), rfl⟩)) ?_
    refine .other (by decide +kernel) (by decide +kernel) (by decide +kernel) ?_
    refine .otherSheet (k := 1) (w := "C".toList) (id := "r2".toList) (typ := "chartsheet".toList) (path := "xl/chart.xml".toList)
      (by decide +kernel) ?_ (by decide +kernel) (by decide +kernel) (by simp) (by decide) ?_
    · have : (exSheetElem "C".toList "1".toList "r2".toList).get (bare "sheetId".toList) = some ['1'] := by decide +kernel
      show NumberText ((exSheetElem "C".toList "1".toList "r2".toList).get (bare "sheetId".toList)) 1
      rw [this]; exact hdig '1' (by decide) (by decide)
    refine .sheet (k := 2) (w := "A".toList) (id := "r1".toList) (by decide +kernel) ?_ (by decide +kernel) ?_ (by decide +kernel)
      (by simp) .nil
    · have : (exSheetElem "A".toList "2".toList "r1".toList).get (bare "sheetId".toList) = some ['2'] := by decide +kernel
      show NumberText ((exSheetElem "A".toList "2".toList "r1".toList).get (bare "sheetId".toList)) 2
      rw [this]; exact hdig '2' (by decide) (by decide)
    · have : "A".toList = ['A'] := by decide
      rw [this]
      exact .char (by rintro ⟨e, n, r, ⟨a, b, c, d, rfl, _⟩, h⟩; simp at h) .nil
  · refine .cons ⟨rfl, ⟨exXSheet, ⟨"xl/worksheets/sheet1.xml".toList, by simp [exZipCaps, exZip], by decide +kernel⟩,
      exXSheet_is rfl rfl rfl rfl⟩, "sheet1.xml".toList, ⟨by decide +kernel, Or.inr ⟨"xl/worksheets".toList, by decide +kernel⟩⟩,
      Or.inr ⟨.mk ⟨.pkgrel, "Relationships".toList⟩ [] none [],
        ⟨"xl/worksheets/_rels/Sheet1.xml.rels".toList, by simp [exZipCaps], by decide +kernel⟩, by simp [relations, Elem.children],
        by simp [relations, Elem.children]⟩⟩ .nil

theorem exXl_plain (s : List Char) : plainName exXl (plainName exXl s) = plainName exXl s := by
  show List.map _ (List.map _ (List.map _ (List.map _ s))) = List.map _ (List.map _ s)
  rw [List.map_map, List.map_map, List.map_map, List.map_map]
  refine List.map_congr_left fun c _ => ?_
  simp only [Function.comp_apply]
  have hb : ('\\' : Char).toNat = 92 := rfl
  have hs : ('/' : Char).toNat = 47 := rfl
  by_cases h1 : c = '\\'
  · rw [if_pos h1]; decide
  · rw [if_neg h1]
    by_cases h2 : 65 ≤ c.toNat ∧ c.toNat ≤ 90
    · rw [if_pos h2]
      have hv : (Char.ofNat (c.toNat + 32)).toNat = c.toNat + 32 := ofNat_toNat (by omega)
      have h3 : Char.ofNat (c.toNat + 32) ≠ '\\' := fun h => by
        have := congrArg Char.toNat h
        rw [hv, hb] at this
        omega
      rw [if_neg h3, if_neg (by rw [hv]; omega)]
    · rw [if_neg h2, if_neg h1, if_neg h2]

example : ¬ BookIs exXl exZipCaps 1 [("A".toList, exOps [' ', 'a'])] := fun hb => by
  obtain ⟨bs, h, _⟩ := (C64_exact exXl_laws exXl_plain exZipCaps_book).1.2 hb
  have : (match openXlsx exXl false exZipCaps with
    | .error e => decide (e = .keyError)
    | .ok _ => false) = true := by decide +kernel
  rw [h] at this
  cases this

end CP
