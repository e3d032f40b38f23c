import Verif.Lemmas.XlsxStyles
/-!
# Lemmas about the parts of xlsx files
-/

namespace CP
open Spec

theorem splitChar_snoc (c : Char) (s t : List Char) : splitChar c (s ++ c :: t) = splitChar c s ++ splitChar c t := by
  induction s with
  | nil => simp [splitChar]
  | cons x xs ih =>
    rw [List.cons_append, splitChar, splitChar, ih]
    split
    · rfl
    · cases h : splitChar c xs with
      | nil => exact absurd h (splitChar_ne_nil c xs)
      | cons p ps => rfl

theorem lastPart_eq {s last : List Char} (h : LastPart s last) : (splitChar '/' s).getLastD [] = last := by
  obtain ⟨h1, rfl | ⟨p, rfl⟩⟩ := h
  · rw [splitChar_free h1]; rfl
  · rw [splitChar_snoc, splitChar_free h1]
    simp [List.getLastD_eq_getLast?]

/-! ## Parts of the zip file -/

theorem nodup_actual {E : XlEnv} {zf : Zip} (h : (zf.map fun p => plainName E p.1).Nodup) : (zf.map Prod.fst).Nodup := by
  have h1 : (zf.map fun p => plainName E p.1) = (zf.map Prod.fst).map (plainName E) := by rw [List.map_map]; rfl
  rw [h1] at h
  exact List.Pairwise.of_map _ (fun a b hab hc => hab (by rw [hc])) h

theorem componentNames_get {E : XlEnv} {zf : Zip} (h : (zf.map fun p => plainName E p.1).Nodup) (name : List Char) :
    dget (componentNames E zf) name = dget (zf.map fun p => (plainName E p.1, p.1)) name := by
  unfold componentNames
  refine dget_dictOf (ps := zf.map fun p => (plainName E p.1, p.1)) ?_ name
  rw [List.map_map]
  exact h

theorem openRaw_mem {E : XlEnv} {zf : Zip} (h : (zf.map fun p => plainName E p.1).Nodup) {name : List Char} {e : Elem}
    (hm : (name, e) ∈ zf) : openRaw zf name = .ok e := by
  unfold openRaw
  rw [dget_dictOf (nodup_actual h), dget_of_mem (nodup_actual h) hm]

theorem openPart_some {E : XlEnv} {zf : Zip} (h : (zf.map fun p => plainName E p.1).Nodup) {name : List Char} {e : Elem}
    (hp : HasPart E zf name e) : openPart E zf name = some e := by
  obtain ⟨actual, hm, rfl⟩ := hp
  unfold openPart
  rw [componentNames_get h]
  have hk : (dkeys (zf.map fun p => (plainName E p.1, p.1))).Nodup := by
    unfold dkeys; rw [List.map_map]; exact h
  rw [dget_of_mem hk (List.mem_map.2 ⟨_, hm, rfl⟩)]
  dsimp only
  rw [dget_dictOf (nodup_actual h), dget_of_mem (nodup_actual h) hm]

theorem names_none {E : XlEnv} {zf : Zip} (h : (zf.map fun p => plainName E p.1).Nodup) {name : List Char} (hp : NoPart E zf name) :
    dget (componentNames E zf) name = none := by
  rw [componentNames_get h]
  cases hd : dget (zf.map fun p => (plainName E p.1, p.1)) name with
  | none => rfl
  | some actual =>
    obtain ⟨⟨n, e⟩, h1, h2⟩ := List.mem_map.1 (dget_mem hd)
    simp only [Prod.mk.injEq] at h2
    obtain ⟨h2, rfl⟩ := h2
    exact absurd ⟨n, h1, h2⟩ (hp e)

theorem openPart_none {E : XlEnv} {zf : Zip} (h : (zf.map fun p => plainName E p.1).Nodup) {name : List Char}
    (hp : NoPart E zf name) : openPart E zf name = none := by
  unfold openPart
  rw [names_none h hp]

theorem names_some {E : XlEnv} {zf : Zip} (h : (zf.map fun p => plainName E p.1).Nodup) {name : List Char} {e : Elem}
    (hm : (name, e) ∈ zf) (hn : plainName E name = name) : dget (componentNames E zf) name = some name := by
  rw [componentNames_get h]
  have hk : (dkeys (zf.map fun p => (plainName E p.1, p.1))).Nodup := by
    unfold dkeys; rw [List.map_map]; exact h
  refine dget_of_mem hk (List.mem_map.2 ⟨_, hm, ?_⟩)
  rw [hn]

/-! ## Relations -/

theorem path_eq {E : XlEnv} {target path : List Char} (h : PathOf E target path) :
    relPath E target = path := by
  unfold relPath
  have hc : convertFilename E target = plainName E target := rfl
  rw [hc]
  rcases h with h | ⟨h1, rfl⟩
  · rw [h]; rfl
  · have : "xl/".toList = ['x', 'l', '/'] := by decide
    rw [this]
    split
    · rename_i h; rw [h] at h1; simp at h1
    · rfl

theorem processRels_eq {E : XlEnv} {root : Elem} {rels : List (List Char × List Char × List Char)} (h : RelsAre E root rels) :
    ∃ d, processRels E root = .ok d ∧ ∀ id typ path, (id, typ, path) ∈ rels → dget d (some id) = some (typ, path) := by
  obtain ⟨h1, h2⟩ := h
  refine ⟨dictOf (rels.map fun r => (some r.1, r.2)), ?_, fun id typ path hm => ?_⟩
  · unfold processRels dictOf
    have hr : (root.children.filter fun e => e.tag = ⟨.pkgrel, ['R', 'e', 'l', 'a', 't', 'i', 'o', 'n', 's', 'h', 'i', 'p']⟩) =
        relations root := by
      unfold relations
      have : "Relationship".toList = ['R', 'e', 'l', 'a', 't', 'i', 'o', 'n', 's', 'h', 'i', 'p'] := by decide
      rw [this]
    rw [hr]
    clear h2 hr
    generalize relations root = es at h1
    generalize ([] : List (Option (List Char) × List Char × List Char)) = d
    induction h1 generalizing d with
    | nil => rfl
    | @cons e r es rels h _ ih =>
      obtain ⟨g1, ⟨typ, g2, g3⟩, target, g4, g5⟩ := h
      have w1 : "Id".toList = ['I', 'd'] := by decide
      have w2 : "Type".toList = ['T', 'y', 'p', 'e'] := by decide
      have w3 : "Target".toList = ['T', 'a', 'r', 'g', 'e', 't'] := by decide
      rw [w1] at g1
      rw [w2] at g2
      rw [w3] at g4
      rw [foldE, g4, g2]
      dsimp only
      rw [path_eq g5, lastPart_eq g3, g1]
      exact ih _
  · have hk : ((rels.map fun r => (some r.1, r.2)).map Prod.fst).Nodup := by
      have : ((rels.map fun r => (some r.1, r.2)).map Prod.fst) = (rels.map Prod.fst).map some := by
        rw [List.map_map, List.map_map]; rfl
      rw [this]
      refine List.Pairwise.map _ (fun a b hab => ?_) h2
      simpa using hab
    rw [dget_dictOf hk]
    exact dget_of_mem hk (List.mem_map.2 ⟨_, hm, rfl⟩)

/-! ## The workbook -/

theorem boolOf_eq {s : Option (List Char)} {n : Nat} (h : BoolOf s n) : xsdBoolean s = .ok n := by
  rcases h with ⟨rfl, rfl⟩ | ⟨rfl | rfl, rfl⟩ | ⟨rfl | rfl, rfl⟩ <;> decide +kernel

theorem book_other {E : XlEnv} (d : List (Option (List Char) × List Char × List Char)) (b : XBook) {e : Elem}
    (h1 : isMain e "workbookPr".toList = false) (h2 : isMain e "definedNames".toList = false)
    (h3 : isMain e "sheet".toList = false) : XBook.elem E d b e = .ok b := by
  unfold XBook.elem
  by_cases hns : e.tag.ns ≠ .ssml ∧ e.tag.ns ≠ .none
  · rw [if_pos hns]
  · rw [if_neg hns, if_neg fun hn => not_main h1 hns hn (by decide), if_neg fun hn => not_main h2 hns hn (by decide),
      if_neg fun hn => not_main h3 hns hn (by decide)]

theorem book_names {E : XlEnv} (d : List (Option (List Char) × List Char × List Char)) (b : XBook) {e : Elem}
    (h : isMain e "definedNames".toList = true) (h1 : E.names e = none) : XBook.elem E d b e = .ok b := by
  obtain ⟨g1, g2⟩ := isMain_iff.1 h
  unfold XBook.elem
  rw [if_neg g1, g2, if_neg (by decide), if_pos (by decide), h1]

theorem book_mode {E : XlEnv} (d : List (Option (List Char) × List Char × List Char)) (b : XBook) {e : Elem} {m : Nat}
    (h : isMain e "workbookPr".toList = true) (h1 : BoolOf (e.get (bare "date1904".toList)) m) :
    XBook.elem E d b e = .ok { b with datemode := m } := by
  obtain ⟨g1, g2⟩ := isMain_iff.1 h
  have w : "date1904".toList = ['d', 'a', 't', 'e', '1', '9', '0', '4'] := by decide
  have h1 := boolOf_eq h1
  rw [w] at h1
  unfold XBook.elem
  rw [if_neg g1, g2, if_pos (by decide), h1]

theorem book_sheet {E : XlEnv} (hE : XlLaws E) {d : List (Option (List Char) × List Char × List Char)} (b : XBook) {e : Elem}
    {k : Nat} {w id typ path : List Char} (h : isMain e "sheet".toList = true) (h1 : NumberText (e.get (bare "sheetId".toList)) k)
    (h2 : e.get (bare "name".toList) = some w) (h3 : e.get ⟨.odrel, "id".toList⟩ = some id) (h4 : dget d (some id) = some (typ, path)) :
    XBook.elem E d b e = if typ ≠ "worksheet".toList then .ok b else .ok { b with sheets := b.sheets ++ [(unescape w, path)] } := by
  obtain ⟨g1, g2⟩ := isMain_iff.1 h
  have w1 : "sheetId".toList = ['s', 'h', 'e', 'e', 't', 'I', 'd'] := by decide
  have w2 : "name".toList = ['n', 'a', 'm', 'e'] := by decide
  have w3 : "id".toList = ['i', 'd'] := by decide
  have w4 : "worksheet".toList = ['w', 'o', 'r', 'k', 's', 'h', 'e', 'e', 't'] := by decide
  have h1 := digits_int hE h1
  rw [w1] at h1
  rw [w2] at h2
  rw [w3] at h3
  rw [w4]
  unfold XBook.elem
  rw [if_neg g1, g2, if_neg (by decide), if_neg (by decide), if_pos (by decide), h1]
  dsimp only
  rw [h2]
  dsimp only
  rw [h3, h4]

theorem workbook_eq {E : XlEnv} (hE : XlLaws E) {rels : List (List Char × List Char × List Char)}
    {d : List (Option (List Char) × List Char × List Char)}
    (hd : ∀ id typ path, (id, typ, path) ∈ rels → dget d (some id) = some (typ, path)) {m m' : Nat} {es : List Elem}
    {sheets : List (List Char × List Char)} (h : WorkbookAre E rels m es m' sheets) (pre : List (List Char × List Char)) :
    foldE (XBook.elem E d) { sheets := pre, datemode := m } es = .ok { sheets := pre ++ sheets, datemode := m' } := by
  induction h generalizing pre with
  | nil => rw [List.append_nil]; rfl
  | other h1 h2 h3 _ ih => rw [foldE, book_other d _ h1 h2 h3]; exact ih pre
  | names h1 h2 _ ih => rw [foldE, book_names d _ h1 h2]; exact ih pre
  | mode h1 h2 _ ih => rw [foldE, book_mode d _ h1 h2]; exact ih pre
  | sheet h1 h2 h3 h4 h5 h6 _ ih =>
    rw [foldE, book_sheet hE _ h1 h2 h3 h5 (hd _ _ _ h6), if_neg (by simp), unescaped_eq h4]
    dsimp only
    rw [ih, List.append_assoc]
    rfl
  | otherSheet h1 h2 h3 h4 h5 h6 _ ih =>
    rw [foldE, book_sheet hE _ h1 h2 h3 h4 (hd _ _ _ h5), if_pos h6]
    exact ih pre

/-! ## The relations of a sheet -/

theorem mem_dset_cases {κ ν : Type} [DecidableEq κ] {d : List (κ × ν)} {k : κ} {v : ν} {p : κ × ν} (h : p ∈ dset d k v) :
    p ∈ d ∨ p = (k, v) := by
  induction d with
  | nil => simpa [dset] using h
  | cons q d ih =>
    obtain ⟨k', v'⟩ := q
    rw [dset] at h
    split at h
    · rename_i hk
      rcases List.mem_cons.1 h with rfl | h
      · exact Or.inr (by rw [hk])
      · exact Or.inl (by simp [h])
    · rcases List.mem_cons.1 h with rfl | h
      · exact Or.inl (by simp)
      · rcases ih h with h | h
        · exact Or.inl (by simp [h])
        · exact Or.inr h

/-- What is to be true of a relation of a sheet. -/
def NoteOk (E : XlEnv) (zf : Zip) (typ path : List Char) : Prop :=
  typ ≠ "comments".toList ∨ NoPart E zf path ∨ ∃ notes, (path, notes) ∈ zf ∧ plainName E path = path ∧ E.notes notes = none

theorem sheetRels_eq {E : XlEnv} {zf : Zip} {root : Elem}
    (h : ∀ e ∈ relations root, ∃ typ target t, e.get (bare "Type".toList) = some typ ∧ LastPart typ t ∧
      e.get (bare "Target".toList) = some target ∧ NoteOk E zf t (E.path target)) :
    ∃ d, sheetRels E root = .ok d ∧ ∀ p ∈ d, NoteOk E zf p.2.1 p.2.2 := by
  unfold sheetRels
  have hr : (root.children.filter fun e => e.tag = ⟨.pkgrel, ['R', 'e', 'l', 'a', 't', 'i', 'o', 'n', 's', 'h', 'i', 'p']⟩) =
      relations root := by
    unfold relations
    have : "Relationship".toList = ['R', 'e', 'l', 'a', 't', 'i', 'o', 'n', 's', 'h', 'i', 'p'] := by decide
    rw [this]
  rw [hr]
  generalize relations root = es at h
  have key : ∀ d : List (Option (List Char) × List Char × List Char), (∀ p ∈ d, NoteOk E zf p.2.1 p.2.2) → ∃ d', foldE (fun rels e =>
      match e.get (bare ['T', 'y', 'p', 'e']), e.get (bare ['T', 'a', 'r', 'g', 'e', 't']) with
      | none, _ => .error .attributeError
      | _, none => .error .typeError
      | some typ, some target =>
        .ok (dset rels (e.get (bare ['I', 'd'])) ((splitChar '/' typ).getLastD [], E.path target))) d es = .ok d' ∧
        ∀ p ∈ d', NoteOk E zf p.2.1 p.2.2 := by
    induction es with
    | nil => exact fun d hd => ⟨d, rfl, hd⟩
    | cons e es ih =>
      intro d hd
      obtain ⟨typ, target, t, g1, g2, g3, g4⟩ := h e (by simp)
      have w2 : "Type".toList = ['T', 'y', 'p', 'e'] := by decide
      have w3 : "Target".toList = ['T', 'a', 'r', 'g', 'e', 't'] := by decide
      rw [w2] at g1
      rw [w3] at g3
      rw [foldE, g1, g3]
      dsimp only
      refine ih (fun x hx => h x (by simp [hx])) _ fun p hp => ?_
      rcases mem_dset_cases hp with h | rfl
      · exact hd p h
      · rw [lastPart_eq g2]; exact g4
  exact key [] (by simp)

theorem readNotes_none {E : XlEnv} {zf : Zip} (hz : (zf.map fun p => plainName E p.1).Nodup)
    {d : List (Option (List Char) × List Char × List Char)} (h : ∀ p ∈ d, NoteOk E zf p.2.1 p.2.2) : readNotes E zf d = none := by
  induction d with
  | nil => rfl
  | cons p d ih =>
    obtain ⟨id, typ, path⟩ := p
    have ih := ih fun p hp => h p (by simp [hp])
    rw [readNotes]
    have w : "comments".toList = ['c', 'o', 'm', 'm', 'e', 'n', 't', 's'] := by decide
    have hn := h (id, typ, path) (by simp)
    unfold NoteOk at hn
    rw [w] at hn
    rcases hn with hn | hn | ⟨notes, h1, h2, h3⟩
    · rw [if_neg fun h => hn h.1]; exact ih
    · rw [if_neg fun h => by rw [names_none hz hn] at h; simp at h]; exact ih
    · split
      · rw [openRaw_mem hz h1]
        dsimp only
        rw [h3]
        exact ih
      · exact ih

theorem readSheetRels_none {E : XlEnv} {zf : Zip} (hz : (zf.map fun p => plainName E p.1).Nodup) {path : List Char}
    (h : SheetRelsOk E zf path) : readSheetRels E zf path = none := by
  obtain ⟨last, h1, h2⟩ := h
  have hn : sheetRelsName path = "xl/worksheets/_rels/".toList ++ last ++ ".rels".toList := by
    unfold sheetRelsName
    rw [lastPart_eq h1]
    have w1 : "xl/worksheets/_rels/".toList =
      ['x', 'l', '/', 'w', 'o', 'r', 'k', 's', 'h', 'e', 'e', 't', 's', '/', '_', 'r', 'e', 'l', 's', '/'] := by decide
    have w2 : ".rels".toList = ['.', 'r', 'e', 'l', 's'] := by decide
    rw [w1, w2]
  unfold readSheetRels
  rw [hn]
  rcases h2 with h2 | ⟨root, g1, g2, g3⟩
  · rw [names_none hz h2]; rfl
  · rw [names_some hz g1 g2, Option.isSome_some, if_pos rfl, openRaw_mem hz g1]
    dsimp only
    obtain ⟨d, e1, e2⟩ := sheetRels_eq g3
    rw [e1]
    exact readNotes_none hz e2

end CP
